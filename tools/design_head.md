# Formal model of mt_metadata: design

Sections 8 and 9 are generated (`python3 tools/design.py`); the rest is `tools/design_head.md`.

## 1. What is here

* `properties.jsonl`: the properties (C01, C02, ...), in terms of the public API.
* `lean/Verif/Base/*`: models of Python built-ins (exceptions, ordered dict, `sorted`, string methods, numbers as text).
* `lean/Verif/Model/*`: the model, function by function; each definition cites the file and lines
  in `/repo` it follows and states its simplifications.
* `lean/Verif/Lemmas/*`: helper lemmas.
* `lean/Verif/Props/*`: the property theorems, refutations and cases that meet the hypotheses.
* `MANIFEST.json`: property -> theorems. `seeded/LOG.jsonl`: experiments with wrong programs.

## 2. Conventions

* A Python exception is a value: functions that can raise return `Except PyErr a`.
  When a raising method leaves the object partly updated the model returns both
  (a state/result pair), otherwise a raise means the receiver is unchanged.
* Python objects are modelled by value. Aliasing (two names for one mutable object) is
  not modelled, except where a definition says so.
* `OrderedDict`/`dict` is an association list in insertion order with distinct keys;
  assignment to an existing key keeps its position.
* `float` is modelled by exact rationals, reals or complex numbers. Rounding, NaN and infinities are outside the
  model unless a definition says otherwise. Integers are unbounded, as in Python.
* Text is a list of characters. Upper and lower case are those of the ASCII letters.
* pydantic: field validators run before the value is stored; `mode="after"` model validators run
  after every assignment (`validate_assignment=True`) with the new value already stored.
* Logging has no effect in the model.
* Libraries whose result depends on unspecified choices (order of a `set`, unstable sorts, windows of scipy,
  printing of floats) are parameters; theorems assume only what is stated in their hypotheses.
* When the code violates a property, the full property is kept as a `def ..._claim : Prop` (or stated inline in the
  negation), a theorem refutes it with a concrete witness (`..._refuted`), and the
  strongest true version is proved with suffix `_partial`. A property counts as `partial` in the manifest as soon as
  one of its theorems carries one of these suffixes.

## 3. Trusted base

* Lean's kernel (4.33.0) and the axioms `propext`, `Classical.choice`, `Quot.sound` (section 9 says which theorem uses
  which). No axioms of our own, no `sorry`, no `native_decide`, no `bv_decide`. `decide +kernel` is used for
  finite tables (it is checked by the kernel alone).
* The reading of the code: the model is tied to `/repo` only by the cited lines. Nothing was run.
* The behaviour of library calls, stated at the definition that stands for them (collections.OrderedDict, sorted,
  str methods, pandas.Timestamp and Interval, numpy, obspy containers, pydantic).

## 4. What is modelled

| model | code |
|-------|------|
| ListDict | common/list_dict.py, all of `ListDict` |
| Dicts, Xml | base/helpers.py: flatten_dict, structure_dict, recursive_split_dict, requires/strip helpers, dict_to_xml, element_to_dict |
| Metadata | base/metadata.py: update, `__eq__`, to_dict, from_dict, dotted keywords |
| MTime | common/mttime.py: parsing of numbers, comparison, arithmetic, GPS leap seconds, rounding, get_now_utc; common/time_period.py |
| Band, FreqBands | common/band.py, processing/aurora/frequency_bands.py |
| Run, Station, Survey, ExperimentXml | timeseries/run.py, station.py, survey.py, experiment.py: bookkeeping, time periods, bounding box, merging, XML skeleton |
| Names, Location, Units, Enums, Comment, License | utils/validators.py, utils/location_helpers.py, common/units.py, common/enumerations.py, common/comment.py, common/copyright.py |
| Applied, Filters | timeseries/filtered.py, channel.py (filters), timeseries/filters/*.py: complex responses, pass band, units, delays, FIR symmetry, response tables |
| Fdsn, XmlText, XmlEpochs | timeseries/stationxml/*.py: codes, packed texts, epochs, licences |
| Processing, FC, Aurora, Weights | processing/**, features/weights/*.py |
| IoTools, Edi*, Zmm*, JFile | transfer_functions/io/tools.py, edi/edi.py, zfiles/zmm.py, jfiles/jfile.py, jfiles/metadata/header.py |
| Zonge | transfer_functions/io/zonge/zonge.py, zonge/metadata/header.py, to_avg and from_avg in core.py |
| Tf | transfer_functions/core.py: the data set, the properties returning arrays and their setters |
| TfMerge | transfer_functions/core.py: `merge`, `__eq__`, names and formats of files in `write` and `read` |
| TfConvert | transfer_functions/core.py: the arrays in `to_edi`, `from_edi`, `to_emtfxml`, `from_emtfxml`, `to_zmm`, `from_zmm` |
| EmtfData | transfer_functions/io/emtfxml/metadata/data.py, metadata/helpers.py, emtfxml.py: data, estimates, data types, site layout |
| EdiMeta | transfer_functions/io/edi/metadata: header.py, define_measurement.py, emeasurement.py, hmeasurement.py, data_section.py (reading and writing of the sections) |
| EdiInfo | transfer_functions/io/edi/metadata/information.py (the information section: the standard, Phoenix and Empower formats, writing) |
| Stages | timeseries/filters: `to_obspy` of all filters and of the channel response, filter_base.py `from_obspy_stage`, obspy_stages.py; stationxml/xml_channel_mt_channel.py: response, units, orientation, position |
| EdiStation | transfer_functions/io/edi/edi.py: survey and station metadata, electric and magnetic channels through the header and the information section; `to_edi` and `from_edi` of core.py as far as they use them |
| EmtfRuns | transfer_functions/io/emtfxml/emtfxml.py L1033-L1168, L1404-L1560: field notes and site layout made of the runs of a station, and the runs made of them, with `_update_site_layout` in between |
| EmtfStation | transfer_functions/io/emtfxml/emtfxml.py L560-L606, L730-L1048, L1172-L1408, transfer_functions/core.py L2157-L2168: survey and station metadata of an EMTF XML object without the runs, its comments and processing parameters, the title lines |
| EmtfFile | transfer_functions/io/emtfxml/metadata: field_notes.py, run.py, instrument.py, magnetometer.py, dipole.py, electrode.py, site_layout.py, magnetic.py, electric.py; emtfxml.py L309-L430: writing and reading of the file, entities and `&` |
| EmtfRunFile | the runs of a station through EmtfRuns and EmtfFile: `to_emtfxml`, `write`, `read`, `from_emtfxml` |
| ExperimentDict | timeseries/experiment.py L250-L369, L610-L634 (`to_dict`, `from_dict`, `from_json`, `sort`) with run.py L318-L349, station.py L300-L337, survey.py L381-L514, channel.py L560-L575 |
| Rename | timeseries/run.py L830-L885 (`update_channel_keys`), station.py L519-L540 (`update_run_keys`), common/list_dict.py L304-L332 |
| TfMeta | transfer_functions/core.py L227-L265, L366-L475, L1588-L1605: the survey, station and run of a TF, and how files set them |
| LevelBands | processing/aurora/decimation_level.py L219-L360, L603-L646, helper_functions.py: the bands of a decimation level |
| FilterFile | base/metadata.py and base/helpers.py for filters with arrays: to_json, from_json, to_xml, extract_numbers, object_to_array. ExperimentXml takes filters to be written and read faithfully; this module shows for which filters that is so |
| EmtfSite | emtfxml/metadata/site.py, location.py, orientation.py, data_quality_notes.py, data_quality_warnings.py: to_xml and read_dict, with helpers.to_xml, the tree of the file and its dictionaries from EmtfData and EmtfFile. Parameters: printing and parsing of numbers, times, years and reference systems |
| EmtfBlocks | emtfxml/metadata/attachment.py, processing_info.py, remote_info.py, remote_ref.py, software.py, and emtfxml.py `write` as to the remote site. Not kept: what of a remote site was set before an AttributeError |
| ManyFiles | timeseries/tools/from_many_mt_files.py: names of files, sorting, and which of the objects can be made; contents of files are not modelled |
| XmlStation | timeseries/stationxml/xml_station_mt_station.py, with what it uses of xml_equipment_mt_run.py, utils.py and station.py; obspy objects as records, comments of runs and channels left out |
| XmlSurvey | timeseries/stationxml/xml_network_mt_survey.py, utils.py (`read_xml_identifier`), utils/validators.py (`validate_doi`); pydantic's URLs and the release status are functions of the world |
| MTimeParts | common/mttime.py (parts of a time and their setters); `Timestamp.replace` is taken from the documentation of pandas |
| ChanFilt | timeseries/channel.py (`from_dict`, `parse_filters_string`, the old formats of filters), timeseries/filtered.py; parsing of texts of lists is a function of the world |
| Features | features/coherence.py, fc_coherence.py, striding_window_coherence.py, weights/feature_weight_spec.py (class of the feature), processing/aurora/stations.py (`validate_remote`), processing.py (`validate_processing`); exact complex arithmetic, scipy's coherence is a function of the world |
| AttrNames | base/metadata.py (`update_attribute`, `get_attr_from_name`, `set_attr_from_name`), base/helpers.py (`recursive_split_getattr`, `recursive_split_setattr`); objects are trees, validation is a function of the world |
| EdiGeometry | edi/metadata/define_measurement.py (`from_metadata`), emeasurement.py, hmeasurement.py, edi.py (`_get_electric_metadata`, `_get_magnetic_metadata`); reals for floats, the two decimals of written lines left out |
| MDate | common/mttime.py (`MDate`: days added and subtracted, differences, dictionaries); whole numbers of days |
| EmtfNotes | transfer_functions/io/emtfxml/emtfxml.py (`_parse_comments_electric`, `_parse_comments_magnetic`) |
| XmlSensor | timeseries/stationxml/xml_channel_mt_channel.py (`_sensor_to_mt`, `_mt_to_sensor`, `_parse_dipole_length`, `_deduce_sensor_type`) |
| NormFreq | timeseries/filters/channel_response.py (normalisation frequency), timeseries/channel.py (`channel_response`); real numbers, rounding a parameter |
| Schema | utils/validators.py (types, units, styles, options, defaults, values, dictionaries), base/schema.py (`BaseDict`: items, `add_dict`, JSON and CSV); reading and writing of numbers is world |
| TimeText | common/mttime.py (`_parse_string`, `_fix_out_of_bounds_time_stamp`, texts in `parse`); texts are given by their numbers, what pandas and dateutil make of them is part of the model |
| Nomen | transfer_functions/core.py and io/zfiles/zmm.py (`channel_nomenclature`, `inverse_channel_nomenclature`, templates of data sets, `copy`); dictionaries are shared objects, programs are lists of operations |
| EmtfRest | emtfxml/metadata/statistical_estimates.py, estimate.py, data_types.py, data_type.py, copyright.py, citation.py, utils/validators.py (`validate_doi`); links and units are parameters |
| RunLists | timeseries/run.py (`validate_list_of_strings`, `validate_channels_recorded` with refused names, construction with lists, `channel_index`), patterns of `component` |
| ListFields | common/rating.py, common/funding_source.py, jfiles/metadata/birrp_block.py (validators); digits of ASCII |
| FieldCache | base/pydantic_helpers.py (caches in memory and on disk, fingerprints, flattening); hashes one-to-one, files not damaged |
| EmtfWrite | emtfxml/emtfxml.py (`write` as to which elements and remote parts there are, ranges of periods over histories), metadata/remote_info.py, metadata/period_range.py; periods are rational numbers, printing rounds halves to even |
| ZmmUse | zfiles/zmm.py (one object for several files: channels, decimation levels, sample rate); sampling rates are rational numbers, the text of a period is a parameter, that later steps of reading may fail is left out |
| Copies | base/metadata.py (`copy`), common/list_dict.py (`__deepcopy__`, `copy`, `extend`), `merge` of runs, stations and surveys; objects are cells of a heap, values are opaque, an object reached twice is copied twice, rebuilding from a dictionary is a parameter |
| EdiUse | edi/edi.py (`read` of several files with one object: channels, positions, Phoenix format), edi/metadata/header.py, define_measurement.py; the lines of a file are given as values, `write_meas_line` is a parameter |
| AvgUse | zonge/metadata/header.py (`read_header` as to components, `_has_channel`, `instrument_id`, `center_location`), zonge/zonge.py (`run_metadata`, where channels are taken from, second values), zonge/metadata/ch.py; values within a component are as they are |
| JUse | jfiles/jfile.py (`read` of several files with one object, also with errors), jfiles/metadata/header.py (`read_header`, `read_metadata`); what a line sets is given |
| Standards | base/schema.py (`to_latex`, `add_dict` with errors), utils/summarize.py (all but how values are taken from fields of classes); lines of tables and validation are given |
| StdFields | utils/summarize.py (`_get_field_type`, `_get_field_options`), with the enumerations of Enums; annotations that occur |
| EdiKept | transfer_functions/io/edi/edi.py (`read`, `_read_data`: what is set and what stays), edi/metadata/data_section.py (`get_data`); what lines of data give is a parameter |
| ToZmm | transfer_functions/core.py (`to_zmm`, `make_zmm_run`, `inverse_channel_nomenclature`: runs, names and numbers of channels) |
| TsStation | transfer_functions/core.py (`to_ts_station_metadata`, `from_ts_station_metadata`) on `to_dict` of Metadata |
| RespUnits | timeseries/filters/channel_response.py (`validate_filters_list`, `update_units_and_normalization_frequency_from_filters_list`, `_check_consistency_of_units`) |
| FieldShare | base/metadata.py (`get_all_fields`, `_required_fields`) with shared summaries of base/pydantic_helpers.py |
| WebLinks | transfer_functions/io/emtfxml/metadata/external_url.py, common/person.py (`validate_url`) |
| PzNorm | timeseries/filters/pole_zero_filter.py (`normalization_frequency`), filter_base.py (`pass_band` for any window and tolerance) |

How the properties of each file are proved:

| Props file | method |
|------------|--------|
| ListDict | refinement: a ListDict against an ordered map; invariants (distinct keys, order) by induction over histories of operations |
| Dicts, Xml | structural induction over nested dictionaries and element trees; round trips as inverse functions |
| Metadata | induction over the list of attributes; equality characterised attribute by attribute |
| MTime | arithmetic over integers and rationals, case analysis over the whole leap second table by the kernel |
| Band, FreqBands | order reasoning over rationals; induction over lists of bands; conservation under sorting (permutation) |
| Run, Station, Survey | invariants over histories of additions, removals and merges (induction over operations), frame theorems |
| ExperimentXml | round trip of trees by induction over surveys, stations, runs, channels |
| Names, Location, Units, Enums, Comment, License, IoTools, XmlText | induction over characters and words; parsers proved inverse to printers |
| Fdsn | case analysis over code tables, order reasoning for bands |
| Applied, Filters, PassBand | complex analysis of products; induction over coefficients and tables |
| Processing, FC, Aurora, Weights | induction over levels, bands, lists of weights; finite sums |
| XmlEpochs, XmlRuns | induction over epochs with an invariant relating inventory and runs |
| ZmmRotate, EdiSpectra, EdiRho | matrix algebra over the complex numbers (inverses, Hermitian and positive matrices), trigonometry |
| EdiData, EdiBlocks, ZmmText, JFile, ZongeText | induction over lines, words and blocks; the reader is shown to invert the writer |
| Zonge | induction over rows with the last row of each place; polar coordinates of complex numbers |
| Tf | refinement: the labelled data set against independent arrays, by induction over histories of assignments |
| TfMerge | slices of monotonic lists by counting, combination of data sets as a sorted permutation; induction over items |
| TfConvert | conversions as histories of assignments to the refined data set of Tf; labelled blocks compared entry by entry |
| EmtfData | the reader is shown to invert the writer element by element, through the dictionary of the file; structural induction over nested values |
| EdiMeta | induction over lines and items: the reader of each section is shown to invert its writer, between any other lines; sorting as a permutation |
| EdiInfo | the fold over the lines of the section: an invariant of the dictionary for stability, the last value of each name, the state of the Empower reader; words with gaps for columns |
| Stages | every filter is followed through its stage and back; induction over the filters with the dictionary of names; products of complex numbers; order of texts |
| EdiStation | what is written is an explicit list of names and values; the reader is followed over each of its parts, names that match no word of the reader change nothing |
| EmtfRuns | invariants of the folds over runs, channels and comments; the site layout is characterised as a function of the last run that has a channel |
| EmtfStation | the object as a dictionary of dotted names; every assignment is looked up in closed tables of distinct names, checked in the kernel; comments and parameters by induction: the last accepted text wins |
| EmtfFile | an element and the dictionary entry it is read as are related by `Val` and `Piece`, closed under parents and lists; the readers look up these dictionaries |
| EmtfRunFile | composition of the theorems on EmtfRuns and EmtfFile |
| ExperimentDict | reading a dictionary is followed assignment by assignment, with the invariants of Run and Station |
| Rename | case analysis over the three steps of the validator of a run, with the invariants of Run and Station |
| TfMeta | invariant over all sequences of assignments, on top of those of Survey and Station |
| LevelBands | induction over lists of bands, uniqueness of sorted permutations, on top of Band and Processing |
| FilterFile | induction over field lists and over the characters of a text |
| EmtfSite | the lemmas on pieces of children of EmtfFile, field by field; induction over names of runs |
| EmtfBlocks | the lemmas on pieces of children; induction over files read and over writes |
| ManyFiles | names of files at their dots (a component is in a name iff it is in a part); lemmas on `find?`, `filterMap` and `mapM` |
| XmlStation | comments one by one (keys by evaluation, texts for all); induction over the equipments with the runs that are done and those that are not; extending a period twice |
| XmlSurvey | comments one by one; identifiers by lemmas on `splitSub`, repeated by induction; errors by a comment that no state accepts |
| MTimeParts | parts and nanoseconds are inverse to each other (`ofOrdinal_spec`, `ofOrdinal_ordinal`), everything else follows |
| ChanFilt | induction over the entries; names are normal forms (`norm_norm`), texts by lemmas on `splitC` |
| Features | Cauchy and Schwarz by induction over the windows; arithmetic of windows; induction over the wrapping |
| AttrNames | recursion on the length of the name, induction over its parts, prefixes of paths |
| EdiGeometry | case analysis, polar coordinates through `Complex.arg` |
| MDate | the lemmas of MTime on parsing, the calendar as ordinals |
| EmtfNotes | the first element of a name in a list, case analysis |
| XmlSensor | case analysis of types and descriptions, C119 for the ids |
| NormFreq | the geometric mean through logarithms, induction over assignments |
| Schema | idempotence of each part of a description, splitting of joined texts, induction over lists of attributes |
| TimeText | the calendar as ordinals, the lemmas of MTime on parsing |
| Nomen | invariants over all programs: dictionaries that only grow, templates that agree with their keys |
| EmtfRest | values of elements by pieces as in EmtfSite; lists of elements of one name |
| RunLists | refinement of the loops of Model/Run by loops that keep the run when they raise; invariants of Run |
| ListFields | induction over lists, laws of texts of integers |
| FieldCache | invariants of memory and files over histories of processes, with a rank of classes; induction over trees |
| EmtfWrite | histories from the end; laws of floor and of logarithms to base 10 |
| ZmmUse | histories from the end; laws of ordered dictionaries, sorting and permutations |
| Copies | heap closed under parts; copies are in a fresh region; noninterference by induction over interleaved assignments |
| EdiUse | histories from the end; first and last lines by induction over all lines read |
| AvgUse | the last block of a component by induction over all blocks read; pieces of texts |
| JUse | what one reading does to each part of an object, then histories by induction |
| Standards | take and drop of lists; what is put into a summary as one list of entries |
| StdFields | the first of a list; members found up to case by induction |
| EdiKept | induction on lines and on lists of files |
| ToZmm | induction on histories and channels; case analysis of runs |
| TsStation | lookups in filtered and assigned dictionaries |
| RespUnits | induction on the list of filters and on histories |
| FieldShare | invariant (summaries of an object are those of its class), induction on histories |
| WebLinks | cases, induction on histories |
| PzNorm | cases, first and last entries of increasing lists |

## 5. What is not modelled

* `transfer_functions/core.py` beyond the arrays of `TF` (C135-C139), C166-C175 and C183-C191; xarray and pandas themselves, as far as used
  there, are modelled by hand (`Model/TfMerge`); `emtfxml` beyond data, estimates, data types, site layout (C176-C182), runs (C226-C231), survey and station (C232-C239), field notes and layout of files (C240-C244): other parts of its XML text, and
  comments with `|`, which `Comment` splits into time, author and text; attributes of `jfiles` and `zonge` headers
  beyond those named in the models; lists of dictionaries in the information section, and attributes of EDI headers beyond their texts
  (types and units of `refelev`, dates).
* Parsing of date strings by pandas and dateutil; JSON and XML text (the element tree is the interface).
* Network access (`citation`, geomagnetic models), plotting, logging, summaries of the standards, CSV tables.
* pydantic itself: coercion of types (`"1"` to `1`) is not modelled unless a validator of the package does it.
* obspy: its response stages are records in the model; filters of other channels that `survey.filters` overwrites.
* Sharing of mutable objects between containers (copies are values in the model).
* Floating point rounding and overflow.

## 6. Where code and property disagree

Each of these is a theorem (`_refuted`, or an exact description) of the property named.

* ListDict: `str(len)` keys collide after removals (C03); `pop(key)` pops the last item (C05); copy drops the key None (C10).
* recursive_split_dict loses its separator (C12); XML of one-element lists, empty values (C14).
* MTime: two days without leap second row (C15); `t > t` and offsets (C16, C20); last 306 ns (C17); leap second steps (C19); small epochs (C21).
* update skips `False` and arrays with a zero (C22, C80); `==` not an equivalence for coordinates (C23); comparison with a dict (C24).
* Half-open bands do not contain themselves (C27).
* Run: other class under the same name (C31), dict branch never tests `h` (C32), merge modifies the receiver (C34).
* Station: `update=False` (C35, C83), removed runs leave channels (C36), sort by start raises (C37).
* Survey and experiment: adding under a known id drops runs and stations (C84, C85).
* Experiment XML: one filter per class (C42), empty surveys and stations (C87), FIR filters dropped (C88).
* Location: sign lost between -1 and 0 (C43, C91). Units: coulomb (C92), counts per volt (C93).
* FDSN codes: gaps between bands, tides, inclined verticals (C46, C47).
* Filters: unsorted adds and raw names (C48), ODD FIR symmetry (C52), phase unit guess (C53), pass band of 2000 points (C96).
* Processing: C54-C57, C59-C62, C65, C66, C100, C101; weights: C67-C69, C104-C106.
* Comment: C70, C109-C111. EDI key=value lines: C72, C73.
* StationXML: C74, C113-C119, C121-C127 (texts, licences, epochs, runs); responses: normalisation factors (C207), comments (C208),
  delays (C209), sensitivity (C210), equal names (C212, C213), units (C214), angles (C215), electrodes (C216).
* Z files: channels that are not orthogonal (C128); writing what was read (C130); names and unnumbered channels (C142).
* J files: positions are always zero (C145), periods are sorted as texts (C146), lists in the header are cut (C147), file names
  with `lat`, `lon` or `elev` in them are lost (C148), no time step (C149), resistivities first, only the second tipper, empty lines (C150).
* AVG files: errors (C153, C154, C157), component lines without blanks (C155), the sign of tippers (C158), headers that are written but
  cannot be read (C160, C161), changed arrays (C162), names in small letters (C163), `toZmag` (C164), azimuths (C165).
* EDI: spectra without vertical channel (C131); apparent resistivity and phase (C133); angles of ascending frequencies and
  files of one frequency (C134).
* EDI sections: declination, signs (C192), acquisition channels and b channels (C193), equal signs (C194), three channels of a
  type (C195), numbering (C196), spectra sections, leading zeros (C197), blanks before the equal sign (C199); information: changed names (C200), words of
  parameters (C201), the remote reference (C202), short lines (C203), unknown names (C204), channels (C205), units (C206).
* EMTF XML: files of one period (C176), zeros (C177), data types that appear (C178), estimates of tippers (C179), repeated
  texts (C182).
* TF objects: model errors, zero data (C135), the period 1 (C136), labelled arrays on one period (C138), channel names (C139),
  merging (C166-C171), equality (C173), formats and names (C174, C175).
* Conversions: EMTF XML objects (C183-C185), EDI data read into an object in use (C187), covariances of spectra (C188), Z file
  objects (C189-C191); EDI stations: processing date (C217), names of parameters (C218), runs (C219), slashes in names (C220), software (C221),
  provenance of runs (C222), electrodes (C223), sensors and remote channels (C224), authors of surveys (C225); runs in EMTF XML objects: sampling rates (C226), sensors (C227),
  electrodes (C228), places (C229), missing channels (C230), comments (C231); surveys and stations in EMTF XML objects: comments and
  processing parameters that change attributes (C233), survey ids (C234), comments (C235, C236), remote references (C237),
  processing parameters (C238); EMTF XML files: runs without a text for errors (C241, C244), order of channels (C242), special
  characters (C243).
* Dictionaries and JSON: removed channels (C246), names of filters (C248), file names (C250), lists of runs (C251).
* Renamed channels: the old names come back (C252).
* Metadata of TF objects: second files (C255), runs of other stations (C256), names of stations (C258), runs (C259).
* Bounds of nested bands (C260).
* Runs: lists given together to the constructor are lost but the first (C367), refused assignments leave channels (C369), arrays of names are refused (C366), `channel_index` is no index of `channels` (C370). Ratings are cut to integers (C371), negative indices (C372) and commas in names (C373) are lost.
* Descriptions of attributes on disk are old after an update of the class of an attribute (C374), and depend on the order of questions for classes that have each other (C375).
* EMTF XML files written one after another lack parts of the remote site for ever (C377); period ranges are rounded inwards (C379) or old (C380).
* A ZMM object that reads a second file keeps channels (C381) and sampling frequencies (C382) of the first.
* Copies do not take `mth5_type` and `hdf5_reference` from the update (C385); copies that are not deep (C386) and merged objects (C387) share parts.
* An EDI object that reads a second file keeps channels of the first and takes those of the second for remote ones (C388), keeps positions (C389) and `phoenix_edi` (C390).
* A ZongeMTAvg object keeps components of files read before (C391), has no run for files with zxx but without zxy, zyx or tzx (C392), and hz never has its azimuth (C393).
* A JFile object keeps parameters of files read before (C394), and a file that cannot be read leaves a mixture (C395).
* `to_latex` leaves out attributes if the first table is shorter than the others (C396) and adds options to descriptions with each call (C397); summaries of standards cut texts (C398), lose fields after one that is not valid (C399), and write no file with arrays (C400).
* Summaries of standards show names of members of enumerations, which the fields do not take (C401).
* An `EDI` object that read spectra keeps their covariances when it reads impedances, and reads sections of other kinds as spectra (C403, C404).
* Columns of spectra in EDI files are taken in a fixed order, whatever the section lists (C405).
* `TF.to_zmm` replaces a first run without channels, and may fail or leave out tippers when it is called again (C406, C407).
* `TF.from_ts_station_metadata` leaves values that the station given does not have (C408).
* A channel response whose list of filters is changed in place, or emptied, has the units of the filters before (C410).
* A summary changed in `get_all_fields()` of one object is changed for all objects of the class (C411).
* The link of an EMTF XML file can be emptied although this is meant to be refused (C412); a number assigned to the url of a person becomes None (C413).
* The normalisation frequency of a pole zero filter over no frequencies uses `np.NAN`, gone since numpy 2; an unknown estimate gives None (C414).
* EMTF XML files that cannot be read after writing: without estimates (C361), with data that are zero (C362), without a citation (C363); journal, volume and pages are lost (C364), texts of an earlier file stay (C365), `doi:` in DOIs (C359).
* Names of channels: the default dictionary is shared by all objects and can be changed through any (C351), dictionaries given are completed (C352), partial assignments (C354), templates with wrong names (C355), data sets that keep the old names (C356), the inverse that is kept (C357). Sites in EMTF XML: an empty year is 1980 (C350).
* Times in texts: hour 24 with a zone (C345) and with minutes (C346), month and day exchanged (C347), the word null (C348).
* Schemas: validation is not idempotent (C335, C344), required booleans need a default (C336), defaults of optional attributes are dropped (C337), numbers for booleans and texts for lists (C338), blanks in options (C339), quotes in CSV files (C340), unknown names (C342).
* Normalisation frequency: rounding (C332), never found for the response of a channel (C333), stale (C334).
* StationXML sensors: electrodes (C327), types the library does not know (C328), names of auxiliary sensors (C329), dipoles without description (C331).
* EMTF XML comments: electrodes (C323), magnetometers (C324), places of channels (C325, C326).
* Dates: differences of dates with a time of day (C320), dictionaries (C322).
* EDI geometry: translated azimuths (C316, C318), azimuth and tilt of magnetic channels (C317), auxiliary channels and bx (C319).
* Dotted names: attributes made or None when missing (C310, C311), `set_attr_from_name` (C312), other separators (C313).
* Features and processing: short series (C299), sub-windows (C300), stations of channels (C301), wrapped features (C304), marks of remote stations (C305), engines (C307).
* Filters of channels in dictionaries: two of one name (C291), texts (C292), slashes (C293), assignment (C294), one value (C296).
* Times: a date cannot be assigned part by part from the end of a month (C290).
* Surveys in StationXML: names, comments and leaders (C285), DOIs (C286), journals (C287), the code (C288).
* Stations in StationXML: names in capitals, FDSN code and persons lost, software texts with a colon (C282); writing changes the station (C283).
* Directories of MT XML files: other channels than five are not listed (C278), an experiment cannot be made of channels (C279), station files of the same name (C281).
* An EMTF XML object that is used again: site (C274), attachments (C275), remote site (C276); version of the software and remote runs (C277).
* Offsets, angle, geomagnetic model and comments of a site (C270), names of runs with blanks (C271), unknown children of a site (C272).
* Filters with arrays in JSON and XML (C265, C266), complex numbers and numpy's round numbers in texts (C268, C269).

## 7. Tests against wrong programs

`seeded/LOG.jsonl` has one line per experiment: in a scratch copy one definition of the model is changed as a realistic bug
would change the program, everything is rebuilt, and the theorems that no longer prove are noted (`failed` directly,
`failed_through_helpers` because a lemma they use fails). `caught` says whether a theorem of each property the edit
breaks failed. Edits that were not caught led to the theorems named in `tightened`.
