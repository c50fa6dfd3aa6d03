# Formal model of mt_metadata: design

Sections 8 and 9 are generated (`python3 tools/design.py`); the rest is `tools/design_head.md`.

## 1. What is here

* `properties.jsonl`: the properties (C01, C02, ...), in terms of the public API.
* `lean/Verif/Base/*`: models of Python built-ins (exceptions, ordered dict, `sorted`, string methods, numbers as text).
* `lean/Verif/Model/*`: the model, function by function; each definition cites the file and lines
  in `/repo` it follows and states its simplifications.
* `lean/Verif/Lemmas/*`: helper lemmas.
* `lean/Verif/Props/*`: the property theorems, refutations and cases that meet the hypotheses.
* `MANIFEST.json`: property -> theorems. `seeded/LOG.jsonl`: experiments with wrong programs.

## 2. Conventions

* A Python exception is a value: functions that can raise return `Except PyErr a`.
  When a raising method leaves the object partly updated the model returns both
  (a state/result pair), otherwise a raise means the receiver is unchanged.
* Python objects are modelled by value. Aliasing (two names for one mutable object) is
  not modelled, except where a definition says so.
* `OrderedDict`/`dict` is an association list in insertion order with distinct keys;
  assignment to an existing key keeps its position.
* `float` is modelled by exact rationals, reals or complex numbers. Rounding, NaN and infinities are outside the
  model unless a definition says otherwise. Integers are unbounded, as in Python.
* Text is a list of characters. Upper and lower case are those of the ASCII letters.
* pydantic: field validators run before the value is stored; `mode="after"` model validators run
  after every assignment (`validate_assignment=True`) with the new value already stored.
* Logging has no effect in the model.
* Libraries whose result depends on unspecified choices (order of a `set`, unstable sorts, windows of scipy,
  printing of floats) are parameters; theorems assume only what is stated in their hypotheses.
* When the code violates a property, the full property is kept as a `def ..._claim : Prop` (or stated inline in the
  negation), a theorem refutes it with a concrete witness (`..._refuted`), and the
  strongest true version is proved with suffix `_partial`. A property counts as `partial` in the manifest as soon as
  one of its theorems carries one of these suffixes.

## 3. Trusted base

* Lean's kernel (4.33.0) and the axioms `propext`, `Classical.choice`, `Quot.sound` (section 9 says which theorem uses
  which). No axioms of our own, no `sorry`, no `native_decide`, no `bv_decide`. `decide +kernel` is used for
  finite tables (it is checked by the kernel alone).
* The reading of the code: the model is tied to `/repo` only by the cited lines. Nothing was run.
* The behaviour of library calls, stated at the definition that stands for them (collections.OrderedDict, sorted,
  str methods, pandas.Timestamp and Interval, numpy, obspy containers, pydantic).

## 4. What is modelled

| model | code |
|-------|------|
| ListDict | common/list_dict.py, all of `ListDict` |
| Dicts, Xml | base/helpers.py: flatten_dict, structure_dict, recursive_split_dict, requires/strip helpers, dict_to_xml, element_to_dict |
| Metadata | base/metadata.py: update, `__eq__`, to_dict, from_dict, dotted keywords |
| MTime | common/mttime.py: parsing of numbers, comparison, arithmetic, GPS leap seconds, rounding, get_now_utc; common/time_period.py |
| Band, FreqBands | common/band.py, processing/aurora/frequency_bands.py |
| Run, Station, Survey, ExperimentXml | timeseries/run.py, station.py, survey.py, experiment.py: bookkeeping, time periods, bounding box, merging, XML skeleton |
| Names, Location, Units, Enums, Comment, License | utils/validators.py, utils/location_helpers.py, common/units.py, common/enumerations.py, common/comment.py, common/copyright.py |
| Applied, Filters | timeseries/filtered.py, channel.py (filters), timeseries/filters/*.py: complex responses, pass band, units, delays, FIR symmetry, response tables |
| Fdsn, XmlText, XmlEpochs | timeseries/stationxml/*.py: codes, packed texts, epochs, licences |
| Processing, FC, Aurora, Weights | processing/**, features/weights/*.py |
| IoTools, Edi*, Zmm*, JFile | transfer_functions/io/tools.py, edi/edi.py, zfiles/zmm.py, jfiles/jfile.py, jfiles/metadata/header.py |
| Zonge | transfer_functions/io/zonge/zonge.py, zonge/metadata/header.py, to_avg and from_avg in core.py |
| Tf | transfer_functions/core.py: the data set, the properties returning arrays and their setters |
| TfMerge | transfer_functions/core.py: `merge`, `__eq__`, names and formats of files in `write` and `read` |
| TfConvert | transfer_functions/core.py: the arrays in `to_edi`, `from_edi`, `to_emtfxml`, `from_emtfxml`, `to_zmm`, `from_zmm` |
| EmtfData | transfer_functions/io/emtfxml/metadata/data.py, metadata/helpers.py, emtfxml.py: data, estimates, data types, site layout |
| EdiMeta | transfer_functions/io/edi/metadata: header.py, define_measurement.py, emeasurement.py, hmeasurement.py, data_section.py (reading and writing of the sections) |
| EdiInfo | transfer_functions/io/edi/metadata/information.py (the information section: the standard, Phoenix and Empower formats, writing) |
| Stages | timeseries/filters: `to_obspy` of all filters and of the channel response, filter_base.py `from_obspy_stage`, obspy_stages.py; stationxml/xml_channel_mt_channel.py: response, units, orientation, position |
| EdiStation | transfer_functions/io/edi/edi.py: survey and station metadata, electric and magnetic channels through the header and the information section; `to_edi` and `from_edi` of core.py as far as they use them |
| EmtfRuns | transfer_functions/io/emtfxml/emtfxml.py L1033-L1168, L1404-L1560: field notes and site layout made of the runs of a station, and the runs made of them, with `_update_site_layout` in between |
| EmtfStation | transfer_functions/io/emtfxml/emtfxml.py L560-L606, L730-L1048, L1172-L1408, transfer_functions/core.py L2157-L2168: survey and station metadata of an EMTF XML object without the runs, its comments and processing parameters, the title lines |
| EmtfFile | transfer_functions/io/emtfxml/metadata: field_notes.py, run.py, instrument.py, magnetometer.py, dipole.py, electrode.py, site_layout.py, magnetic.py, electric.py; emtfxml.py L309-L430: writing and reading of the file, entities and `&` |
| EmtfRunFile | the runs of a station through EmtfRuns and EmtfFile: `to_emtfxml`, `write`, `read`, `from_emtfxml` |
| ExperimentDict | timeseries/experiment.py L250-L369, L610-L634 (`to_dict`, `from_dict`, `from_json`, `sort`) with run.py L318-L349, station.py L300-L337, survey.py L381-L514, channel.py L560-L575 |
| Rename | timeseries/run.py L830-L885 (`update_channel_keys`), station.py L519-L540 (`update_run_keys`), common/list_dict.py L304-L332 |
| TfMeta | transfer_functions/core.py L227-L265, L366-L475, L1588-L1605: the survey, station and run of a TF, and how files set them |
| LevelBands | processing/aurora/decimation_level.py L219-L360, L603-L646, helper_functions.py: the bands of a decimation level |
| FilterFile | base/metadata.py and base/helpers.py for filters with arrays: to_json, from_json, to_xml, extract_numbers, object_to_array. ExperimentXml takes filters to be written and read faithfully; this module shows for which filters that is so |
| EmtfSite | emtfxml/metadata/site.py, location.py, orientation.py, data_quality_notes.py, data_quality_warnings.py: to_xml and read_dict, with helpers.to_xml, the tree of the file and its dictionaries from EmtfData and EmtfFile. Parameters: printing and parsing of numbers, times, years and reference systems |
| EmtfBlocks | emtfxml/metadata/attachment.py, processing_info.py, remote_info.py, remote_ref.py, software.py, and emtfxml.py `write` as to the remote site. Not kept: what of a remote site was set before an AttributeError |
| ManyFiles | timeseries/tools/from_many_mt_files.py: names of files, sorting, and which of the objects can be made; contents of files are not modelled |
| XmlStation | timeseries/stationxml/xml_station_mt_station.py, with what it uses of xml_equipment_mt_run.py, utils.py and station.py; obspy objects as records, comments of runs and channels left out |
| XmlSurvey | timeseries/stationxml/xml_network_mt_survey.py, utils.py (`read_xml_identifier`), utils/validators.py (`validate_doi`); pydantic's URLs and the release status are functions of the world |
| MTimeParts | common/mttime.py (parts of a time and their setters); `Timestamp.replace` is taken from the documentation of pandas |
| ChanFilt | timeseries/channel.py (`from_dict`, `parse_filters_string`, the old formats of filters), timeseries/filtered.py; parsing of texts of lists is a function of the world |
| Features | features/coherence.py, fc_coherence.py, striding_window_coherence.py, weights/feature_weight_spec.py (class of the feature), processing/aurora/stations.py (`validate_remote`), processing.py (`validate_processing`); exact complex arithmetic, scipy's coherence is a function of the world |
| AttrNames | base/metadata.py (`update_attribute`, `get_attr_from_name`, `set_attr_from_name`), base/helpers.py (`recursive_split_getattr`, `recursive_split_setattr`); objects are trees, validation is a function of the world |
| EdiGeometry | edi/metadata/define_measurement.py (`from_metadata`), emeasurement.py, hmeasurement.py, edi.py (`_get_electric_metadata`, `_get_magnetic_metadata`); reals for floats, the two decimals of written lines left out |
| MDate | common/mttime.py (`MDate`: days added and subtracted, differences, dictionaries); whole numbers of days |
| EmtfNotes | transfer_functions/io/emtfxml/emtfxml.py (`_parse_comments_electric`, `_parse_comments_magnetic`) |
| XmlSensor | timeseries/stationxml/xml_channel_mt_channel.py (`_sensor_to_mt`, `_mt_to_sensor`, `_parse_dipole_length`, `_deduce_sensor_type`) |
| NormFreq | timeseries/filters/channel_response.py (normalisation frequency), timeseries/channel.py (`channel_response`); real numbers, rounding a parameter |
| Schema | utils/validators.py (types, units, styles, options, defaults, values, dictionaries), base/schema.py (`BaseDict`: items, `add_dict`, JSON and CSV); reading and writing of numbers is world |
| TimeText | common/mttime.py (`_parse_string`, `_fix_out_of_bounds_time_stamp`, texts in `parse`); texts are given by their numbers, what pandas and dateutil make of them is part of the model |
| Nomen | transfer_functions/core.py and io/zfiles/zmm.py (`channel_nomenclature`, `inverse_channel_nomenclature`, templates of data sets, `copy`); dictionaries are shared objects, programs are lists of operations |
| EmtfRest | emtfxml/metadata/statistical_estimates.py, estimate.py, data_types.py, data_type.py, copyright.py, citation.py, utils/validators.py (`validate_doi`); links and units are parameters |
| RunLists | timeseries/run.py (`validate_list_of_strings`, `validate_channels_recorded` with refused names, construction with lists, `channel_index`), patterns of `component` |
| ListFields | common/rating.py, common/funding_source.py, jfiles/metadata/birrp_block.py (validators); digits of ASCII |
| FieldCache | base/pydantic_helpers.py (caches in memory and on disk, fingerprints, flattening); hashes one-to-one, files not damaged |
| EmtfWrite | emtfxml/emtfxml.py (`write` as to which elements and remote parts there are, ranges of periods over histories), metadata/remote_info.py, metadata/period_range.py; periods are rational numbers, printing rounds halves to even |
| ZmmUse | zfiles/zmm.py (one object for several files: channels, decimation levels, sample rate); sampling rates are rational numbers, the text of a period is a parameter, that later steps of reading may fail is left out |
| Copies | base/metadata.py (`copy`), common/list_dict.py (`__deepcopy__`, `copy`, `extend`), `merge` of runs, stations and surveys; objects are cells of a heap, values are opaque, an object reached twice is copied twice, rebuilding from a dictionary is a parameter |
| EdiUse | edi/edi.py (`read` of several files with one object: channels, positions, Phoenix format), edi/metadata/header.py, define_measurement.py; the lines of a file are given as values, `write_meas_line` is a parameter |
| AvgUse | zonge/metadata/header.py (`read_header` as to components, `_has_channel`, `instrument_id`, `center_location`), zonge/zonge.py (`run_metadata`, where channels are taken from, second values), zonge/metadata/ch.py; values within a component are as they are |
| JUse | jfiles/jfile.py (`read` of several files with one object, also with errors), jfiles/metadata/header.py (`read_header`, `read_metadata`); what a line sets is given |
| Standards | base/schema.py (`to_latex`, `add_dict` with errors), utils/summarize.py (all but how values are taken from fields of classes); lines of tables and validation are given |
| StdFields | utils/summarize.py (`_get_field_type`, `_get_field_options`), with the enumerations of Enums; annotations that occur |
| EdiKept | transfer_functions/io/edi/edi.py (`read`, `_read_data`: what is set and what stays), edi/metadata/data_section.py (`get_data`); what lines of data give is a parameter |
| ToZmm | transfer_functions/core.py (`to_zmm`, `make_zmm_run`, `inverse_channel_nomenclature`: runs, names and numbers of channels) |
| TsStation | transfer_functions/core.py (`to_ts_station_metadata`, `from_ts_station_metadata`) on `to_dict` of Metadata |
| RespUnits | timeseries/filters/channel_response.py (`validate_filters_list`, `update_units_and_normalization_frequency_from_filters_list`, `_check_consistency_of_units`) |
| FieldShare | base/metadata.py (`get_all_fields`, `_required_fields`) with shared summaries of base/pydantic_helpers.py |
| WebLinks | transfer_functions/io/emtfxml/metadata/external_url.py, common/person.py (`validate_url`) |
| PzNorm | timeseries/filters/pole_zero_filter.py (`normalization_frequency`), filter_base.py (`pass_band` for any window and tolerance) |

How the properties of each file are proved:

| Props file | method |
|------------|--------|
| ListDict | refinement: a ListDict against an ordered map; invariants (distinct keys, order) by induction over histories of operations |
| Dicts, Xml | structural induction over nested dictionaries and element trees; round trips as inverse functions |
| Metadata | induction over the list of attributes; equality characterised attribute by attribute |
| MTime | arithmetic over integers and rationals, case analysis over the whole leap second table by the kernel |
| Band, FreqBands | order reasoning over rationals; induction over lists of bands; conservation under sorting (permutation) |
| Run, Station, Survey | invariants over histories of additions, removals and merges (induction over operations), frame theorems |
| ExperimentXml | round trip of trees by induction over surveys, stations, runs, channels |
| Names, Location, Units, Enums, Comment, License, IoTools, XmlText | induction over characters and words; parsers proved inverse to printers |
| Fdsn | case analysis over code tables, order reasoning for bands |
| Applied, Filters, PassBand | complex analysis of products; induction over coefficients and tables |
| Processing, FC, Aurora, Weights | induction over levels, bands, lists of weights; finite sums |
| XmlEpochs, XmlRuns | induction over epochs with an invariant relating inventory and runs |
| ZmmRotate, EdiSpectra, EdiRho | matrix algebra over the complex numbers (inverses, Hermitian and positive matrices), trigonometry |
| EdiData, EdiBlocks, ZmmText, JFile, ZongeText | induction over lines, words and blocks; the reader is shown to invert the writer |
| Zonge | induction over rows with the last row of each place; polar coordinates of complex numbers |
| Tf | refinement: the labelled data set against independent arrays, by induction over histories of assignments |
| TfMerge | slices of monotonic lists by counting, combination of data sets as a sorted permutation; induction over items |
| TfConvert | conversions as histories of assignments to the refined data set of Tf; labelled blocks compared entry by entry |
| EmtfData | the reader is shown to invert the writer element by element, through the dictionary of the file; structural induction over nested values |
| EdiMeta | induction over lines and items: the reader of each section is shown to invert its writer, between any other lines; sorting as a permutation |
| EdiInfo | the fold over the lines of the section: an invariant of the dictionary for stability, the last value of each name, the state of the Empower reader; words with gaps for columns |
| Stages | every filter is followed through its stage and back; induction over the filters with the dictionary of names; products of complex numbers; order of texts |
| EdiStation | what is written is an explicit list of names and values; the reader is followed over each of its parts, names that match no word of the reader change nothing |
| EmtfRuns | invariants of the folds over runs, channels and comments; the site layout is characterised as a function of the last run that has a channel |
| EmtfStation | the object as a dictionary of dotted names; every assignment is looked up in closed tables of distinct names, checked in the kernel; comments and parameters by induction: the last accepted text wins |
| EmtfFile | an element and the dictionary entry it is read as are related by `Val` and `Piece`, closed under parents and lists; the readers look up these dictionaries |
| EmtfRunFile | composition of the theorems on EmtfRuns and EmtfFile |
| ExperimentDict | reading a dictionary is followed assignment by assignment, with the invariants of Run and Station |
| Rename | case analysis over the three steps of the validator of a run, with the invariants of Run and Station |
| TfMeta | invariant over all sequences of assignments, on top of those of Survey and Station |
| LevelBands | induction over lists of bands, uniqueness of sorted permutations, on top of Band and Processing |
| FilterFile | induction over field lists and over the characters of a text |
| EmtfSite | the lemmas on pieces of children of EmtfFile, field by field; induction over names of runs |
| EmtfBlocks | the lemmas on pieces of children; induction over files read and over writes |
| ManyFiles | names of files at their dots (a component is in a name iff it is in a part); lemmas on `find?`, `filterMap` and `mapM` |
| XmlStation | comments one by one (keys by evaluation, texts for all); induction over the equipments with the runs that are done and those that are not; extending a period twice |
| XmlSurvey | comments one by one; identifiers by lemmas on `splitSub`, repeated by induction; errors by a comment that no state accepts |
| MTimeParts | parts and nanoseconds are inverse to each other (`ofOrdinal_spec`, `ofOrdinal_ordinal`), everything else follows |
| ChanFilt | induction over the entries; names are normal forms (`norm_norm`), texts by lemmas on `splitC` |
| Features | Cauchy and Schwarz by induction over the windows; arithmetic of windows; induction over the wrapping |
| AttrNames | recursion on the length of the name, induction over its parts, prefixes of paths |
| EdiGeometry | case analysis, polar coordinates through `Complex.arg` |
| MDate | the lemmas of MTime on parsing, the calendar as ordinals |
| EmtfNotes | the first element of a name in a list, case analysis |
| XmlSensor | case analysis of types and descriptions, C119 for the ids |
| NormFreq | the geometric mean through logarithms, induction over assignments |
| Schema | idempotence of each part of a description, splitting of joined texts, induction over lists of attributes |
| TimeText | the calendar as ordinals, the lemmas of MTime on parsing |
| Nomen | invariants over all programs: dictionaries that only grow, templates that agree with their keys |
| EmtfRest | values of elements by pieces as in EmtfSite; lists of elements of one name |
| RunLists | refinement of the loops of Model/Run by loops that keep the run when they raise; invariants of Run |
| ListFields | induction over lists, laws of texts of integers |
| FieldCache | invariants of memory and files over histories of processes, with a rank of classes; induction over trees |
| EmtfWrite | histories from the end; laws of floor and of logarithms to base 10 |
| ZmmUse | histories from the end; laws of ordered dictionaries, sorting and permutations |
| Copies | heap closed under parts; copies are in a fresh region; noninterference by induction over interleaved assignments |
| EdiUse | histories from the end; first and last lines by induction over all lines read |
| AvgUse | the last block of a component by induction over all blocks read; pieces of texts |
| JUse | what one reading does to each part of an object, then histories by induction |
| Standards | take and drop of lists; what is put into a summary as one list of entries |
| StdFields | the first of a list; members found up to case by induction |
| EdiKept | induction on lines and on lists of files |
| ToZmm | induction on histories and channels; case analysis of runs |
| TsStation | lookups in filtered and assigned dictionaries |
| RespUnits | induction on the list of filters and on histories |
| FieldShare | invariant (summaries of an object are those of its class), induction on histories |
| WebLinks | cases, induction on histories |
| PzNorm | cases, first and last entries of increasing lists |

## 5. What is not modelled

* `transfer_functions/core.py` beyond the arrays of `TF` (C135-C139), C166-C175 and C183-C191; xarray and pandas themselves, as far as used
  there, are modelled by hand (`Model/TfMerge`); `emtfxml` beyond data, estimates, data types, site layout (C176-C182), runs (C226-C231), survey and station (C232-C239), field notes and layout of files (C240-C244): other parts of its XML text, and
  comments with `|`, which `Comment` splits into time, author and text; attributes of `jfiles` and `zonge` headers
  beyond those named in the models; lists of dictionaries in the information section, and attributes of EDI headers beyond their texts
  (types and units of `refelev`, dates).
* Parsing of date strings by pandas and dateutil; JSON and XML text (the element tree is the interface).
* Network access (`citation`, geomagnetic models), plotting, logging, summaries of the standards, CSV tables.
* pydantic itself: coercion of types (`"1"` to `1`) is not modelled unless a validator of the package does it.
* obspy: its response stages are records in the model; filters of other channels that `survey.filters` overwrites.
* Sharing of mutable objects between containers (copies are values in the model).
* Floating point rounding and overflow.

## 6. Where code and property disagree

Each of these is a theorem (`_refuted`, or an exact description) of the property named.

* ListDict: `str(len)` keys collide after removals (C03); `pop(key)` pops the last item (C05); copy drops the key None (C10).
* recursive_split_dict loses its separator (C12); XML of one-element lists, empty values (C14).
* MTime: two days without leap second row (C15); `t > t` and offsets (C16, C20); last 306 ns (C17); leap second steps (C19); small epochs (C21).
* update skips `False` and arrays with a zero (C22, C80); `==` not an equivalence for coordinates (C23); comparison with a dict (C24).
* Half-open bands do not contain themselves (C27).
* Run: other class under the same name (C31), dict branch never tests `h` (C32), merge modifies the receiver (C34).
* Station: `update=False` (C35, C83), removed runs leave channels (C36), sort by start raises (C37).
* Survey and experiment: adding under a known id drops runs and stations (C84, C85).
* Experiment XML: one filter per class (C42), empty surveys and stations (C87), FIR filters dropped (C88).
* Location: sign lost between -1 and 0 (C43, C91). Units: coulomb (C92), counts per volt (C93).
* FDSN codes: gaps between bands, tides, inclined verticals (C46, C47).
* Filters: unsorted adds and raw names (C48), ODD FIR symmetry (C52), phase unit guess (C53), pass band of 2000 points (C96).
* Processing: C54-C57, C59-C62, C65, C66, C100, C101; weights: C67-C69, C104-C106.
* Comment: C70, C109-C111. EDI key=value lines: C72, C73.
* StationXML: C74, C113-C119, C121-C127 (texts, licences, epochs, runs); responses: normalisation factors (C207), comments (C208),
  delays (C209), sensitivity (C210), equal names (C212, C213), units (C214), angles (C215), electrodes (C216).
* Z files: channels that are not orthogonal (C128); writing what was read (C130); names and unnumbered channels (C142).
* J files: positions are always zero (C145), periods are sorted as texts (C146), lists in the header are cut (C147), file names
  with `lat`, `lon` or `elev` in them are lost (C148), no time step (C149), resistivities first, only the second tipper, empty lines (C150).
* AVG files: errors (C153, C154, C157), component lines without blanks (C155), the sign of tippers (C158), headers that are written but
  cannot be read (C160, C161), changed arrays (C162), names in small letters (C163), `toZmag` (C164), azimuths (C165).
* EDI: spectra without vertical channel (C131); apparent resistivity and phase (C133); angles of ascending frequencies and
  files of one frequency (C134).
* EDI sections: declination, signs (C192), acquisition channels and b channels (C193), equal signs (C194), three channels of a
  type (C195), numbering (C196), spectra sections, leading zeros (C197), blanks before the equal sign (C199); information: changed names (C200), words of
  parameters (C201), the remote reference (C202), short lines (C203), unknown names (C204), channels (C205), units (C206).
* EMTF XML: files of one period (C176), zeros (C177), data types that appear (C178), estimates of tippers (C179), repeated
  texts (C182).
* TF objects: model errors, zero data (C135), the period 1 (C136), labelled arrays on one period (C138), channel names (C139),
  merging (C166-C171), equality (C173), formats and names (C174, C175).
* Conversions: EMTF XML objects (C183-C185), EDI data read into an object in use (C187), covariances of spectra (C188), Z file
  objects (C189-C191); EDI stations: processing date (C217), names of parameters (C218), runs (C219), slashes in names (C220), software (C221),
  provenance of runs (C222), electrodes (C223), sensors and remote channels (C224), authors of surveys (C225); runs in EMTF XML objects: sampling rates (C226), sensors (C227),
  electrodes (C228), places (C229), missing channels (C230), comments (C231); surveys and stations in EMTF XML objects: comments and
  processing parameters that change attributes (C233), survey ids (C234), comments (C235, C236), remote references (C237),
  processing parameters (C238); EMTF XML files: runs without a text for errors (C241, C244), order of channels (C242), special
  characters (C243).
* Dictionaries and JSON: removed channels (C246), names of filters (C248), file names (C250), lists of runs (C251).
* Renamed channels: the old names come back (C252).
* Metadata of TF objects: second files (C255), runs of other stations (C256), names of stations (C258), runs (C259).
* Bounds of nested bands (C260).
* Runs: lists given together to the constructor are lost but the first (C367), refused assignments leave channels (C369), arrays of names are refused (C366), `channel_index` is no index of `channels` (C370). Ratings are cut to integers (C371), negative indices (C372) and commas in names (C373) are lost.
* Descriptions of attributes on disk are old after an update of the class of an attribute (C374), and depend on the order of questions for classes that have each other (C375).
* EMTF XML files written one after another lack parts of the remote site for ever (C377); period ranges are rounded inwards (C379) or old (C380).
* A ZMM object that reads a second file keeps channels (C381) and sampling frequencies (C382) of the first.
* Copies do not take `mth5_type` and `hdf5_reference` from the update (C385); copies that are not deep (C386) and merged objects (C387) share parts.
* An EDI object that reads a second file keeps channels of the first and takes those of the second for remote ones (C388), keeps positions (C389) and `phoenix_edi` (C390).
* A ZongeMTAvg object keeps components of files read before (C391), has no run for files with zxx but without zxy, zyx or tzx (C392), and hz never has its azimuth (C393).
* A JFile object keeps parameters of files read before (C394), and a file that cannot be read leaves a mixture (C395).
* `to_latex` leaves out attributes if the first table is shorter than the others (C396) and adds options to descriptions with each call (C397); summaries of standards cut texts (C398), lose fields after one that is not valid (C399), and write no file with arrays (C400).
* Summaries of standards show names of members of enumerations, which the fields do not take (C401).
* An `EDI` object that read spectra keeps their covariances when it reads impedances, and reads sections of other kinds as spectra (C403, C404).
* Columns of spectra in EDI files are taken in a fixed order, whatever the section lists (C405).
* `TF.to_zmm` replaces a first run without channels, and may fail or leave out tippers when it is called again (C406, C407).
* `TF.from_ts_station_metadata` leaves values that the station given does not have (C408).
* A channel response whose list of filters is changed in place, or emptied, has the units of the filters before (C410).
* A summary changed in `get_all_fields()` of one object is changed for all objects of the class (C411).
* The link of an EMTF XML file can be emptied although this is meant to be refused (C412); a number assigned to the url of a person becomes None (C413).
* The normalisation frequency of a pole zero filter over no frequencies uses `np.NAN`, gone since numpy 2; an unknown estimate gives None (C414).
* EMTF XML files that cannot be read after writing: without estimates (C361), with data that are zero (C362), without a citation (C363); journal, volume and pages are lost (C364), texts of an earlier file stay (C365), `doi:` in DOIs (C359).
* Names of channels: the default dictionary is shared by all objects and can be changed through any (C351), dictionaries given are completed (C352), partial assignments (C354), templates with wrong names (C355), data sets that keep the old names (C356), the inverse that is kept (C357). Sites in EMTF XML: an empty year is 1980 (C350).
* Times in texts: hour 24 with a zone (C345) and with minutes (C346), month and day exchanged (C347), the word null (C348).
* Schemas: validation is not idempotent (C335, C344), required booleans need a default (C336), defaults of optional attributes are dropped (C337), numbers for booleans and texts for lists (C338), blanks in options (C339), quotes in CSV files (C340), unknown names (C342).
* Normalisation frequency: rounding (C332), never found for the response of a channel (C333), stale (C334).
* StationXML sensors: electrodes (C327), types the library does not know (C328), names of auxiliary sensors (C329), dipoles without description (C331).
* EMTF XML comments: electrodes (C323), magnetometers (C324), places of channels (C325, C326).
* Dates: differences of dates with a time of day (C320), dictionaries (C322).
* EDI geometry: translated azimuths (C316, C318), azimuth and tilt of magnetic channels (C317), auxiliary channels and bx (C319).
* Dotted names: attributes made or None when missing (C310, C311), `set_attr_from_name` (C312), other separators (C313).
* Features and processing: short series (C299), sub-windows (C300), stations of channels (C301), wrapped features (C304), marks of remote stations (C305), engines (C307).
* Filters of channels in dictionaries: two of one name (C291), texts (C292), slashes (C293), assignment (C294), one value (C296).
* Times: a date cannot be assigned part by part from the end of a month (C290).
* Surveys in StationXML: names, comments and leaders (C285), DOIs (C286), journals (C287), the code (C288).
* Stations in StationXML: names in capitals, FDSN code and persons lost, software texts with a colon (C282); writing changes the station (C283).
* Directories of MT XML files: other channels than five are not listed (C278), an experiment cannot be made of channels (C279), station files of the same name (C281).
* An EMTF XML object that is used again: site (C274), attachments (C275), remote site (C276); version of the software and remote runs (C277).
* Offsets, angle, geomagnetic model and comments of a site (C270), names of runs with blanks (C271), unknown children of a site (C272).
* Filters with arrays in JSON and XML (C265, C266), complex numbers and numpy's round numbers in texts (C268, C269).

## 7. Tests against wrong programs

`seeded/LOG.jsonl` has one line per experiment: in a scratch copy one definition of the model is changed as a realistic bug
would change the program, everything is rebuilt, and the theorems that no longer prove are noted (`failed` directly,
`failed_through_helpers` because a lemma they use fails). `caught` says whether a theorem of each property the edit
breaks failed. Edits that were not caught led to the theorems named in `tightened`.

## 8. Properties, one by one

`Props` names the file(s) under `lean/Verif/Props`; the model used is the file of the same name under
`lean/Verif/Model` unless the file imports others. No note: proved as stated in `properties.jsonl`.

| id | property | status | Props | note |
|----|----------|--------|-------|------|
| C01 | ListDict views stay coherent | proved | ListDict |  |
| C02 | Appending makes the object retrievable and touches nothing else | proved | ListDict |  |
| C03 | Appending a keyless object never destroys an existing entry | partial | ListDict | False of the code: after a removal the key str(len) may be taken. Partial: histories where no entry has that key, in particular append-only histories. |
| C04 | remove deletes exactly one entry or raises | proved | ListDict |  |
| C05 | pop(key) removes and returns the entry of that key | partial | ListDict | False of the code: pop(key) pops the last item whatever the key. Partial: correct exactly when the key is the last one. |
| C06 | extend is a right-biased merge honouring skip_keys | proved | ListDict |  |
| C07 | sort only reorders | proved | ListDict |  |
| C08 | update_keys follows renamed objects without losing any | proved | ListDict |  |
| C09 | Slices are the contiguous sub-collections they name | proved | ListDict |  |
| C10 | copy returns an equal collection | partial | ListDict | False of the code: an entry under the key None is silently dropped by copy. Partial: no None key. |
| C11 | structure after flatten is the identity | proved | Dicts |  |
| C12 | structure_dict works for every separator | partial | Dicts | False of the code: recursive_split_dict drops the separator argument in its recursion. Partial: default separator or depth at most two. |
| C13 | Structuring a flat dict loses no value | proved | Dicts |  |
| C14 | Dictionary -> XML -> dictionary round trip | partial | Xml | False of the code in general (single-element lists, empty values, unstripped text). The exact normal form is proved for all trees and the round trip is characterised by an iff. |
| C15 | Leap seconds are defined and monotone over the supported range | partial | MTime | False of the code: 2012-06-30 and 2016-12-31 are in no row of the table and raise. Partial: defined exactly elsewhere in the range; documented value and monotonicity proved for all dates. |
| C16 | MTime comparisons form a total order | partial | MTime | False of the code: __gt__ is `not __lt__`, so t > t; and equal instants with different offsets are unequal. Partial: everything else, for all stamps. |
| C17 | Out-of-range times are clamped, in-range times kept | partial | MTime | False in the last 306 ns before the maximum, where the rounding overflows. Partial: exact elsewhere; clamping, idempotence, monotonicity proved for all stamps. |
| C18 | Sub-microsecond rounding is small, idempotent and order preserving | proved | MTime |  |
| C19 | GPS to UTC conversion preserves order | partial | MTime | False of the code within a second of a leap second. Partial: stamps a second apart, or with equal leap seconds. |
| C20 | Equal instants give equal time stamps | partial | MTime | False of the code: offsets are kept, not converted to UTC. Partial: UTC or naive input; eq implies equal hash for all. |
| C21 | Integer epochs are read in the right unit | partial | MTime | False of the code for instants up to 300 s after the epoch. Float division is taken as exact. |
| C22 | update never erases information | partial | Metadata | False of the code: False is skipped because False == 0.0, arrays with a zero are dropped by to_dict. Partial: exact description of what is taken; never-erases, match and idempotence proved in full. |
| C23 | Metadata equality is an equivalence | partial | Metadata | False of the code: 0.0 == None for coordinates only one way round, and isclose is not transitive. Partial: exact meaning of == for all objects, reflexive for all, symmetric/transitive without numeric fields. Numbers are rationals (no NaN). |
| C24 | An object equals its own dictionary | partial | Metadata | False of the code: load() returns None, so comparison with a dict is always False. |
| C25 | Dotted keyword arguments build the same nested structure as nested dicts | proved | Metadata | Keywords named after the class are treated by C82. |
| C26 | Band indices are exactly the in-band frequencies | proved | Band |  |
| C27 | Band containment agrees with interval containment | partial | Band | False of the code: contains tests both end points, so a half-open band does not contain itself. Partial: exact meaning, soundness, transitivity for all bands. |
| C28 | Band overlap is symmetric and means a shared frequency | proved | Band |  |
| C29 | Center frequency lies in the band | proved | Band | Over the reals; floating point rounding is outside the model. |
| C30 | Recorded-channel lists always mirror the channels | proved | Run | Objects are values; sharing between runs is outside this model. |
| C31 | add_channel/get_channel/remove_channel behave like a map | partial | Run | False of the code when a channel of another class holds the name. Partial: same class or new name; map behaviour of add/get/remove in full. |
| C32 | Channel type inferred from name and from dict agree | partial | Run | False of the code: the dict branch tests 'b' twice and never 'h'; a dict without type raises KeyError. Partial: all other names. |
| C33 | Run time period covers its channels and never shrinks | proved | Run | Instants in UTC. |
| C34 | merge(inplace=False) leaves the receiver unchanged | partial | Run | False of the code: the receiver is modified. Partial: what merge does contain. |
| C35 | Station.run_list mirrors the runs | partial | Station | False of the code with update=False (run_list stale). Partial: all histories with the default update=True, incl. merges, edits of stored runs and attribute assignments. |
| C36 | remove_run does not alter the remaining runs | partial | Station | False of the code: the removed run's exclusive channels are re-created on the first remaining run (C36_names_survive), and stay in channels_recorded when no run remains (C36_stale_recorded). Partial: all other runs untouched; covered case exact. |
| C37 | Runs can be sorted by start time | partial | Station | False of the code: calls split on an MTime, AttributeError for any station with a run. |
| C38 | Station time period covers its runs | proved | Station | Instants in UTC. |
| C39 | Survey bounding box is tight | proved | Survey | The bounding box is the exact minimum and maximum; coordinates are rationals. |
| C40 | Stations of a survey behave like a map | proved | Survey | Histories of add and remove. |
| C41 | Merging experiments unions their surveys | proved | Survey | Distinct ids; see C84, C85 for equal ids. |
| C42 | A single filter read back from XML is accepted | partial | ExperimentXml | False of the code: exactly one filter of a class makes from_xml raise. Partial: raises iff some class has exactly one filter; otherwise content exact. |
| C43 | Degree-minute-second strings round trip | partial | Location | False of the code for -1 < x < 0: the sign is lost. Partial: holds for all other x, at string level; for -1 < x < 0 the opposite value comes back. Exact arithmetic. |
| C44 | Accepted positions are in range | proved | Location | Exact arithmetic with infinities and NaN; float() of strings modelled on ASCII literals. |
| C45 | Unit strings are split and recombined losslessly | proved | Units | All lengths; words contain no blanks, slashes or brackets and are not 'per'. |
| C46 | Every positive sample rate gets exactly the right period code | partial | Fdsn | False for rates between the bands (e.g. 0.5 samples/s), which get the code A without a band. Proved: exactly which rates are covered, the band of the code contains the rate, rates sharing a code form an interval, faster rates never get a slower code. |
| C47 | FDSN channel codes decode to what was encoded | partial | Fdsn | False for rates between bands (read back as 1..1), for tide (read back as magnetic) and for inclined vertical channels. Proved: the exact meaning of every horizontal orientation code over the reals, and the round trip for horizontal azimuths, covered rates and all types but tide. |
| C48 | Applied filters stay ordered by stage with distinct names | partial | Applied | False: add_filter with an AppliedFilter object appends without sorting, and add_filter(name=...) compares the raw name while storing it in lower case. Proved: order after every removal and addition by name, exactly when an object keeps the order, distinct names when given in normal form. |
| C49 | A filter list is accepted iff its unit chain matches | proved | Filters | Proved in full; an empty list leaves the previous units in place. |
| C50 | The channel response is the product of its filters' responses | proved | Filters | Proved over the complex numbers for any list of the five filter classes, all option combinations, including that leaving out delays is exactly a shift by total_delay. |
| C51 | The channel pass band is the intersection of the filters' pass bands | proved | PassBand | Proved in full. |
| C52 | FIR symmetry expansion yields symmetric coefficients | partial | Filters | False for ODD filters: the code appends reverse(c[1:]) instead of reverse(c[:-1]). Proved: everything else, and that an ODD expansion is symmetric iff all coefficients are equal. |
| C53 | Response-table phases end up in radians | partial | PassBand | False for small angles: degrees below 6 pi and milliradians below a quarter turn are misread. Proved: the exact regions where each unit is recognised and idempotence there. |
| C54 | Decimation levels have cumulative sample rates | partial | Processing | False for max_levels <= 0 (IndexError). Proved: rates, numbers, ids and factors for every factor list and every positive level count; a zero factor raises. |
| C55 | Processing.assign_bands uses the level's true sample rate | partial | Processing | False unless d_k^k equals the product of the factors: the code uses rate / d^k with the factor of level k. Proved: the exact rate, correctness for equal factors, order of levels, and that the band indices are the in-band harmonics of the level's grid. |
| C56 | Decimation lists are stored as given | partial | Processing | False: level objects in a list are stored twice, objects first. Proved: exact effect, correctness for lists of dicts, iff statement, lookups and errors. |
| C57 | A decimation level is consistent with the archived parameters it generates | partial | Processing | False for min_num_stft_windows != 0, which is compared but not copied. Proved for 0; the check is characterised exactly (every differing parameter makes it fail or raise). |
| C58 | Fourier harmonics are increasing, below Nyquist, and evenly spaced | proved | Processing | Proved in full over rational rates. |
| C59 | A window's taper reflects its current settings | partial | Processing | False: the taper is cached and survives setting changes. Proved: which settings the taper answers for after any history. scipy get_window is a parameter. |
| C60 | Enough samples means at least the required windows fit | partial | Processing | False for min_num_stft_windows = 0 (the overlap is required). Proved for at least one window, plus the exact condition for 0 and monotonicity. |
| C61 | FC decimation: channels_estimated mirrors channels | partial | FC | False: add_channel stores a channel without listing it, so has_channel/get_channel/remove_channel do not see it. Proved: every reported channel is stored after any history without repeated names, reports are exact after any attribute assignment, effects of add and remove. |
| C62 | FC time period ends no earlier than any of its channels | partial | FC | False for channels (levels) with an end but no start. Proved for those with a start, for channels, levels and both nested. |
| C63 | FC decimation levels stay in sync | proved | FC | Proved for all histories of add/remove/assignments without repeated names; C63_repeated shows why repeated names are excluded. |
| C64 | Band edges of a frequency-band table stay sorted and aligned | proved | FreqBands | Proved; np.argsort and DataFrame.sort_values are abstracted as any functions returning the row numbers in sorted order. |
| C65 | Station data frame round trip | partial | Aurora | The claim for all stations is refuted: a run without time periods is lost. Proved for every station with at least one run, a time period and a distinct id per run and one scale factor per channel name; for every station no period is lost, moved or reordered. Instants are integers; pandas' same-format requirement on time columns is not modelled. |
| C66 | Channel nomenclature is a faithful renaming | partial | Aurora | Refuted only for names given to the constructor (overwritten by the keyword's names); everything else is proved for every history of assignments. |
| C67 | Monotonic kernels map into [0,1] and are monotone | partial | Weights | Range, monotonicity and the values outside the transition are proved over the reals for all bounds and windows; the part '0 outside' is refuted for Hamming (8 percent remain) and proved for the others. |
| C68 | Combined weights stay in [0,1] | partial | Weights | Proved over the reals, NaN included. The extra claim that a feature without kernels is neutral is refuted for arrays (scalar 1 cannot be combined with an array) and proved for scalars. |
| C69 | A threshold kernel separates values at its threshold | partial | Weights | Refuted: evaluate always raises NotImplementedError because _normalize does. Proved for a taper kernel with equal bounds. |
| C70 | Comments survive their string form | partial | Comment | Refuted as stated: an author that reads as a time (the word None, or a date) is taken for the time stamp. C70_iff_partial gives the exact condition for the round trip; C70_stamped_partial, C70_format_partial and C70_bad_time_partial cover the stamped case, the format and the error case. |
| C71 | Enumeration values are matched regardless of case | proved | Enums | Proved; lower case of ASCII letters only. The uniqueness theorem covers all 45 derived classes as read from the source. |
| C72 | EDI key=value lines keep their pairing under any spacing | partial | IoTools | Refuted: a value containing blanks, or an empty value, shifts the pairing of all later keys. Proved: for lines of single-word pairs the items are exactly the pairs, for every spacing, with a section name in front and a remark behind; and in general the items are the words, two by two. |
| C73 | Channel indexing of a transfer function names only recorded channels | partial | IoTools | Refuted for the channel counts: names containing the letter r are never counted and listed channels outside the known eight count as well. Index, remote default and flags are proved for all lists; the counts under the condition that only standard names are listed. |
| C74 | StationXML channel epochs are merged only if identical | partial | XmlEpochs | Proved for all sequences of runs: comparison is an equivalence, every channel is held by an epoch that agrees with it, lists its run and spans its times, nothing in an epoch is made up, and epochs follow each other if the runs do. Refuted: the response is not compared, so the filters of a later run are lost; and runs stored out of order make epochs overlap. |
| C75 | A serialised time stamp reads back unchanged | partial | MTime | False of the code for gps_time=True. Partial: gps_time=False; the exact shift is proved for GPS stamps. |
| C76 | Adding and subtracting a duration are inverse | partial | MTime | False for sub-microsecond durations. Partial: whole microseconds, inside the range. |
| C77 | MDate equality is equality of the printed date | partial | MTime | False of the code: the time of day is kept and compared. Partial: midnight stamps; eq implies same printed date. |
| C78 | MTime.from_dict leaves a usable time stamp | partial | MTime | False of the code: assignments are not validated, the raw value is stored. |
| C79 | An automatic band name follows the frequencies | partial | Band | False of the code: the automatic name is only set once. |
| C80 | to_dict() only leaves out empty fields | partial | Metadata | False of the code: arrays containing a zero are left out. Partial: exact description. |
| C81 | Dictionaries read back into the object they came from | proved | Metadata |  |
| C82 | A constructor accepts the class-wrapped dictionary | partial | Metadata | False of the code: dotted keys inside the wrapped dict are not expanded. Partial: dot-free keys. |
| C83 | A removed run stays removed | partial | Station | False of the code with update=False: the validator re-creates an empty run. Partial: default update=True. |
| C84 | Adding a station under a known id loses no runs | partial | Survey | False of the code: the added station is merged by attribute update, which carries no runs. Partial: the old station's own runs stay. |
| C85 | Adding a survey under a known id loses no stations | partial | Survey | False of the code: as C84 for surveys; the period is also overwritten. Partial: exact effect. |
| C86 | The survey period covers its stations and only grows | proved | Survey | To the day. |
| C87 | Every experiment written to XML can be read | partial | ExperimentXml | False of the code: surveys without stations, stations without runs, a class with one filter. Partial: exact condition. |
| C88 | Every filter written to XML is read back | partial | ExperimentXml | False of the code: FIR filters are written as f_i_r_filter, which the reader skips. Partial: all other filters survive, FIR filters never do. |
| C89 | Validated names are normal and stable | proved | Names | ASCII case; no newlines. |
| C90 | Validated station names are words and stable | proved | Names | ASCII whitespace for strip. |
| C91 | A minus sign makes a position string negative | partial | Location | False of the code: -0:30:00 reads as +0.5. Partial: at least one whole degree. |
| C92 | Every known unit is found by its symbol and by its name | partial | Units | False of the code: C is celsius, coulomb is not found by symbol. Partial: every other unit by symbol; every unit but digital counts by name in any case. |
| C93 | Normalised unit names are stable | partial | Units | False of the code: counts/V is stored as 'digital counts per Volt', which is unknown (KeyError for filters). Partial: names without 'digital counts'. |
| C94 | Direction letters survive the channel code | proved | Fdsn | Proved for every rate, including those without a band. |
| C95 | Removing a filter removes only it and renumbers the rest | proved | Applied | Proved in full. |
| C96 | Pass bands lie in the given range and a flat filter passes everything | partial | PassBand | False for 2000 or more frequencies: decimation leaves out the top end. Proved: ends are given frequencies, lower <= upper, and the flat case below 2000 frequencies. |
| C97 | A FIR filter has its stated gain at the reference frequency | proved | Filters | Proved for non-zero gain and non-cancelling taps. |
| C98 | A response table reproduces its entries | proved | Filters | Proved in full. |
| C99 | Responses to real signals are Hermitian | proved | Filters | Proved; response tables are excluded as they have no negative frequencies. |
| C100 | Stations data frame round trip | partial | Aurora | Refuted for an object that already has remote stations (they are kept, so reading twice doubles them) ; proved for storable stations with distinct ids read into an object without remote stations, and the exact result for any object. |
| C101 | EMTF decimation data follow the level number | partial | Processing | False when two levels share a number. Proved for distinct numbers and for the level that lookups return. |
| C102 | Geomagnetic model names keep their version | proved | Enums | Proved. |
| C103 | Station lookup by id | proved | Aurora | Proved. |
| C104 | Inactive kernels are skipped | partial | Weights | Refuted: the flag is never read; proved that it never changes a weight. |
| C105 | Every given weight kernel is used | partial | Weights | Refuted: dictionaries of unknown style are dropped with a log entry; exact result proved. |
| C106 | Activation kernels map into [0,1] and are monotone | partial | Weights | Range and monotonicity proved; 'cuts' refuted (hard sigmoid never goes below 0.4), exact cut value proved for each style. Infinite bounds not modelled. |
| C107 | The composite taper is a band pass | proved | Weights | Proved over the reals. |
| C108 | Weights of a band come from the closest frequency | proved | Weights | Proved over the reals for one-dimensional weights with a frequency axis. |
| C109 | Comment equality is comparison of contents | partial | Comment | Refuted: comparison with None returns a new (truthy) comment. Proved: comments compare by content, strings by the parsed content, and the comment's own string compares equal under the condition of C70. |
| C110 | Comments survive their dictionary form | partial | Comment | Refuted when only the text differs from the defaults: to_dict then has a single key and from_dict reads the time as the text. Proved: no API-built comment has a bar in author or text (invariant), and otherwise the dictionary form is restored. |
| C111 | Writing a comment as XML leaves the comment unchanged | partial | Comment | Refuted: to_xml stores the composed text in the comment itself. The exact effect is C111_partial. |
| C112 | EDI files on one line are split into the lines of the same file | proved | IoTools |  |
| C113 | Run ids of a channel survive StationXML | partial | XmlText | Refuted: an id with a colon makes the file unreadable. Proved for trimmed ids without colon, comma and brackets. |
| C114 | The comment of a channel survives StationXML | partial | XmlText | Refuted: the plain comment text is written but dropped when read; two colons raise ValueError; brackets are read as run ids. |
| C115 | Dictionary-like StationXML comments are read completely | partial | XmlText | Refuted: the parser stops after 21 pairs and cuts values at a colon; both proved in general, and exactness for at most 21 plain pairs. |
| C116 | Author and comments of a StationXML comment are separated | partial | XmlText | Refuted: 'comments: ..., author: ...' raises. Proved for author first and for one of the two. |
| C117 | The comment of a run survives StationXML | partial | XmlText | Refuted: a plain text is dropped, a run id with capitals is not found. Proved: dictionary-like texts and lower-case ids survive exactly. |
| C118 | The data logger description survives StationXML | partial | XmlText | Refuted: the empty description and a value with a colon raise ValueError. Proved for one or more plain fields. |
| C119 | Electrode ids survive StationXML | partial | XmlText | Refuted: a missing id becomes the word None, a comma is an error, a colon cuts. Proved for ids without these characters. |
| C120 | The reversed translator inverts the translator | partial | XmlText | Refuted for a name under two keys (the last wins). Proved: exact inverse when the names are distinct; in general every name leads to a key it stands under. |
| C121 | The DOI of a survey survives StationXML | partial | XmlText | Refuted: every DOI gains the prefix https://doi.org/, again at every further trip; a missing DOI becomes https://doi.org/None. |
| C122 | The model of a magnetic sensor survives StationXML | partial | XmlText | Refuted: the model is cut to its first word and the name appended. The exact result is proved, and that a second trip changes nothing more. |
| C123 | The id of a run survives its resource id | partial | XmlText | Refuted for ids with a colon; exact condition proved. |
| C124 | The licence of a survey survives StationXML | partial | License | False of the code: a network only keeps open/closed/partial, and reading picks the last licence of that class. Proved: which licence every licence becomes, that exactly CC0-1.0, CC-BY-ND-4.0 and ZPL-2.1 survive, that the status is kept and that a second trip changes nothing. |
| C125 | An accepted licence is accepted again | partial | License | False for two cases, proved as such: CC_BY_NA_SA is stored as 'CC BY-NC-SA', which is refused afterwards, and the default 'CC BY 4.0' used for None and '' is refused. Proved for every other text: acceptance, idempotence and independence of separators. str.replace chains and the SPDX list are modelled in full. |
| C126 | Runs get their channels back from StationXML | partial | XmlRuns | Proved for channels whose own comments list no runs. Refuted without that: comments read from StationXML list all runs of the epoch, so after changing one run both epochs list both. Also proved: a listed run that no longer exists raises AttributeError. Times of the channel become those of the run. |
| C127 | Channels that list no run are kept | partial | XmlRuns | False of the code: the first channel makes the only run, and later epochs outside its times are dropped silently. Proved: exactly which channels each run gets. |
| C128 | Impedance and tipper of a Z file in geographic coordinates | partial | ZmmRotate | Proved for fields put together as components along the channel directions, for any azimuths that are not parallel, with uniqueness of the tensor. For sensors that record projections (magnetometers, electric lines) proved when both pairs are orthogonal (C128_partial) and refuted otherwise (C128_refuted): the transpose is used where the inverse would be needed. Exact numbers; matrix inverse as in NumPy. |
| C129 | Errors of impedances and tippers of a Z file | proved | ZmmRotate |  |
| C130 | Reading, writing and reading a Z file keeps the impedance | partial | ZmmRotate | Refuted: the data set holds the turned transfer functions but write puts them under the unturned azimuths, so the next read turns them again (C130_twice: by twice the angle). Proved when the azimuths are 0 and 90 (C130_partial). |
| C131 | Transfer functions from the spectra of an EDI file | partial | EdiSpectra | Proved for files with a vertical channel (five and seven channels). Refuted without (C131_refuted): one matrix element is assigned twice and another stays zero, so the impedance is wrong. One frequency; exact complex numbers. |
| C132 | Errors from the spectra of an EDI file | partial | EdiSpectra | Refuted without a vertical channel: elements of the cross powers are assigned twice. Proved for files with one. Exact numbers, one frequency. |
| C133 | Impedance from apparent resistivity and phase in EDI files | partial | EdiRho | Proved for phases within 90 degrees of zero; C133_general_partial says what comes out otherwise. Refuted: phases beyond 90 degrees come out turned by half a circle, and the yx element stays zero unless the mean phase is between 0 and 90 degrees, so the phases of the third quadrant that are usual for it are lost. |
| C134 | Data written to an EDI file are read back | partial | EdiData | Proved for at least two frequencies; the printing of numbers is a parameter of which only Faithful is assumed. Refuted: with ascending frequencies the angles are not turned around with the rest; one frequency raises IndexError on reading. Variances of a tipper that is zero are not written. No apparent resistivities, spectra or nan. |
| C135 | Arrays assigned to a transfer function are returned | partial | Tf | Refuted in full: transfer_function_model_error cannot be assigned (KeyError, no entry in the channel dictionaries), and errors are not returned while the data are zero. Spec.step says which exceptions are raised: also AttributeError when a zero covariance is assigned while the other is set. xarray by its documented behaviour; float rounding and attributes of arrays not modelled. |
| C136 | Assigning periods keeps the arrays | partial | Tf | Refuted for the periods [1], which the code takes for a default: all arrays are cleared. Proved otherwise. |
| C137 | Errors from covariances | proved | Tf | Assigned errors are overwritten. Exact numbers. |
| C138 | Labelled arrays are assigned by label | partial | Tf | Proved as equality with the assignment of the array with rows and columns put in order. Refuted for objects of one period without impedance and tipper: they start anew, so that a residual covariance is lost when the signal powers are assigned. |
| C139 | Renaming channels | partial | Tf | Refuted: the labels of the data set are not renamed; proved what happens instead with entirely new names and on default objects. |
| C140 | Blocks of EDI files are read by their names | proved | EdiBlocks | Files without apparent resistivities and phases (C133) and without spectra (C131); reading of numbers is a parameter. At least two frequencies. Arrays are turned around, without the angles, if the frequencies ascend. |
| C141 | A Z file written and read again | proved | ZmmText | Conditions: at least one period; the name of the station is without the words of the header (C142); at least two channels, with different numbers from one on; the counts in the header are right; levels below ten million; the matrices are Hermitian (only the lower triangle is written). The formats are parameters: each prints one word of digits, signs, points and the letters of exponents, nan and inf; >12.4E leaves a blank in front (values below 1E+100); rounding commutes with the sign. |
| C142 | Names and unnumbered channels in Z files | partial | ZmmText | Refuted. A file for a station such as number1 cannot be read again, as each channel line holds the name and is taken for the line of counts (also: station, coordinate, orientations, **, and period, which cuts the blocks); the part of a name from a second colon on is lost. Channels without number are numbered from zero on writing while a zero is read as the last number, so that the transfer functions come back between other channels. Proved for names without these words and numbered channels. |
| C143 | Values of a J file are found at their periods | proved | JFile | Conditions: the header lines begin with # or >, latitude, longitude and elevation are named in it (C148); lines of numbers hold none of the letters l, z, t, r and at least four words; the resistivities are behind (C150). Floats are parameters: str and float agree for all but nan and -999, zero is printed 0.0. That a header can be read is C144. |
| C144 | The header of a J file is read | proved | JFile | Conditions: names and values are words without equals signs and commas, no name twice in one line, and no comment line contains lat, lon or elev (C148). Values are kept as given to update_attribute; conversions by pydantic are not modelled. |
| C145 | The position in a J file is read | partial | JFile | Refuted: header.py L226 takes the text in front of the equals sign for the number, so that every position is zero, which is what is proved (C145_partial) for any file of the form of C143. |
| C146 | The periods of a J file increase | partial | JFile | Refuted: the texts of the periods are sorted, so that 10.0 comes before 2.0; the values follow their periods (C143). Proved: the texts increase. |
| C147 | Lists in the header of a J file | partial | JFile | Refuted: of indices= 1 2 3 only the first is read; that only the first is read is proved for any list. |
| C148 | Making positions readable leaves the rest of a J file | partial | JFile | Refuted: the first line with lat, lon or elev in it is rewritten, so that a file name such as /data/long/mt01.txt and what follows it in the line is lost; a file without a longitude line of a station such as Colonia cannot be read. Proved: if no comment line contains these words, the comment lines are kept. |
| C149 | A J file gives a transfer function | partial | JFile | Refuted: without a time step in the header the sample rate is a division by zero. Proved for files with a time step. |
| C150 | All blocks of a J file are read | partial | JFile | Refuted: reading ends at the first block of resistivities, even if the impedance is behind it; tippers are ignored if there is only the second; an empty line after rows raises an error. Proved for blocks in front of the resistivities. |
| C151 | Values of an AVG table are at their frequencies and elements | proved | Zonge | Any table; hypotheses: a direction up or down, components beginning with z known. |
| C152 | Magnitudes and phases of AVG files are inverse to complex values | proved | Zonge | Floats are real numbers. |
| C153 | Errors of the impedance in AVG files | partial | Zonge | Refuted: the error is the root of p percent times the magnitude, so that an error of one percent of the resistivity becomes ten percent of the impedance; the error of the phase in the file has no influence. That formula is proved. |
| C154 | Errors of the tipper in AVG files | partial | Zonge | Refuted: the error of the tipper is its own magnitude, whatever the errors in the file; proved, together with the values of the tipper. |
| C155 | The lines that start a component are read | partial | ZongeText | Refuted: $Rx.Cmp=Tzx raises, since the enumeration has txy and tyx in place of tzx and tzy; with a blank the name of the attribute is another one and is not checked. Both are proved for all components, and that a file with such a line cannot be read. |
| C156 | Impedances go through the AVG table | proved | Zonge | Frequencies without repetition. |
| C157 | Errors go through the AVG table | partial | Zonge, ZongeMore | Refuted: the error e comes back as the root of 2 e \|z\|; proved, with exactly when it is kept. |
| C158 | Tippers go through the AVG table | partial | Zonge, ZongeMore | Refuted for z positive up: the sign is changed when reading but not when writing; proved for both directions. |
| C159 | An AVG table is written and read | proved | ZongeText | C159_table, C159_arrays. Printing and reading of numbers are parameters: the texts are read as some rounding of the number and have no letters or signs that the file uses. Components are written without blanks at the ends and without equals signs. |
| C160 | A file written with a valid header can be read | partial | ZongeText | Refuted: a header with smoothing None or with fewer than two angles is written to a file that raises when read. Proved: a file can be read exactly if smoothing is robust, normal or minimal, there are at least two angles and the unit is not blank; and the attributes that are read then. |
| C161 | A transfer function written as AVG file can be read | partial | ZongeMore, ZongeText | Refuted, and never true (C161_never): to_avg leaves the header as new, with smoothing None and without angles. |
| C162 | Arrays of an AVG object are what is written | partial | ZongeText | Refuted: an object with a table, as after reading, writes that table whatever its arrays. Proved for objects without one. |
| C163 | Names of stations go through AVG files | partial | ZongeText | Refuted: names come back in small letters; proved for all names. |
| C164 | The option toZmag of AVG files is read | partial | ZongeText | Refuted: toZmag, as in the files, becomes the attribute to_zmag and leaves to_z_mag as it is; proved for the spelling ToZMag. |
| C165 | Azimuths of channels from AVG files | partial | ZongeMore, ZongeText | Refuted: _has_channel looks at zxx whatever the component, so that components without these lines raise when zxx has them. Proved for the other cases. |
| C166 | Bounds of merge | partial | TfMerge | Refuted: bounds of the object itself are taken the other way round if its periods descend, since only the others are sorted; proved for that case (C166_descending), for ascending periods (C166_partial), and that rows are never made up (C166_rows). xarray's slices and combine_by_coords are modelled from their documentation and code as remembered. |
| C167 | Merge loses no period | partial | TfMerge | Refuted: of several transfer functions with the same least period within bounds all but the last are left out without an error (C167_lost). Proved if the least periods are different: the result has exactly the rows that are wanted. |
| C168 | Transfer functions that do not overlap can be merged | partial | TfMerge | Refuted: if the periods of the object descend, merging with any transfer function of several periods raises (C168_never). Proved for ascending periods of the object and any order of the others. |
| C169 | Merge does not depend on the order of the items | partial | TfMerge | Refuted as C167; proved if the least periods are different. |
| C170 | Merge leaves the merged transfer functions unchanged | partial | TfMerge | Refuted: a transfer function in a dictionary is sorted in place. Proved: nothing else happens (C170_sorted), and nothing at all if those ascend. |
| C171 | Merged periods ascend | partial | TfMerge | Refuted: a period at which two transfer functions meet is there twice. Proved: ascending if the periods of the object do, and without repetition if the parts have no common periods. |
| C172 | Merge in place | proved | TfMerge | As stated; copies are values. |
| C173 | Equal transfer functions | partial | TfMerge | Refuted: errors are not compared (C173_errors), nor are periods if the numbers are all zero; an object of another class raises (C173_other). Proved: what equality does say, and that it holds then (C173_same). The comparison of metadata is a parameter. |
| C174 | Files are read in the format in which they are written | partial | TfMerge | Refuted: a name with a suffix given as fn_basename is written in the format of file_type. Proved for full paths, names without suffix or with the one of the type, and for the name of the station if it is not empty. |
| C175 | File types of the documentation | partial | TfMerge | Refuted: J files cannot be written. Proved for the others. |
| C176 | EMTF XML data are read back | partial | EmtfData, EmtfMore | Refuted: a file with one period cannot be read (C176_single: TypeError). Proved for two and more periods. Printing and reading of single numbers is a hypothesis (Good): a format prints one word which is read as the rounded number. |
| C177 | Zeros in EMTF XML | partial | EmtfData | Refuted: zeros and missing numbers are written as 1e32 and read as 1e32 (C177_sentinel). Proved: arrays that were not given or are empty are read as zeros. |
| C178 | Data types of EMTF XML files | partial | EmtfData | Refuted: an array of zeros, as reading makes one for impedances that the file does not have, is written as 1e32 and appears as impedance. Proved: exactly the arrays that are given and have entries appear, so types are kept if all of those have a number that is not zero. |
| C179 | Statistical estimates | partial | EmtfData | Refuted: estimates of tippers are ignored if there is an array for impedances, be it zero or empty. Proved: exactly when they are listed. |
| C180 | Data types | proved | EmtfData | As stated. |
| C181 | Site layout follows the data | proved | EmtfData | As stated; channels that were there twice stay there twice, otherwise each is there once. |
| C182 | Texts of repeated elements | partial | EmtfData | Refuted: repeated elements with nothing but text become empty dictionaries. Proved, with the order of the texts, if there are no lists of texts and no keys that become the same. |
| C183 | EMTF XML objects keep the transfer function | partial | TfConvert | Refuted: one without tippers or covariances cannot be made again from its object (ValueError, C183_missing), and residual covariances between electric and vertical magnetic field are not in the object. Proved if impedance, tipper and both covariances are there, all but these cross covariances, for errors that are roots of non-negative numbers. |
| C184 | Data of EMTF XML files reach the transfer function | partial | TfConvert | Refuted: the inverse signal power of the tippers, zero if there are none, is stored over that of the impedances. Proved: everything else, and which one remains. |
| C185 | Names of channels and EMTF XML | partial | TfConvert | Refuted: hx, hy, ex, ey and hz are fixed names; other names raise a KeyError (C185_partial). The usual names are C184_partial. |
| C186 | EDI objects keep the transfer function | proved | TfConvert | As stated; the object read into is new. |
| C187 | Reading EDI data into an object in use | partial | TfConvert | Refuted: what the file does not have stays (tippers of the file before). Proved if the object had one period of one second, as a new one has, or if the file has all four arrays. |
| C188 | Spectra keep their covariances | partial | TfConvert | Refuted: with two outputs the covariances are not stored. Proved for three outputs with covariances that are not zero. |
| C189 | Channels of Z file objects | partial | TfConvert | Refuted: an auxiliary channel of the first run raises a KeyError. Proved without a run and for runs with the five channels and channels of remote stations. Without data: UnboundLocalError (C189_empty). |
| C190 | Data of Z files reach the transfer function | partial | TfConvert | Refuted: with covariances of zero an AttributeError is raised (C190_zero). Proved otherwise. |
| C191 | Z file objects keep the transfer function | partial | TfConvert | Refuted for every transfer function: the object has no periods (C191_never). Proved for the object with the periods assigned. |
| C192 | Header section of EDI files | partial | EdiMeta | Refuted: the declination is written under a name that is not read (C192_declination_partial: no header that is written gives one), a value with an equal sign loses its line and a greater sign ends the header (C192_signs_partial). Proved for all other attributes with plain values that their own validators keep. |
| C193 | Lines of measurements | partial | EdiMeta | Refuted: a measurement with the default acquisition channel, which is empty, cannot be read (IndexError); a magnetic channel whose name has no h, as bx, has no measurement. Proved for acquisition channels that are words; an azimuth of zero of an electric channel is computed from the place of the electrodes. |
| C194 | Define-measurement section of EDI files | partial | EdiMeta | Refuted: a setting with an equal sign is cut. Proved for settings without, and measurements as in C193. |
| C195 | Measurements of the same type | partial | EdiMeta | Refuted: of three the second is lost. Proved: the first and the last that differs from it are kept, the latter as rr and the name. |
| C196 | Identifiers of measurements | partial | EdiMeta | Refuted: measurements without identifier are numbered from 1 on, whether or not the number is in use. Proved: the order, that all are written, and different identifiers if none of the first numbers is in use. |
| C197 | Data section of EDI files | partial | EdiMeta | Refuted: a spectra section is not found when it is read; identifiers with leading zeros are changed. Proved for sections of impedances whose identifiers reading keeps. |
| C198 | Identifiers of channels in the data section | proved | EdiMeta | As stated. |
| C199 | Blanks in the settings of the section | partial | EdiMeta | Refuted: a blank before the equal sign makes another attribute. Proved for all other blanks and the case. |
| C200 | Information section of EDI files | partial | EdiInfo | Refuted: names such as operator are changed when they are read and all others are put into lower case, a line with a smaller or greater sign is lost, a text in brackets becomes a list, and a text with words such as electrics makes the reader take the file for that of another program. Proved for all dictionaries without these. |
| C201 | Information that was read is stable | partial | EdiInfo | Refuted: a processing parameter with two words becomes two items, lists in comments and a text with the name of another program are read differently. Proved for sections without these. |
| C202 | Standard names and processing parameters | partial | EdiInfo | Refuted: the remote reference takes the place of the processing parameters before it. Proved for sections without it; the last value of every other name is kept. |
| C203 | Two columns on a line of Phoenix files | partial | EdiInfoOther | Refuted: a line with fewer than four words is not taken apart and its second value is lost. Proved for four words and more. |
| C204 | Names in Phoenix files | partial | EdiInfoOther | Refuted: all names that are not known become one. Proved: every known name is kept, of the unknown ones the last; C204_sensors, C204_voltages. |
| C205 | Channels in Empower files | partial | EdiInfoOther | Refuted: a channel remains the channel after the next section header. Proved: every value is kept under the channel named last, and nothing else is kept; contact resistances and currents of magnetic channels, which are renamed, are left out. |
| C206 | Units in Empower files | partial | EdiInfoOther | Refuted: of millivolts the volts remain, and a unit in brackets after a number of one digit remains. Proved for the signs of metres, volts, ohms and degrees, and brackets after longer numbers. |
| C207 | The response of a channel survives StationXML | partial | Stages | Refuted: a filter without poles and zeros loses its normalisation factor. Proved for pole zero filters with a pole or zero or factor one, coefficient filters, delays of gain one, tables with small phases, and FIR filters whose gain is given at the normalisation frequency. |
| C208 | Filters in StationXML | partial | Stages | Refuted: a comment is put into the stage as an object, which is refused when it is read. Proved without comments; a filter that decimates has its sample rate appended to its name, anew with every passage. |
| C209 | Classes of filters in StationXML | partial | Stages | Refuted: a delay with a gain becomes a coefficient filter. Proved for the filters of the statement; the frequency of a FIR filter's gain becomes the normalisation frequency. |
| C210 | The sensitivity written to StationXML | partial | StagesMore | Refuted: the product of the gains is written, whatever the response. Proved: it is that product to 16 digits, nothing is written when it is zero (OverflowError), and it is the amplitude for coefficient filters of positive gains. |
| C211 | The sensitivity of an instrument | proved | StagesMore |  |
| C212 | One filter for each stage | partial | StagesMore | Refuted: names that differ in capitals only. Proved: one filter for every different name in small letters. |
| C213 | Names for filters without a name | partial | StagesMore | Refuted: only the rounded amplitude at 1 Hz is compared. Proved: the name is new when no filter of the type has that amplitude and the names containing the type are numbered below 99; delays and FIR filters raise a TypeError when there is one of the type already. |
| C214 | Units of a channel in StationXML | partial | StagesMore | Refuted: the units of the channel are not written. Proved: after reading they are those of the last filter's output. |
| C215 | Orientation of a channel in StationXML | partial | StagesMore | Refuted: angles are taken modulo 360. Proved: the direction is kept. |
| C216 | Position of a channel in StationXML | partial | StagesMore | Refuted: only the positive electrode is written. Proved: its position is kept, the negative one gets the same. |
| C217 | The transfer function's metadata survive EDI | partial | EdiStationMore | Refuted: the date of processing becomes the creation time of the provenance. Proved for all others, for names that are not those of other things; none is added but the name of the station. |
| C218 | Processing parameters and remote references survive EDI | partial | EdiStationMore | Refuted: names of parameters become lower case and lose what is before a dot. Proved for parameters name=value with plain names. |
| C219 | Runs survive EDI | partial | EdiStationMore | Refuted: there is always one run, the station's name followed by a. Proved: exactly this. |
| C220 | Name, place, times and authors survive EDI | partial | EdiStationMore | Refuted: a slash in the name becomes an underscore. Proved for names without one and one-word reference frames; a station without geographic name gets that of the survey. |
| C221 | Provenance survives EDI | partial | EdiStationMore | Refuted: where the software has no name it gets that of the submitter. Proved for all that has a value. |
| C222 | Every station can be converted to EDI | partial | EdiStationMore | Refuted: the provenance of a run is taken for an attribute of the station and raises AttributeError. Proved for names that are not those of other things; a parameter without = raises ValueError always. |
| C223 | Electric channels in EDI | partial | EdiStationMore | Refuted: the type of the electrodes becomes that of the channel. Proved for names without .type that no other channel has. |
| C224 | Magnetic channels in EDI | partial | EdiStationMore | Refuted: only the sensor is read, its type becomes that of the channel, and the sensor of rrhx is taken for that of hx. Proved for the other attributes of the sensor without remote channels. |
| C225 | The survey survives EDI | partial | EdiStationMore | Refuted: a survey without an author gets that of the station. Proved for all that has a value, and what is read for those without. |
| C226 | Runs survive EMTF XML objects | partial | EmtfRuns | Refuted: runs without sampling rate are left out. Proved for the others; a station without runs gets one named after it. |
| C227 | Magnetometers survive EMTF XML objects | partial | EmtfRuns | Refuted: the name of the sensor becomes the component. Proved for id, manufacturer and type unless a run has one magnetometer only; then hx, hy and hz all get its sensor. Channels behind one of a long period system are lost. |
| C228 | Electrodes survive EMTF XML objects | partial | EmtfRuns | Refuted: the negative electrode gets manufacturer and type of the positive one. Proved for the ids, the positive electrode and the length. |
| C229 | Places and orientations survive EMTF XML objects | partial | EmtfRuns | Refuted: all runs get the places of the last run that has the channel. Proved: exactly this, the translated azimuth before the measured one, the length of the dipole as second place if all places are zero. |
| C230 | Which runs can be converted to EMTF XML objects | proved | EmtfRuns | Proved in both directions, for comments that change nothing but comments. |
| C231 | Comments of runs survive EMTF XML objects | partial | EmtfRuns | Refuted: only the last comments under comments.author, comments.value and errors are left. Proved: exactly these; a comment with an unknown dotted name makes the conversion fail. |
| C232 | Which stations can be converted to EMTF XML objects | proved | EmtfStation | Proved in both directions, for comments that say nothing of field notes, data loggers and the processing and do not name site.survey or emtf.sub_type. Station ids with _ and data types such as AMT, which are valid for stations, fail. |
| C233 | Values of a station survive EMTF XML objects | partial | EmtfStation | Refuted: comments of the station such as 'site.name: x' change other attributes, and processing parameters change those of the processing. Proved: exactly this, for 34 attributes and the data type; None becomes an empty text or 0.0 for some. |
| C234 | Values of a survey survive EMTF XML objects | partial | EmtfStation | Refuted: the id becomes the geographic name. Proved: exactly what becomes of the attributes; without a country there is one with an empty name. |
| C235 | Comments of a station survive EMTF XML objects | partial | EmtfStation | Refuted. Proved: they become the description, three file attributes and the words about data quality, with what the comments of survey and station said of them. |
| C236 | Comments of a survey survive EMTF XML objects | partial | EmtfStation | Refuted. Proved: they become what was said of the copyright, with standard conditions of use and release status. |
| C237 | Remote references survive EMTF XML objects | partial | EmtfStation | Refuted. Proved: there is one remote reference, the id of the remote site in the processing parameters or else an empty text. |
| C238 | Processing parameters survive EMTF XML objects | partial | EmtfStation | Refuted. Proved: those of the remote site and its field notes remain, in the order of the names; others are lost. |
| C239 | Product ids in EMTF XML objects | proved | EmtfStation | Proved for the same comments as C232; a comment emtf.product_id of the station replaces it. |
| C240 | Which field notes can be written to EMTF XML files | proved | EmtfFile | Proved in both directions; without a sampling rate writing fails with AttributeError, without name or type of a dipole with TypeError. |
| C241 | Field notes survive EMTF XML files | partial | EmtfFile | Refuted: a run without a text for errors has no element for it, and reading stops there: it and all later runs are missing. Proved: exactly what is read: the runs before it, without the models of instruments, with comments of electrodes as their value, texts as in C243; a dipole with exactly one electrode cannot be read. |
| C242 | The site layout survives EMTF XML files | partial | EmtfFile | Refuted: on each side the magnetic channels come first. Proved: exactly this, all channels are read. |
| C243 | Texts survive EMTF XML files | partial | EmtfFile | Refuted: ampersands are replaced by 'and' before the file is parsed, so that escaped characters come back as letters. Proved: a text comes back unchanged exactly if it has no &, < or > and, before Python 3.13, no quotation marks. |
| C244 | The runs of a station are in its EMTF XML file | partial | EmtfRunFile | Refuted: the runs from the first on whose comments do not say 'errors: ...' are lost. Proved: exactly the runs before it are read, with what files keep of their ids and data loggers; if there are none, one run with the id of the station and 'a' is made up. For comments whose names change nothing but comments; what becomes of channels is C242 with C228-C230. |
| C245 | Runs survive dictionaries | proved | ExperimentDict | Proved: the lists are assigned before the channels and make place holders, all of which are replaced. |
| C246 | Stations survive dictionaries | partial | ExperimentDict | Refuted: a channel removed from a run of the station is in channels_recorded, and reading the dictionary puts it into the first run again. Proved: exactly the same runs if channels_recorded names channels of the runs only (in particular for stations to which runs were added); otherwise no run and no channel is missing, and only the first run can have more. |
| C247 | Experiments survive dictionaries | proved | ExperimentDict | Proved, with attributes changed by a dictionary as a parameter (C80, C81). |
| C248 | Filters of a survey are found by the channels | partial | ExperimentDict | Refuted: applied filters have names in lower case with slashes as ' per ', the survey has the names themselves (list) or in lower case (dictionary); filters not found are left out. Proved: all filters are found if the names have neither slash nor capital letter (list) or no slash (dictionary); any other filter is in no response after the survey was given a list or was read from its dictionary. |
| C249 | Sorting an experiment | proved | ExperimentDict | Proved. |
| C250 | Experiments from JSON | partial | ExperimentDict | Refuted: a file name given as text is itself read as JSON. Proved: a text that is not the name of a file is read, a Path is read; a Path without a file ends in an UnboundLocalError. |
| C251 | Lists of runs after sorting | partial | ExperimentDict | Refuted: run_list keeps the order in which runs were added. Proved: it has the same ids. |
| C252 | Renaming channels | partial | Rename | Refuted: the lists of recorded channels keep the old names, and the next assignment makes channels of these names. Proved: the keys and the changes returned by update_channel_keys; exactly which channels there are after the next assignment (no renamed channel is lost); nothing is added when channels exchange names. |
| C253 | Renaming runs | proved | Rename | Proved. |
| C254 | A survey given to a new TF | proved | TfMeta | Proved. A station named 0 is updated instead of added, see C84. |
| C255 | A survey given to any TF | partial | TfMeta | Refuted: a TF that has read a file keeps the station of that file. Proved: the first station stays, unchanged if the survey has none of its id, unless it is the station 0 of a new TF; all stations after a survey with other stations. |
| C256 | A station given to a TF | partial | TfMeta | Refuted: the first run the TF had becomes the first run of the given station. Proved: exactly the runs of the station if that run is the run 0 of a new TF; otherwise exactly which runs there are; a station without runs gets run 0 with five channels. |
| C257 | Metadata of files read by a new TF | proved | TfMeta | Proved, with channels_recorded up to date and channels in every run where runs are kept. |
| C258 | Naming the station of a TF | partial | TfMeta | Refuted: the station is kept under its old name. Proved: the id of station_metadata is the name; a new TF that got a name keeps its empty station when a survey is read. |
| C259 | A run given to a TF | partial | TfMeta | Refuted: the setter reads an attribute component that no TF has. Proved: it raises AttributeError for all runs, unless the user gave the TF such an attribute. |
| C260 | Lower and upper bounds of the bands of a level belong together | partial | LevelBands | Refuted: a band inside another. Proved: each list alone, the error if an index is missing, and the whole for bands of which none is inside another, overlapping or not. |
| C261 | The data frame of the bands of a level | proved | LevelBands | Proved for every sorting method that gives a sorted order. |
| C262 | Harmonic indices of a level | proved | LevelBands | Proved. |
| C263 | Bands on the frequencies of a level | proved | LevelBands | Proved for bands closed on the left, the default. |
| C264 | Giving bands to a level | proved | LevelBands | Proved. What Band.from_dict makes of a dictionary is a parameter. |
| C265 | Filters survive JSON | partial | FilterFile | Refuted: two poles or zeros raise ValueError, one vanishes, and an array with a zero in it is not written. Proved: exactly these failures, and that every written field comes back when the complex arrays have the right length already (always for filters without poles and zeros). |
| C266 | Filters can be written to XML | partial | FilterFile | Refuted: arrays raise ValueError, so no pole zero filter can be written. Proved: written exactly when no array is among the written fields, with one element for each written field. |
| C267 | Texts of number lists are read as those numbers | proved | FilterFile | Proved. Python's float of a text is a parameter; digits are 0-9. |
| C268 | Texts of complex numbers are read as complex numbers | partial | FilterFile | Refuted: (1+2j) gives the two numbers 1 and 2. Proved that it always gives these two. |
| C269 | Round numbers as numpy prints them are read as one number | partial | FilterFile | Refuted: 1.e+05 gives 1 and 5. Proved that it always gives these two. |
| C270 | A site survives an EMTF XML file | partial | EmtfSite | Refuted: offsets, geomagnetic model, comments, the fraction of the epoch and the angle of a layout that is not orthogonal are lost, and an end before the start becomes the start. Proved: exactly what is read, field by field, for every admissible site. |
| C271 | Run lists survive an EMTF XML file | partial | EmtfSite | Refuted: names with a blank are cut. Proved: names without blanks, commas and brackets come back; without commas and brackets the list read is the joined text cut at every blank. |
| C272 | A site element may have further children | partial | EmtfSite | Refuted: any unknown child raises AttributeError, empty or repeated comments of the data quality notes end the reading, and so does a missing or repeated Site. Proved for all such elements. |
| C273 | Writing and reading a site again changes nothing more | proved | EmtfSite | Proved, with a site for which the first reading is not yet the last. Printing and rounding of numbers are parameters (rounding twice is rounding once). |
| C274 | Reading a second EMTF XML file gives its site | partial | EmtfSite | Refuted: runs, year, layout, numbers of the data quality and comments that the second file does not have are those of the first, and an orthogonal layout does not replace another one. Proved: exactly what is there after reading into any site, and that it is as in a new object when the file has all of these and both layouts are orthogonal. |
| C275 | The attachments are those of the file read last | partial | EmtfBlocks | Refuted: several attachments are appended to those of earlier files, and a single one is not written any more. Proved: exactly what a reading does; for a new object the claim; by induction what any sequence of files leaves. |
| C276 | What is written does not depend on earlier writes | partial | EmtfBlocks | Refuted: a write without identifier removes the remote site from all later files, and a write without field notes the remote field notes. Proved by induction over all sequences of writes: exactly what each file has; the first write is as claimed. |
| C277 | Processing information survives an EMTF XML file | partial | EmtfBlocks | Refuted: the version of the software, a remote reference with the name of a type of values, and runs after one without a text for errors or with a single electrode are lost (without an exception). Proved: exactly what is read, into any object, and which information can be written. |
| C278 | A directory of MT XML files is sorted completely | partial | ManyFiles | Refuted: only files that mention one of hx, hy, hz, ex, ey are listed, of several that mention the same the first, and a file that mentions two (also in the name of its run) twice. Proved: everything listed is below its own run and station; the runs are all, in order; exactly which channels are listed; all of them once each if the files are named after the run, a type and different components of the five, none of which is in the name of the run. |
| C279 | An experiment can be made of a sorted directory | partial | ManyFiles | Refuted: channels have no attribute `filter`, so that any channel raises AttributeError. Proved: an experiment is made exactly if no listed run has a listed channel. |
| C280 | Selected stations of a directory | proved | ManyFiles | Full. |
| C281 | Every station file of a directory is used once | partial | ManyFiles | Refuted: for files of the same name in two directories the first is used twice. Proved if the names are different, and that always the first file of a name is used. |
| C282 | A station survives StationXML | partial | XmlStation | Refuted: the name and the FDSN code come back as the name in capitals, who acquired the station does not come back, the period is extended to the runs. Proved: exactly what comes back of every field; stations for which this is the same; a colon in the author, name or version of the software makes the file unreadable. Comments of runs and channels are not modelled here (C116, C117). |
| C283 | Translating a station to StationXML leaves it unchanged | partial | XmlStation | Refuted: a missing FDSN code becomes the name, and a missing organization a blank if somebody acquired the station. Proved: that this is all, that a second writing gives the same and changes nothing, and that the FDSN code is never written. |
| C284 | The runs of a station survive StationXML | proved | XmlStation | Full. |
| C285 | A survey survives StationXML | partial | XmlSurvey | Refuted: the name comes back as the identifier, the comments are lost, the leader of the project only comes back with an organization, and the DOI is changed (C286). Proved: exactly what comes back of every other field. The licence is what Model/License makes of it. |
| C286 | The DOI of a dataset survives StationXML | partial | XmlSurvey | Refuted: no survey keeps its DOI: one that has a DOI gets the address in front of it once more, one that has none gets https://doi.org/None. Proved: exactly this, and that the address is repeated with every translation. |
| C287 | Networks made from surveys can be read | partial | XmlSurvey | Refuted: a survey with the DOI of a journal cannot be read (the colon of its address makes the comment a dictionary), nor one whose leader has an organization and no e-mail address. Proved: all others can. |
| C288 | The code given to mt_to_xml is used | partial | XmlSurvey | Refuted: the code is always replaced by that of the survey, also if this is missing. Proved: that the argument has no effect. |
| C289 | Assigning a part of a time changes this part only | proved | MTimeParts | Proved for all stored times. pandas.Timestamp.replace is modelled from its documentation, nanoseconds outside 0..999 and values that are not integers are left out. |
| C290 | A date can be assigned part by part | partial | MTimeParts | Refuted: on the way from 31 January to 1 February there is 31 February. Proved: from the first 28 days of a month every date is reached and nothing else changes; the month cannot be assigned while the day does not exist in it. |
| C291 | Filters of a channel survive dictionaries | partial | ChanFilt | Refuted: add_filter(name='A') twice gives two filters of the name a, one of which is lost. Proved: they survive exactly if the names are different and every filter has a stage; in general the first of every name survives. |
| C292 | from_dict adds to the filters of a channel | partial | ChanFilt | Refuted: filters given as a text replace those of before. Proved for lists and for both old formats, and that after a text nothing else is left. |
| C293 | Reading a dictionary of a channel again changes no filters | partial | ChanFilt | Refuted: a name with a slash in an old format is added once more each time. Proved for all lists and for old formats without a slash. |
| C294 | The filters of a dictionary can be assigned | partial | ChanFilt | Refuted: every filter becomes one without a name and stage, as the dictionary is wrapped in applied_filter. Proved: exactly this, and that filters, dictionaries that are not wrapped and texts are understood. The parsing of texts is a function of the world. |
| C295 | Old names and values of filters are read | proved | ChanFilt | Proved for the lists and for the texts of lists; what pydantic takes for a boolean is modelled. |
| C296 | One value of applied is used for all names | partial | ChanFilt | Refuted: MTSchemaError. Proved: the numbers have to agree in every case, and for one name the value is used. |
| C297 | Coherence of Fourier coefficients is a coherence | proved | Features | Proved over the complex numbers; rounding is not modelled, a division by zero gives 0 as in the code. |
| C298 | Striding windows cover the series | proved | Features | Proved for any function in the place of scipy.signal.coherence. |
| C299 | Parallel and sequential computation agree | partial | Features | Refuted: for a series shorter than the window one raises IndexError, the other UnboundLocalError. Proved equal whenever a window fits, and that both raise otherwise. |
| C300 | The sub-window is part of the window | partial | Features | Refuted: a window of four samples gets an empty sub-window from the default fraction. Proved: it has samples exactly if window times fraction is at least one, and all the rest; the fraction is an exact number. |
| C301 | The channels of a coherence get stations that take part | partial | Features | Refuted: a channel rrhx without a remote station is left without a station, only a message is logged. Proved with a remote station, and exactly when it fails without one. |
| C302 | Stations of a coherence are settled once | proved | Features | Proved. |
| C303 | A described feature has the class of its name | proved | Features | Proved by induction over the wrapping. |
| C304 | A feature object keeps its class | partial | Features | Refuted: an object inside one dictionary becomes a plain Feature. Proved for the object as it is; and what becomes of a wrapped one. |
| C305 | Remote stations are marked | partial | Features | Refuted: the stations of a list keep their mark. Proved for single stations and dictionaries, and what becomes of lists and texts. |
| C306 | No remote reference without a remote station | proved | Features | Proved. |
| C307 | With a remote station the engines are kept | partial | Features | Refuted: when the stations come from the data set the engine is changed before the remote station is read. Proved with a remote station beforehand. |
| C308 | An updated attribute is read back | proved | AttrNames | Proved; validation is a function of the world of the path and the value. |
| C309 | Updating an attribute leaves the others | proved | AttrNames | Proved for all names, those that raise included. |
| C310 | update_attribute raises for names that do not exist | partial | AttrNames | Refuted: a missing last attribute is made. Proved: it raises exactly if an object on the way is missing. |
| C311 | get_attr_from_name raises for names that do not exist | partial | AttrNames | Refuted: a missing last attribute is None. Proved: exactly what is returned or raised. |
| C312 | set_attr_from_name sets | partial | AttrNames | Refuted: the method is empty. Proved: it changes nothing, and the helper does what update_attribute does. |
| C313 | Names may have other separators | partial | AttrNames | Refuted: the separator is not passed on, so a second one is taken for part of a name. Proved for at most one separator. |
| C314 | Electrodes survive an EDI measurement | proved | EdiGeometry | Proved; the two decimals of the written lines are left out; the number from 0 on. |
| C315 | EDI dipoles have the length and direction of their electrodes | proved | EdiGeometry | Proved over the reals, with the principal value of the argument. |
| C316 | Electric channels keep their azimuths in EDI files | partial | EdiGeometry | Refuted: a translated azimuth not given is read as the direction of the electrodes. Proved: all else is as it was. |
| C317 | Magnetic channels keep place, azimuth and tilt in EDI files | partial | EdiGeometry | Refuted: the measured azimuth is replaced by the translated one, or 0 if there is none, and the tilt is not read. Proved: exactly what is read. |
| C318 | Making an EDI measurement leaves the channel alone | partial | EdiGeometry | Refuted: a translated azimuth not given becomes 0. Proved: it is the only change. |
| C319 | EDI measurements are made of every channel | partial | EdiGeometry | Refuted: an auxiliary channel with an e in its name raises AttributeError; of bx no measurement is made. Proved: exactly which channels are accepted. |
| C320 | Differences of dates are days | partial | MDate | Refuted: the date subtracted loses its time of day. Proved: the difference is the days and that time of day. |
| C321 | Adding days moves the calendar | proved | MDate | Proved for dates that are not at the limits of the range. |
| C322 | Dates survive their dictionaries | partial | MDate | Refuted: the time of day is not written, but compared. Proved: midnight of the same date is read; equal exactly for dates at midnight in UTC. |
| C323 | Comments about electrodes reach their dipole | partial | EmtfNotes | Refuted: without a dipole of that name the last dipole is changed and the new one is put among the magnetometers. Proved: a dipole named in lower case is changed and nothing else, a name with capitals raises ValueError, and exactly what happens to names that are not there. |
| C324 | Comments about magnetometers reach their magnetometer | partial | EmtfNotes | Refuted: a magnetometer without a name takes the value and stays without a name. Proved: a magnetometer named in lower case is changed and nothing else, a new one is made if all have other names, a name with capitals raises ValueError. |
| C325 | Comments place magnetometers | partial | EmtfNotes | Refuted: the x of hx goes to the first output channel, usually an electric one. Proved: exactly which output channel is changed, and that none raises IndexError for hx and hy. |
| C326 | Comments place electrodes | partial | EmtfNotes | Refuted: without a channel of that name the first channel is moved. Proved: a channel of that name is changed and nothing else, and exactly what happens otherwise. |
| C327 | Dipoles survive StationXML | partial | XmlSensor | Refuted: both electrodes are given the manufacturer and model of the positive one. Proved: exactly what is read, and that the claim holds exactly for electrodes of one manufacturer and model. |
| C328 | Magnetometers can be read from StationXML | partial | XmlSensor | Refuted: a type the library does not know, such as fluxgate, raises ValueError. Proved: the claim for the types it knows, Bartington becomes magnetometer, every other type raises, and without a type nothing of the sensor is read. |
| C329 | Auxiliary sensors survive StationXML | partial | XmlSensor | Refuted: the name is appended to the model. Proved: exactly what is read, that the model grows by a word each time, and which types raise ValueError. |
| C330 | Reading the same inventory again gives the same sensors | proved | XmlSensor | Proved for all sensors; only the type can change, and only one that is missing or Bartington. |
| C331 | Dipoles without a length can be read | partial | XmlSensor | Refuted: no description raises AttributeError, a blank one IndexError. Proved: exactly what happens. |
| C332 | The normalisation frequency lies in the pass band | partial | NormFreq | Refuted: it is rounded to three decimals, so it is 0 for low frequencies. Proved: it is the rounded geometric mean of the band, which lies in the band, and 0 for bands below half a millihertz. |
| C333 | The response of a channel has a normalisation frequency | partial | NormFreq | Refuted: the response is made without frequencies. Proved: it is always 0, and found once frequencies are assigned. |
| C334 | The normalisation frequency follows filters and frequencies | partial | NormFreq | Refuted: once found it is kept. Proved: it is kept whatever is assigned after; while it is 0 it is looked for; assigning 0 finds it again. |
| C335 | Validating descriptions twice | partial | Schema | Refuted: the default of a required text without one is 'none' and None in turn (also proved). Proved for attributes that are not required and for defaults that are values where texts are not lists. |
| C336 | Required attributes get a default | partial | Schema | Refuted: for required attributes that are true or false a variable is not bound, since the type is called 'boolean' and looked for as 'bool'. Proved for texts and numbers. |
| C337 | Defaults are kept | partial | Schema | Refuted: defaults of attributes that are not required are dropped, always. Proved for required attributes. |
| C338 | Values get the type asked for | partial | Schema | Refuted: numbers for booleans stay numbers, also proved; texts for lists and dictionaries are lost. Proved for all texts. |
| C339 | Options in a text are names | partial | Schema | Refuted: blanks are taken off after the comparison. Proved for texts without blanks. |
| C340 | Attributes survive lines of CSV files | partial | Schema | Refuted: options come back with quotes. Proved for attributes that are not required: exactly the quotes at the ends of options and aliases are added. |
| C341 | Descriptions need nine parts in any order | proved | Schema |  |
| C342 | What a schema returns can be set | partial | Schema | Refuted: the description returned for unknown names has no aliases and is never accepted. Proved for attributes that are not required. |
| C343 | Adding dictionaries | proved | Schema |  |
| C344 | Schemas survive JSON files | partial | Schema | Refuted: a required number with a vocabulary and no default is a text first and a number later. Proved for attributes that are not required, with a value as default, or texts without one. |
| C345 | Hour 24 is midnight | partial | TimeText | Refuted: with a zone it is refused. Proved: without a zone if the next day is in 1900 to 2200; otherwise the limits of times are returned, also for times that could be represented. |
| C346 | Hour 24 is only midnight | partial | TimeText | Refuted: they are times of the next day, also proved; larger hours are refused. |
| C347 | Only dates are read as dates | partial | TimeText | Refuted: month and day are exchanged if that gives a date. Proved: exactly then, for 1900 to 2200 without a zone; refused if not. |
| C348 | Words for nothing | partial | TimeText | Refuted: 'null' is refused, since the time put for it has a zone. Proved: which words are read, all others are refused. |
| C349 | Times are as they are written | proved | TimeText |  |
| C350 | Years of collection in EMTF XML files | partial | EmtfSite | Refuted: it is 1980. Proved: ranges a-b are the first year, other texts are the year of the time that they are, without the element the year stays. |
| C351 | New objects have the standard names of channels | partial | Nomen | Refuted: the default dictionary is shared, names written through one object are those of all later ones. Proved: the names are those of the default dictionary at that time; they are the standard ones if it was not written to. |
| C352 | Assigning names leaves the dictionary | partial | Nomen | Refuted: missing names are added to it. Proved: exactly these; complete dictionaries stay. |
| C353 | Names in use are those of the nomenclature | partial | Nomen | Refuted: writing to the dictionary changes no names in use. Proved for all programs without writing and without exceptions, with shared dictionaries. |
| C354 | Names that are refused change nothing | partial | Nomen | Refuted: the names before the missing one are taken, and the dictionary is. Proved: exactly these. |
| C355 | New data sets have the names of the object | partial | Nomen | Refuted: templates are kept by the items of the dictionary and made with the names in use, which can differ (C353). Proved for programs without writing and exceptions if names and periods are not both given; with periods the data set has the default names. |
| C356 | Data sets follow the names | partial | Nomen | Refuted: the data set stays as it was. Proved: a new data set has the names. |
| C357 | From names to components | partial | Nomen | Refuted: the inverse is kept from the first time on. Proved: the first time; later it never changes. |
| C358 | Copies have their own names | proved | Nomen |  |
| C359 | Forms of a DOI | partial | EmtfRest | Refuted: with doi: before it, every doi: in the DOI is removed. Proved: without one in it, and for links always. |
| C360 | Accepted DOIs are stable | proved | EmtfRest |  |
| C361 | Written estimates can be read | partial | EmtfRest | Refuted: without estimates (data without errors) reading the file raises TypeError. Proved: exactly then; other lists are read as written. |
| C362 | Written data types can be read | partial | EmtfRest | Refuted: for data that are zero reading the file raises TypeError. Proved: exactly then; other lists are read as written with symbols of units, or not at all if a symbol is not known. |
| C363 | Written copyrights can be read | partial | EmtfRest | Refuted: a citation without title, authors, year and survey DOI is read as None and refused. Proved: exactly then, also for the citation of a survey. |
| C364 | Citations are read as they were written | partial | EmtfRest | Refuted: journal, volume, pages and the other DOI are not written. Proved: exactly what is read; plain texts, years and DOIs without & come back. |
| C365 | Copyrights of files read one after another | partial | EmtfRest | Refuted: texts that the later file does not have stay. Proved: exactly these; with all texts there is no difference. |
| C366 | Names of channels as texts, lists and arrays | partial | RunLists | Refuted: an array with two or more names raises ValueError. Proved: lists always, texts unless there are no names (the empty text is one empty name) or the text is a word for none; exactly which arrays are refused. |
| C367 | Runs made with lists of names | partial | RunLists | Refuted: with an electric name the magnetic and auxiliary names are lost, since add_channel clears the lists. Proved: exactly the channels of the first list that is not empty. |
| C368 | Lists of names after an assignment | partial | RunLists | Refuted: without a new name the list stays as given, so an empty list is held while the channels stay. Proved: exactly what is there afterwards. |
| C369 | Names that are refused | partial | RunLists | Refuted: the names before the one that is refused have channels. Proved: when names are refused, and what is left then. |
| C370 | Positions of channels | partial | RunLists | Refuted: the index is one of the sorted names, channels are stored in the order of adding. Proved: it is the number of channels with smaller names. |
| C371 | Ratings | partial | ListFields | Refuted: 5.9 is held as 5, and -0.5 as 0. Proved: integers exactly; other numbers towards zero; infinite ones raise OverflowError. |
| C372 | Indices of BIRRP blocks | partial | ListFields | Refuted: negative indices are left out silently. Proved: exactly these; texts never raise. |
| C373 | Names of sources of money | partial | ListFields | Refuted: a name with a comma is two names. Proved: exactly then; lists are taken as they are. |
| C374 | Descriptions of attributes after an update | partial | FieldCache | Refuted: the fingerprint has the fields of the class itself, while the file has those of its parts too: after an update of a part the old description is given. Proved: for any set of versions this is so if and only if equal fingerprints mean equal descriptions; so it is with one version, or without files. |
| C375 | Descriptions do not depend on the order of questions | partial | FieldCache | Refuted: of two classes that have each other the second is held with an empty part. Proved for classes that are not made of themselves, over all histories. |
| C376 | Dotted names of attributes | proved | FieldCache | For names that are not empty, have no dot and are distinct, as those of attributes of a class are. Also for what a class that is asked for says. |
| C377 | The remote site in EMTF XML files | partial | EmtfWrite | Refuted: write removes the parts from the order of the object for ever. Proved: exactly which parts are written, over all histories; the claim for the first file. |
| C378 | Elements of EMTF XML files | proved | EmtfWrite | All elements but these, in their order. |
| C379 | The period range has the periods | partial | EmtfWrite | Refuted: the range has six digits and is rounded to the nearest, the periods have thirteen. Proved: exactly when it has them (rounding keeps the order), and the range to five parts of a million. |
| C380 | The period range is that of the periods | partial | EmtfWrite | Refuted: write does not look at the periods, so periods given to an object leave the range as it was. Proved: after reading, whatever range the file says. |
| C381 | Channels of Z-files read one after another | partial | ZmmUse | Refuted: channels of a file read before stay, and one with the same number hides another one. Proved: the claim if the file has all channels of those before; exactly which channels are recorded. |
| C382 | Sample rates of Z-files read one after another | partial | ZmmUse | Refuted: the periods of files read before count too. Proved: the claim if the file has all periods of those before (the median does not depend on the order). |
| C383 | Decimation levels of Z-files read one after another | proved | ZmmUse | For files in which no two periods have the same text. |
| C384 | Copies are independent | proved | Copies | On a heap of objects: nothing the copy can reach was there before; interleaved assignments do not interfere. |
| C385 | Copies have the values of the update | partial | Copies | Refuted: mth5_type of the object and an empty hdf5_reference are put over the update. Proved: all other names, exactly these two, and that an object with an HDF5 reference is rebuilt and drops names it does not have. |
| C386 | Copies that are not deep leave the object alone | partial | Copies | Refuted: parts are shared. Proved: attributes of the copy itself are its own, all others lead to the parts of the object. |
| C387 | Merged objects have their own items | partial | Copies | Refuted: items are not copied. Proved: every item of b is the same object in both; the rest of a stays; the list of b stays. |
| C388 | Channels of EDI files read one after another | partial | EdiUse | Refuted: a channel that differs from that of a file before is taken for a remote channel. Proved: a channel is that of the first file that has it, for ever; which line becomes the remote channel; the claim for channels no file before had. |
| C389 | Positions of EDI files read one after another | partial | EdiUse | Refuted: a position read before stays, so that the reference is not asked. Proved: the claim for a header with a position and for objects without one; what is taken in the other cases. |
| C390 | Phoenix format of EDI files read one after another | partial | EdiUse | Refuted: it is never unset. Proved: it is set if and only if one of the files read was in the Phoenix format. |
| C391 | Channels of AVG files read one after another | partial | AvgUse | Refuted: the component zxx of a file before stays, which decides where everything is taken from. Proved: the claim if the file has all components read before; the instrument is that of the last zxx read; which channels there are. |
| C392 | Every AVG file has a run | partial | AvgUse | Refuted: whether a component is there is asked of zxx always. Proved: over all histories, exactly when there is a run, as to components (errors about values within a component are not modelled). |
| C393 | Values of magnetic channels in AVG files | partial | AvgUse | Refuted: hz is never given a value, since lines with commas are held as lists and a comma is looked for in them. Proved: this for all lines; the claim for hx and hy; what they are given from a line with one value. |
| C394 | Parameters of J files read one after another | partial | JUse | Refuted: parameters the file does not give stay. Proved: a parameter is the last one given in any file read; the claim for parameters the file gives; blocks and angles are those of the file alone. |
| C395 | J files that cannot be read | partial | JUse | Refuted: header and station are those of the file that could not be read, data those of another. Proved: the data stay, over all histories they are those of the last file read to the end; what else is taken from such a file. |
| C396 | LaTeX tables have all attributes | partial | Standards | Refuted: attributes are missing if the first table is short. Proved: there are all lines if and only if the remainder of their number has room in the first table, then each once; always so with the defaults. |
| C397 | Making LaTeX tables changes nothing | partial | Standards | Refuted: options are added to the stored descriptions. Proved: the dictionary after any number of calls; a dictionary without options stays. |
| C398 | Summaries of standards are complete | partial | Standards | Refuted: texts are cut to the widths of columns. Proved: number and order of rows; a value is kept if and only if it is short enough, else it is its beginning; when two attributes have the same name. |
| C399 | Summaries have all classes | partial | Standards | Refuted: fields after one that is not valid are missing. Proved: exactly which entries there are; they are those of their classes if names are different; classes whose fields are valid are complete whatever the others. Validation itself is in Schema. |
| C400 | Forms of summaries | partial | Standards | Refuted: with arrays no file is written, and other forms without a file raise. Proved: when a file is written, when an error is raised, and that the form is right otherwise. |
| C401 | Options in summaries of standards | partial | StdFields | Refuted: names of members are shown, but values are taken, for instance for release states. Proved: when each option is taken, when all that is taken is shown, and that fields that may be None show none. |
| C402 | Types in summaries of standards | proved | StdFields | For the annotations that occur, with names of classes in lower case. |
| C403 | Data of an EDI object that reads several files | partial | EdiKept | Refuted: covariances of spectra stay when impedances are read, angles stay when spectra are read. Proved: each of the data is that of the last file that gives it, for all sequences of files whose sections say what they are, and errors do not depend on files before. |
| C404 | EDI files without a known data section | partial | EdiKept | Refuted: kind and first line of data stay from the file before. Proved: where the data begin and what they are taken for, in each case. |
| C405 | Columns of spectra in EDI files | partial | EdiKept | Refuted: the order of channels is fixed by their number alone. Proved: the columns are right if and only if the section has that order; other numbers of channels cannot be read. |
| C406 | Conversion to Z file objects leaves the runs | partial | ToZmm | Refuted: a first run without channels is replaced by a new one, with all it had. Proved: exactly when the runs stay, what they are otherwise, and that data and names stay. |
| C407 | Conversion to Z file objects again | partial | ToZmm | Refuted: with names of channels other than the standard ones a second conversion raises KeyError, and tippers assigned after a first conversion are left out of later ones. Proved: exactly when a second conversion succeeds and what it gives; no difference if the first run has channels. |
| C408 | Station metadata of time series into a transfer function | partial | TsStation | Refuted: values that are None or empty are not written, so what was there stays. Proved: what each field is afterwards; all values that say something arrive; fields of the transfer function stay. |
| C409 | Station metadata of a transfer function for time series | proved | TsStation | As in Metadata, without runs and comments with an author. |
| C410 | Units of a channel response over assignments | partial | RespUnits | Refuted: a filter added to the list in place is not looked at. Proved: the claim for all histories of assignments; after each assignment that succeeds the units are right; which lists are taken and that an error changes nothing; an empty list leaves the units; when units assigned are kept. |
| C411 | Fields of one object and of others | partial | FieldShare | Refuted: the dictionary is that of the object, but the summaries in it are shared by all objects of the class and of classes with fields of the class. Proved: the names stay; the claim for summaries that are not shared, and if none is changed; when a summary that is changed is seen; a dictionary that was emptied is made anew. |
| C412 | The link of an EMTF XML file cannot be emptied | partial | WebLinks | Refuted: the validator looks for the link in info.data, which has the other fields only (trusted: pydantic). Proved: empty values always empty the link; what is taken and what is an error; the link after any history. |
| C413 | The link of a person | partial | WebLinks | Refuted: values of other types become None. Proved: the claim for texts, links and None; which texts say nothing. |
| C414 | The normalisation frequency of a pole zero filter lies in its pass band | proved | PzNorm | Trusted: numpy; amplitudes finite. The place of the band is proved below 2000 increasing frequencies (no decimation of the frequencies). |

## 9. Axioms of each theorem

As printed by `#print axioms` for every theorem of MANIFEST.json.

* **none** (21): `MTime.C16_offsets_refuted`, `MTime.C16_refuted`, `MTime.C77_refuted`, `MTime.C78_refuted`, `ExpDict.C250_ignored_partial`, `ExpDict.C250_partial`, `LevelBands.C264_single`, `XmlStation.C283_changes_partial`, `MTime.C290_example`, `Features.C299_refuted`, `Features.C305_refuted`, `Features.C305_single_partial`, `AttrNames.C312_nothing_partial`, `JUse.C394_refuted`, `JUse.C395_empty_partial`, `JUse.C395_refuted`, `ToZmm.C406_refuted`, `RespUnits.C410_empty_partial`, `RespUnits.C410_refuted`, `FieldShare.C411_refuted`, `WebLinks.C412_emptied_partial`

* **propext** (72): `ListDict.C02_key_choice`, `MTime.C15_refuted`, `MTime.C17_refuted`, `MTime.C19_refuted`, `MTime.C20_refuted`, `MTime.C21_refuted`, `FreqBand.C27_contains_partial`, `FreqBand.C27_sound_transitive`, `FreqBand.C28_shared`, `FreqBand.C28_symmetric`, `Stations.C37_refuted`, `Processing.C56_list_partial`, `Processing.C56_mapping`, `Processing.C56_refuted`, `FCs.C62_refuted`, `Comment.C70_format_partial`, `Enums.C71_case_irrelevant`, `Enums.C71_idempotent`, `Enums.C71_not_strings`, `Enums.C71_only_members`, `Enums.C71_returns_member`, `XmlEpochs.C74_equivalence`, `MTime.C75_refuted`, `MTime.C76_refuted`, `Surveys.C86_grows`, `Comment.C109_comments_partial`, `Comment.C109_refuted`, `Comment.C109_string_partial`, `Comment.C111_partial`, `Comment.C111_refuted`, `TfMerge.C170_partial`, `TfMerge.C170_refuted`, `TfMeta.C259_never_partial`, `LevelBands.C264_add`, `MTime.C289_example`, `MTime.C290_refuted`, `Features.C301_refuted`, `AttrNames.C310_refuted`, `AttrNames.C312_refuted`, `MTime.C320_refuted`, `MTime.C322_refuted`, `MTime.C345_refuted`, `MTime.C346_refuted`, `MTime.C347_refuted`, `Nomen.C351_refuted`, `Nomen.C352_refuted`, `Nomen.C353_refuted`, `Nomen.C353_written_partial`, `Nomen.C354_refuted`, `Nomen.C355_refuted`, `Nomen.C356_kept_partial`, `Nomen.C356_refuted`, `Nomen.C357_kept_partial`, `Nomen.C357_refuted`, `Copies.C385_refuted`, `Copies.C386_refuted`, `Copies.C387_refuted`, `AvgUse.C391_refuted`, `AvgUse.C391_which_partial`, `AvgUse.C392_refuted`, `AvgUse.C393_one_partial`, `JUse.C395_mixed_partial`, `Standards.C398_same_partial`, `Standards.C400_error_partial`, `Standards.C400_file_partial`, `Standards.C400_form_partial`, `StdFields.C401_optional_partial`, `ToZmm.C406_rest_partial`, `FieldShare.C411_names_partial`, `WebLinks.C412_history_partial`, `WebLinks.C412_refuted`, `WebLinks.C412_taken_partial`

* **Quot.sound, propext** (157): `ListDict.C02_append_keyed`, `ListDict.C02_append_keyless`, `ListDict.C05_pop_partial`, `ListDict.C06_update_eq_extend`, `ListDict.C09_slice_errors`, `Dicts.C11_structure_flatten`, `Dicts.C12_separator_partial`, `Dicts.C13_flatten_structure`, `Xml.C14_normal_form`, `MTime.C17_clamp`, `MTime.C17_idempotent`, `MTime.C17_inside_partial`, `MTime.C21_units_partial`, `Metadata.C22_fields`, `Metadata.C22_idempotent`, `Metadata.C22_match`, `Metadata.C22_refuted`, `Metadata.C25_flat`, `Metadata.C25_order`, `Metadata.C25_replaced`, `Metadata.C25_resolves`, `FreqBand.C26_total`, `FreqBand.C27_both_partial`, `Runs.C33_covers`, `Runs.C33_default_replaced`, `Runs.C33_idempotent`, `Stations.C37_never_partial`, `Stations.C38_covers`, `Stations.C38_grows`, `Stations.C38_idempotent`, `Surveys.C39_unchanged`, `Surveys.C40_has_get`, `Surveys.C41_add`, `Surveys.C41_distinct`, `Surveys.C41_merge`, `Applied.C48_object_partial`, `Processing.C55_order`, `Processing.C56_dicts_partial`, `Processing.C56_get`, `Processing.C56_get_missing`, `Processing.C56_iff`, `Processing.C56_other`, `Processing.C57_total`, `Processing.C60_fit_partial`, `Processing.C60_monotone`, `Processing.C60_refuted`, `FCs.C61_add_partial`, `FCs.C61_assign_partial`, `FCs.C61_known_partial`, `FCs.C61_merge_partial`, `FCs.C61_refuted`, `FCs.C61_repeated_partial`, `FCs.C61_synced_partial`, `FCs.C62_after_calls_partial`, `FCs.C62_covers_partial`, `FCs.C62_levels_partial`, `FCs.C62_nested_partial`, `FCs.C63_known`, `FCs.C63_repeated`, `Aurora.C65_refuted`, `Enums.C71_accepts`, `Enums.C71_rejects`, `IoTools.C73_channels_partial`, `IoTools.C73_error`, `IoTools.C73_flags`, `IoTools.C73_index`, `MTime.C75_reload_partial`, `MTime.C76_add_sub_partial`, `MTime.C78_from_dict_partial`, `Metadata.C81_required`, `Metadata.C81_roundtrip`, `Metadata.C81_skip_none`, `Metadata.C82_dotted_literal`, `Metadata.C82_nested_partial`, `Surveys.C85_effect_partial`, `Surveys.C85_refuted`, `Surveys.C86_covers`, `Names.C89_fails_iff`, `Names.C89_normal`, `Names.C90_idempotent`, `Names.C90_keeps`, `Names.C90_word`, `Applied.C95_keep`, `Applied.C95_remove`, `Applied.C95_reset`, `Aurora.C100_refuted`, `Aurora.C103_get`, `IoTools.C112_lines`, `TfMerge.C166_refuted`, `TfMerge.C168_refuted`, `TfMerge.C169_refuted`, `TfMerge.C170_sorted`, `TfMerge.C172_inplace`, `LevelBands.C260_missing_partial`, `LevelBands.C260_refuted`, `LevelBands.C261_missing`, `LevelBands.C264_list`, `Features.C298_cover`, `Features.C298_rows`, `Features.C299_short_partial`, `Features.C305_list_partial`, `Features.C305_text_partial`, `Features.C306_levels`, `Features.C306_local`, `Features.C306_no_remote`, `Features.C307_kept_partial`, `Features.C307_refuted`, `AttrNames.C310_way_partial`, `AttrNames.C313_refuted`, `MTime.C320_difference_partial`, `MTime.C322_date_partial`, `MTime.C347_refused_partial`, `Nomen.C352_full_partial`, `Nomen.C354_taken_partial`, `Nomen.C357_first_partial`, `Nomen.C358_apart`, `Nomen.C358_copy`, `FieldCache.C376_only`, `Copies.C384_same`, `Copies.C385_given_partial`, `Copies.C385_reference_partial`, `Copies.C385_type_partial`, `Copies.C386_shared_partial`, `EdiUse.C388_first_partial`, `EdiUse.C388_new_partial`, `EdiUse.C388_remote_partial`, `EdiUse.C389_given_partial`, `EdiUse.C389_new_partial`, `EdiUse.C389_stays_partial`, `EdiUse.C389_zero_partial`, `EdiUse.C390_any_partial`, `AvgUse.C391_main_partial`, `AvgUse.C391_stays_partial`, `JUse.C394_blocks_partial`, `JUse.C394_given_partial`, `JUse.C394_last_partial`, `JUse.C394_stays_partial`, `JUse.C395_data_partial`, `JUse.C395_history_partial`, `Standards.C399_iff_partial`, `Standards.C399_own_partial`, `Standards.C399_valid_partial`, `StdFields.C401_all_partial`, `StdFields.C401_iff_partial`, `ToZmm.C406_changed_partial`, `ToZmm.C406_iff_partial`, `ToZmm.C407_data_partial`, `ToZmm.C407_recorded_partial`, `ToZmm.C407_same_partial`, `TsStation.C408_field_partial`, `TsStation.C408_others_partial`, `TsStation.C408_says_partial`, `RespUnits.C410_assigned_partial`, `RespUnits.C410_taken_partial`, `RespUnits.C410_units_partial`, `FieldShare.C411_apart_partial`, `FieldShare.C411_shared_partial`

* **Classical.choice, Quot.sound, propext** (1031): `ListDict.C01_views_coherent`, `ListDict.C03_keyless_append_partial`, `ListDict.C03_refuted`, `ListDict.C04_remove_errors`, `ListDict.C04_remove_index`, `ListDict.C04_remove_key`, `ListDict.C05_refuted`, `ListDict.C06_extend`, `ListDict.C07_sort`, `ListDict.C07_sort_none`, `ListDict.C08_collision_loses`, `ListDict.C08_updateKeys`, `ListDict.C09_slice`, `ListDict.C10_copy_partial`, `ListDict.C10_refuted`, `Dicts.C12_refuted`, `Dicts.C13_prefix_raises`, `Xml.C14_refuted`, `Xml.C14_xml_roundtrip_partial`, `MTime.C15_defined_partial`, `MTime.C15_documented`, `MTime.C15_monotone`, `MTime.C16_order_partial`, `MTime.C16_utc_partial`, `MTime.C17_monotone`, `MTime.C18_order`, `MTime.C18_rounding`, `MTime.C19_order_partial`, `MTime.C19_same_leap_partial`, `MTime.C20_hash`, `MTime.C20_utc_partial`, `Metadata.C22_never_erases`, `Metadata.C22_takes_partial`, `Metadata.C23_meaning`, `Metadata.C23_reflexive`, `Metadata.C23_symmetric_partial`, `Metadata.C23_symmetry_refuted`, `Metadata.C23_transitive_partial`, `Metadata.C23_transitivity_refuted`, `Metadata.C24_always_false`, `Metadata.C24_refuted`, `FreqBand.C26_harmonics`, `FreqBand.C26_in_band_harmonics`, `FreqBand.C26_indices`, `FreqBand.C26_set_indices`, `FreqBand.C27_refuted`, `FreqBand.C29_center`, `Runs.C30_assign`, `Runs.C30_has_channel`, `Runs.C30_lists`, `Runs.C30_total`, `Runs.C31_add`, `Runs.C31_carries_partial`, `Runs.C31_refuted`, `Runs.C31_remove`, `Runs.C32_agree_partial`, `Runs.C32_h_differs`, `Runs.C32_missing_type`, `Runs.C32_refuted`, `Runs.C33_add_channel`, `Runs.C34_merge_partial`, `Runs.C34_refuted`, `Stations.C35_order_partial`, `Stations.C35_refuted`, `Stations.C35_run_list_partial`, `Stations.C35_total_partial`, `Stations.C36_adds_exact`, `Stations.C36_covered_partial`, `Stations.C36_names_survive`, `Stations.C36_others_partial`, `Stations.C36_refuted`, `Stations.C36_stale_recorded`, `Stations.C38_after_add`, `Surveys.C39_order`, `Surveys.C39_tight`, `Surveys.C40_add`, `Surveys.C40_last_op`, `Surveys.C40_remove`, `Surveys.C40_remove_box`, `Surveys.C40_total`, `ExpXml.C42_content_partial`, `ExpXml.C42_raises_iff_partial`, `ExpXml.C42_read_single`, `ExpXml.C42_refuted`, `Location.C43_refuted`, `Location.C43_roundtrip_partial`, `Location.C43_sign_lost_partial`, `Location.C43_wellformed`, `Location.C44_error`, `Location.C44_numbers`, `Location.C44_range`, `Units.C45_combined`, `Units.C45_parse`, `Fdsn.C46_contains_partial`, `Fdsn.C46_covered_partial`, `Fdsn.C46_interval_partial`, `Fdsn.C46_monotone_partial`, `Fdsn.C46_refuted`, `Fdsn.C47_decode_partial`, `Fdsn.C47_orientation`, `Fdsn.C47_refuted`, `Fdsn.C47_tide_partial`, `Applied.C48_distinct_partial`, `Applied.C48_duplicate_refuted`, `Applied.C48_found_partial`, `Applied.C48_ordered_by_name_partial`, `Applied.C48_ordered_partial`, `Applied.C48_refuted`, `Filters.C49_accepted`, `Filters.C49_units`, `Filters.C50_append`, `Filters.C50_delay`, `Filters.C50_factor`, `Filters.C50_normalized`, `Filters.C50_perm`, `Filters.C50_product`, `Filters.C50_selected`, `Filters.C50_total_delay`, `Filters.C51_exists`, `Filters.C51_intersection`, `Filters.C52_expansion_partial`, `Filters.C52_odd_partial`, `Filters.C52_refuted`, `Filters.C53_degrees_partial`, `Filters.C53_idempotent_partial`, `Filters.C53_milliradians_partial`, `Filters.C53_radians_partial`, `Filters.C53_refuted`, `Processing.C54_default_partial`, `Processing.C54_levels_partial`, `Processing.C54_refuted`, `Processing.C54_zero_factor`, `Processing.C55_bands`, `Processing.C55_gap`, `Processing.C55_level_bands`, `Processing.C55_rate_partial`, `Processing.C55_refuted`, `Processing.C55_uniform_partial`, `Processing.C57_alias`, `Processing.C57_archive_partial`, `Processing.C57_harmonics`, `Processing.C57_iff`, `Processing.C57_refuted`, `Processing.C58_harmonics`, `Processing.C58_range`, `Processing.C59_current_partial`, `Processing.C59_normalized`, `Processing.C59_refuted`, `Processing.C59_taper_partial`, `Processing.C60_zero_partial`, `FCs.C61_remove_partial`, `FCs.C61_reported_partial`, `FCs.C61_total_partial`, `FCs.C63_effect`, `FCs.C63_sync`, `FCs.C63_total`, `FreqBands.C64_accepts`, `FreqBands.C64_bands_as_stored`, `FreqBands.C64_bands_errors`, `FreqBands.C64_bands_sorted`, `FreqBands.C64_centers`, `FreqBands.C64_sort`, `FreqBands.C64_validate`, `Aurora.C65_periods`, `Aurora.C65_round_trip_partial`, `Aurora.C66_accepts`, `Aurora.C66_channels`, `Aurora.C66_construct`, `Aurora.C66_distinct`, `Aurora.C66_explicit_kept`, `Aurora.C66_field`, `Aurora.C66_history`, `Aurora.C66_keyword`, `Aurora.C66_none`, `Aurora.C66_refuted`, `Weights.C67_hann_complement`, `Weights.C67_monotone`, `Weights.C67_nan`, `Weights.C67_outside_hamming`, `Weights.C67_outside_partial`, `Weights.C67_range`, `Weights.C67_refuted`, `Weights.C68_elementwise`, `Weights.C68_feature`, `Weights.C68_missing`, `Weights.C68_nan`, `Weights.C68_neutral_partial`, `Weights.C68_no_features`, `Weights.C68_order`, `Weights.C68_range`, `Weights.C68_range_feature`, `Weights.C68_refuted`, `Weights.C69_refuted`, `Weights.C69_taper_partial`, `Comment.C70_bad_time_partial`, `Comment.C70_iff_partial`, `Comment.C70_refuted`, `Comment.C70_stamped_partial`, `Enums.C71_that_member`, `IoTools.C72_empty_value_partial`, `IoTools.C72_pairs_partial`, `IoTools.C72_refuted`, `IoTools.C72_remark_partial`, `IoTools.C72_section_partial`, `IoTools.C72_spacing_partial`, `IoTools.C72_words_partial`, `IoTools.C73_count_partial`, `IoTools.C73_count_refuted`, `IoTools.C73_refuted`, `IoTools.C73_remote`, `XmlEpochs.C74_apart_partial`, `XmlEpochs.C74_apart_refuted`, `XmlEpochs.C74_held`, `XmlEpochs.C74_made`, `XmlEpochs.C74_refuted`, `XmlEpochs.C74_same_partial`, `MTime.C75_gps_shift`, `MTime.C77_dates_partial`, `FreqBand.C79_name_partial`, `FreqBand.C79_refuted`, `Metadata.C80_kept_partial`, `Metadata.C80_refuted`, `Metadata.C82_refuted`, `Stations.C83_default_partial`, `Stations.C83_refuted`, `Surveys.C84_own_runs_partial`, `Surveys.C84_refuted`, `ExpXml.C87_readable_partial`, `ExpXml.C87_refuted`, `ExpXml.C88_others_partial`, `ExpXml.C88_refuted`, `Names.C89_idempotent`, `Location.C91_refuted`, `Location.C91_sign_partial`, `Units.C92_name_partial`, `Units.C92_refuted`, `Units.C92_si_partial`, `Units.C92_symbol_partial`, `Units.C93_refuted`, `Units.C93_stable_partial`, `Fdsn.C94_azimuth`, `Fdsn.C94_component`, `Filters.C96_constant_partial`, `Filters.C96_from_given_partial`, `Filters.C96_ordered_partial`, `Filters.C96_refuted`, `Filters.C97_fir_gain`, `Filters.C97_fir_response`, `Filters.C98_table`, `Filters.C99_hermitian`, `Aurora.C100_appends_partial`, `Aurora.C100_needs_local`, `Aurora.C100_round_trip_partial`, `Processing.C101_distinct_partial`, `Processing.C101_last`, `Processing.C101_refuted`, `Enums.C102_accepts`, `Enums.C102_kept`, `Weights.C104_flag_partial`, `Weights.C104_refuted`, `Weights.C105_kept_partial`, `Weights.C105_refuted`, `Weights.C106_cut_partial`, `Weights.C106_monotone`, `Weights.C106_range`, `Weights.C106_refuted`, `Weights.C107_band`, `Weights.C107_range`, `Weights.C107_refused`, `Weights.C108_closest`, `Weights.C108_empty`, `Comment.C109_own_string_partial`, `Comment.C110_no_bar`, `Comment.C110_partial`, `Comment.C110_refuted`, `Comment.C110_required_partial`, `IoTools.C112_single`, `XmlText.C113_partial`, `XmlText.C113_refuted`, `XmlText.C114_brackets_partial`, `XmlText.C114_dropped_partial`, `XmlText.C114_refuted`, `XmlText.C114_two_colons_partial`, `XmlText.C115_colon_partial`, `XmlText.C115_cut_partial`, `XmlText.C115_partial`, `XmlText.C115_refuted`, `XmlText.C115_truncated_partial`, `XmlText.C116_both_partial`, `XmlText.C116_one_partial`, `XmlText.C116_refuted`, `XmlText.C117_case_partial`, `XmlText.C117_partial`, `XmlText.C117_plain_partial`, `XmlText.C117_refuted`, `XmlText.C118_error_partial`, `XmlText.C118_partial`, `XmlText.C118_refuted`, `XmlText.C119_failures_partial`, `XmlText.C119_partial`, `XmlText.C119_refuted`, `XmlText.C120_inverse_partial`, `XmlText.C120_refuted`, `XmlText.C120_sound`, `XmlText.C121_grows_partial`, `XmlText.C121_none_partial`, `XmlText.C121_prefix_partial`, `XmlText.C121_refuted`, `XmlText.C122_model_partial`, `XmlText.C122_refuted`, `XmlText.C122_stable_partial`, `XmlText.C123_iff_partial`, `XmlText.C123_refuted`, `License.C124_becomes_partial`, `License.C124_family_partial`, `License.C124_refuted`, `License.C124_status_partial`, `License.C124_survivors_partial`, `License.C125_accepts_partial`, `License.C125_again_partial`, `License.C125_case_partial`, `License.C125_default_partial`, `License.C125_na_sa_partial`, `License.C125_refuted`, `License.C125_spelling_partial`, `XmlEpochs.C126_partial`, `XmlEpochs.C126_refuted`, `XmlEpochs.C126_stale_partial`, `XmlEpochs.C127_by_time`, `XmlEpochs.C127_one_run_partial`, `XmlEpochs.C127_refuted`, `Zmm.C128_angle`, `Zmm.C128_invariants`, `Zmm.C128_north`, `Zmm.C128_partial`, `Zmm.C128_present`, `Zmm.C128_refuted`, `Zmm.C128_tipper`, `Zmm.C128_unique`, `Zmm.C128_vector`, `Zmm.C129_errors`, `Zmm.C129_power`, `Zmm.C129_real`, `Zmm.C129_residual`, `Zmm.C130_partial`, `Zmm.C130_refuted`, `Zmm.C130_twice`, `EdiSpectra.C131_exact_partial`, `EdiSpectra.C131_partial`, `EdiSpectra.C131_refuted`, `EdiSpectra.C132_partial`, `EdiSpectra.C132_refuted`, `EdiRho.C133_error_partial`, `EdiRho.C133_general_partial`, `EdiRho.C133_kept_partial`, `EdiRho.C133_partial`, `EdiRho.C133_refuted`, `EdiRho.C133_yx_refuted`, `EdiData.C134_partial`, `EdiData.C134_read_partial`, `EdiData.C134_refuted`, `EdiData.C134_single_refuted`, `Tf.C135_order_refuted`, `Tf.C135_partial`, `Tf.C135_refuted`, `Tf.C135_set_get_partial`, `Tf.C136_partial`, `Tf.C136_refuted`, `Tf.C137_errors`, `Tf.C138_labels_partial`, `Tf.C138_refuse_partial`, `Tf.C138_refuted`, `Tf.C139_default_partial`, `Tf.C139_partial`, `Tf.C139_refuted`, `EdiData.C140_blocks`, `EdiData.C140_read`, `ZmmText.C141_roundtrip`, `ZmmText.C142_colon_refuted`, `ZmmText.C142_numbers_refuted`, `ZmmText.C142_partial`, `ZmmText.C142_refuted`, `JFile.C143_values`, `JFile.C144_header`, `JFile.C145_partial`, `JFile.C145_refuted`, `JFile.C146_partial`, `JFile.C146_refuted`, `JFile.C147_partial`, `JFile.C147_refuted`, `JFile.C148_nopos_refuted`, `JFile.C148_partial`, `JFile.C148_refuted`, `JFile.C149_partial`, `JFile.C149_refuted`, `JFile.C150_blank_refuted`, `JFile.C150_partial`, `JFile.C150_refuted`, `JFile.C150_tipper_refuted`, `Zonge.C151_values`, `Zonge.C152_amp_phase`, `Zonge.C153_partial`, `Zonge.C153_refuted`, `Zonge.C154_partial`, `Zonge.C154_refuted`, `Zonge.C155_partial`, `Zonge.C155_refuted`, `Zonge.C156_arrays`, `Zonge.C157_partial`, `Zonge.C157_refuted`, `Zonge.C157_rows`, `Zonge.C157_to_avg`, `Zonge.C158_partial`, `Zonge.C158_refuted`, `Zonge.C158_to_avg`, `Zonge.C159_arrays`, `Zonge.C159_table`, `Zonge.C160_partial`, `Zonge.C160_refuted`, `Zonge.C161_never`, `Zonge.C161_refuted`, `Zonge.C161_smooth`, `Zonge.C162_partial`, `Zonge.C162_refuted`, `Zonge.C163_partial`, `Zonge.C163_refuted`, `Zonge.C164_partial`, `Zonge.C164_refuted`, `Zonge.C165_partial`, `Zonge.C165_refuted`, `Zonge.C165_run`, `TfMerge.C166_descending`, `TfMerge.C166_partial`, `TfMerge.C166_rows`, `TfMerge.C167_lost`, `TfMerge.C167_partial`, `TfMerge.C167_refuted`, `TfMerge.C168_never`, `TfMerge.C168_partial`, `TfMerge.C169_partial`, `TfMerge.C171_partial`, `TfMerge.C171_refuted`, `TfMerge.C173_errors`, `TfMerge.C173_other`, `TfMerge.C173_partial`, `TfMerge.C173_refuted`, `TfMerge.C173_same`, `TfMerge.C174_partial`, `TfMerge.C174_refuted`, `TfMerge.C174_suffix`, `TfMerge.C174_types`, `TfMerge.C175_partial`, `TfMerge.C175_path`, `TfMerge.C175_refuted`, `TfMerge.C175_suffix`, `EmtfData.C176_file`, `EmtfData.C176_partial`, `EmtfData.C176_refuted`, `EmtfData.C176_single`, `EmtfData.C177_partial`, `EmtfData.C177_refuted`, `EmtfData.C177_sentinel`, `EmtfData.C178_partial`, `EmtfData.C178_refuted`, `EmtfData.C179_partial`, `EmtfData.C179_refuted`, `EmtfData.C180_types`, `EmtfData.C181_layout`, `EmtfData.C182_partial`, `EmtfData.C182_refuted`, `TfConvert.C183_missing`, `TfConvert.C183_partial`, `TfConvert.C183_refuted`, `TfConvert.C184_partial`, `TfConvert.C184_refuted`, `TfConvert.C185_partial`, `TfConvert.C185_refuted`, `TfConvert.C186_edi`, `TfConvert.C187_partial`, `TfConvert.C187_refuted`, `TfConvert.C188_partial`, `TfConvert.C188_refuted`, `TfConvert.C189_empty`, `TfConvert.C189_partial`, `TfConvert.C189_refuted`, `TfConvert.C190_partial`, `TfConvert.C190_refuted`, `TfConvert.C190_zero`, `TfConvert.C191_never`, `TfConvert.C191_partial`, `TfConvert.C191_refuted`, `EdiMeta.C192_declination_partial`, `EdiMeta.C192_partial`, `EdiMeta.C192_refuted`, `EdiMeta.C192_signs_partial`, `EdiMeta.C193_b_refuted`, `EdiMeta.C193_partial`, `EdiMeta.C193_refuted`, `EdiMeta.C194_partial`, `EdiMeta.C194_refuted`, `EdiMeta.C195_partial`, `EdiMeta.C195_refuted`, `EdiMeta.C196_kept_partial`, `EdiMeta.C196_order_partial`, `EdiMeta.C196_partial`, `EdiMeta.C196_refuted`, `EdiMeta.C197_partial`, `EdiMeta.C197_refuted`, `EdiMeta.C197_spectra_partial`, `EdiMeta.C197_type_partial`, `EdiMeta.C197_values_partial`, `EdiMeta.C198_match`, `EdiMeta.C199_partial`, `EdiMeta.C199_refuted`, `EdiInfo.C200_info_partial`, `EdiInfo.C200_refuted`, `EdiInfo.C201_refuted`, `EdiInfo.C201_stable_partial`, `EdiInfo.C202_kept_partial`, `EdiInfo.C202_refuted`, `EdiInfo.C203_columns_partial`, `EdiInfo.C203_refuted`, `EdiInfo.C204_names_partial`, `EdiInfo.C204_refuted`, `EdiInfo.C204_sensors`, `EdiInfo.C204_voltages`, `EdiInfo.C205_filed_partial`, `EdiInfo.C205_refuted`, `EdiInfo.C206_refuted`, `EdiInfo.C206_units_partial`, `Stages.C207_refuted`, `Stages.C207_response_partial`, `Stages.C208_kept_partial`, `Stages.C208_refuted`, `Stages.C209_class_partial`, `Stages.C209_refuted`, `Stages.C210_coefficients_partial`, `Stages.C210_gains_partial`, `Stages.C210_refuted`, `Stages.C211_sensitivity`, `Stages.C212_names_partial`, `Stages.C212_refuted`, `Stages.C213_new_partial`, `Stages.C213_refuted`, `Stages.C213_type_error_partial`, `Stages.C214_last_partial`, `Stages.C214_none_partial`, `Stages.C214_refuted`, `Stages.C215_direction_partial`, `Stages.C215_refuted`, `Stages.C216_position_partial`, `Stages.C216_refuted`, `EdiStation.C217_attributes_partial`, `EdiStation.C217_refuted`, `EdiStation.C218_parameters_partial`, `EdiStation.C218_refuted`, `EdiStation.C219_refuted`, `EdiStation.C219_runs_partial`, `EdiStation.C220_place_partial`, `EdiStation.C220_refuted`, `EdiStation.C221_provenance_partial`, `EdiStation.C221_refuted`, `EdiStation.C222_parameter`, `EdiStation.C222_refuted`, `EdiStation.C222_succeeds_partial`, `EdiStation.C223_electric_partial`, `EdiStation.C223_refuted`, `EdiStation.C224_magnetic_partial`, `EdiStation.C224_refuted`, `EdiStation.C224_sensor_refuted`, `EdiStation.C224_type`, `EdiStation.C225_refuted`, `EdiStation.C225_survey_partial`, `EmtfRuns.C226_empty`, `EmtfRuns.C226_partial`, `EmtfRuns.C226_refuted`, `EmtfRuns.C227_one`, `EmtfRuns.C227_partial`, `EmtfRuns.C227_refuted`, `EmtfRuns.C228_partial`, `EmtfRuns.C228_refuted`, `EmtfRuns.C229_electric`, `EmtfRuns.C229_partial`, `EmtfRuns.C229_refuted`, `EmtfRuns.C230_iff`, `EmtfRuns.C231_dotted`, `EmtfRuns.C231_partial`, `EmtfRuns.C231_refuted`, `EmtfStation.C232_iff`, `EmtfStation.C233_partial`, `EmtfStation.C233_refuted`, `EmtfStation.C234_country`, `EmtfStation.C234_partial`, `EmtfStation.C234_refuted`, `EmtfStation.C235_partial`, `EmtfStation.C235_refuted`, `EmtfStation.C236_partial`, `EmtfStation.C236_refuted`, `EmtfStation.C237_partial`, `EmtfStation.C237_refuted`, `EmtfStation.C238_partial`, `EmtfStation.C238_refuted`, `EmtfStation.C239_exact`, `EmtfFile.C240_writable`, `EmtfFile.C241_notes_partial`, `EmtfFile.C241_refuted`, `EmtfFile.C242_layout_partial`, `EmtfFile.C242_refuted`, `EmtfFile.C243_refuted`, `EmtfFile.C243_text_partial`, `EmtfRunFile.C244_refuted`, `EmtfRunFile.C244_runs_partial`, `ExpDict.C245_run`, `ExpDict.C246_adds_partial`, `ExpDict.C246_all_partial`, `ExpDict.C246_exact_partial`, `ExpDict.C246_refuted`, `ExpDict.C246_runs_partial`, `ExpDict.C247_experiment`, `ExpDict.C247_into`, `ExpDict.C248_dict_partial`, `ExpDict.C248_list_never_partial`, `ExpDict.C248_list_partial`, `ExpDict.C248_lost`, `ExpDict.C248_read_never_partial`, `ExpDict.C248_refuted`, `ExpDict.C248_slash`, `ExpDict.C249_copy`, `ExpDict.C249_inplace`, `ExpDict.C250_refuted`, `ExpDict.C251_refuted`, `ExpDict.C251_same_partial`, `Rename.C252_after_partial`, `Rename.C252_exchange_partial`, `Rename.C252_keys_partial`, `Rename.C252_refuted`, `Rename.C253_runs`, `TfMeta.C254_survey`, `TfMeta.C255_first_partial`, `TfMeta.C255_refuted`, `TfMeta.C255_stations_partial`, `TfMeta.C256_empty_partial`, `TfMeta.C256_old_partial`, `TfMeta.C256_refuted`, `TfMeta.C256_runs_partial`, `TfMeta.C257_edi`, `TfMeta.C257_emtfxml`, `TfMeta.C257_zmm`, `TfMeta.C258_kept_partial`, `TfMeta.C258_partial`, `TfMeta.C258_refuted`, `TfMeta.C259_refuted`, `LevelBands.C260_each_partial`, `LevelBands.C260_partial`, `LevelBands.C261_frame`, `LevelBands.C262_count`, `LevelBands.C262_once`, `LevelBands.C263_interval`, `LevelBands.C263_level`, `FilterFile.C265_partial`, `FilterFile.C265_poles_partial`, `FilterFile.C265_refuted`, `FilterFile.C265_zero_partial`, `FilterFile.C266_partial`, `FilterFile.C266_pole_zero_partial`, `FilterFile.C266_refuted`, `FilterFile.C267_array`, `FilterFile.C267_list`, `FilterFile.C267_numbers`, `FilterFile.C267_single`, `FilterFile.C268_refuted`, `FilterFile.C268_two_partial`, `FilterFile.C269_refuted`, `FilterFile.C269_two_partial`, `EmtfSite.C270_refuted`, `EmtfSite.C270_site_partial`, `EmtfSite.C271_blanks_partial`, `EmtfSite.C271_names_partial`, `EmtfSite.C271_refuted`, `EmtfSite.C272_comments_partial`, `EmtfSite.C272_one_partial`, `EmtfSite.C272_refuted`, `EmtfSite.C272_unknown_partial`, `EmtfSite.C273_first`, `EmtfSite.C273_stable`, `EmtfSite.C274_full_partial`, `EmtfSite.C274_over_partial`, `EmtfSite.C274_refuted`, `EmtfBlocks.C275_files_partial`, `EmtfBlocks.C275_new_partial`, `EmtfBlocks.C275_read_partial`, `EmtfBlocks.C275_refuted`, `EmtfBlocks.C276_first_partial`, `EmtfBlocks.C276_gone_partial`, `EmtfBlocks.C276_refuted`, `EmtfBlocks.C276_writes_partial`, `EmtfBlocks.C277_absent_partial`, `EmtfBlocks.C277_info_partial`, `EmtfBlocks.C277_refuted`, `EmtfBlocks.C277_silent_partial`, `EmtfBlocks.C277_writable_partial`, `ManyFiles.C278_channels_partial`, `ManyFiles.C278_named_partial`, `ManyFiles.C278_refuted`, `ManyFiles.C278_runs_partial`, `ManyFiles.C278_sound_partial`, `ManyFiles.C279_fails_partial`, `ManyFiles.C279_iff_partial`, `ManyFiles.C279_refuted`, `ManyFiles.C280_all`, `ManyFiles.C280_chosen`, `ManyFiles.C280_empty`, `ManyFiles.C281_first_partial`, `ManyFiles.C281_refuted`, `ManyFiles.C281_used_partial`, `XmlStation.C282_colon_partial`, `XmlStation.C282_read_partial`, `XmlStation.C282_refuted`, `XmlStation.C282_same_partial`, `XmlStation.C283_again_partial`, `XmlStation.C283_refuted`, `XmlStation.C284_alike`, `XmlStation.C284_null`, `XmlStation.C284_runs`, `XmlSurvey.C285_read_partial`, `XmlSurvey.C285_refuted`, `XmlSurvey.C286_doi_partial`, `XmlSurvey.C286_grows_partial`, `XmlSurvey.C286_refuted`, `XmlSurvey.C287_iff_partial`, `XmlSurvey.C287_refuted`, `XmlSurvey.C288_own_partial`, `XmlSurvey.C288_refuted`, `MTime.C289_iff`, `MTime.C289_only`, `MTime.C289_same`, `MTime.C289_sets`, `MTime.C290_date_partial`, `MTime.C290_fails_partial`, `ChanFilt.C291_example`, `ChanFilt.C291_first_partial`, `ChanFilt.C291_iff_partial`, `ChanFilt.C291_reached`, `ChanFilt.C291_refuted`, `ChanFilt.C292_example`, `ChanFilt.C292_kept_partial`, `ChanFilt.C292_refuted`, `ChanFilt.C292_text_partial`, `ChanFilt.C293_again_partial`, `ChanFilt.C293_example`, `ChanFilt.C293_refuted`, `ChanFilt.C293_slash_partial`, `ChanFilt.C294_empty_partial`, `ChanFilt.C294_example`, `ChanFilt.C294_plain_partial`, `ChanFilt.C294_refuted`, `ChanFilt.C294_text_partial`, `ChanFilt.C295_example`, `ChanFilt.C295_lists`, `ChanFilt.C295_texts`, `ChanFilt.C296_example`, `ChanFilt.C296_length_partial`, `ChanFilt.C296_one_partial`, `ChanFilt.C296_refuted`, `Features.C297_bounds`, `Features.C297_one`, `Features.C297_scale`, `Features.C297_symmetric`, `Features.C297_value`, `Features.C297_window`, `Features.C297_zero`, `Features.C299_same_partial`, `Features.C300_iff_partial`, `Features.C300_refuted`, `Features.C300_size_partial`, `Features.C301_remote_partial`, `Features.C301_single_partial`, `Features.C302_again`, `Features.C302_first`, `Features.C302_second`, `Features.C303_named`, `Features.C303_other`, `Features.C304_plain_partial`, `Features.C304_refuted`, `Features.C304_wrapped_partial`, `AttrNames.C308_read`, `AttrNames.C308_rejected`, `AttrNames.C309_others`, `AttrNames.C311_cases_partial`, `AttrNames.C311_refuted`, `AttrNames.C312_helper_partial`, `AttrNames.C313_one_partial`, `EdiGeometry.C314_electrodes`, `EdiGeometry.C315_polar`, `EdiGeometry.C316_refuted`, `EdiGeometry.C316_same_partial`, `EdiGeometry.C317_read_partial`, `EdiGeometry.C317_refuted`, `EdiGeometry.C317_tilt_partial`, `EdiGeometry.C318_only_partial`, `EdiGeometry.C318_refuted`, `EdiGeometry.C319_b_partial`, `EdiGeometry.C319_iff_partial`, `EdiGeometry.C319_refuted`, `MTime.C321_days`, `EmtfNotes.C323_case_partial`, `EmtfNotes.C323_known_partial`, `EmtfNotes.C323_refuted`, `EmtfNotes.C323_unknown_partial`, `EmtfNotes.C324_known_partial`, `EmtfNotes.C324_other_partial`, `EmtfNotes.C324_refuted`, `EmtfNotes.C325_outputs_partial`, `EmtfNotes.C325_refuted`, `EmtfNotes.C326_channel_partial`, `EmtfNotes.C326_refuted`, `XmlSensor.C327_iff_partial`, `XmlSensor.C327_refuted`, `XmlSensor.C327_trip_partial`, `XmlSensor.C328_blank_partial`, `XmlSensor.C328_known_partial`, `XmlSensor.C328_none_partial`, `XmlSensor.C328_other_partial`, `XmlSensor.C328_refuted`, `XmlSensor.C329_grows_partial`, `XmlSensor.C329_other_partial`, `XmlSensor.C329_refuted`, `XmlSensor.C329_trip_partial`, `XmlSensor.C330_again`, `XmlSensor.C330_only`, `XmlSensor.C331_length_partial`, `XmlSensor.C331_refuted`, `NormFreq.C332_middle_partial`, `NormFreq.C332_refuted`, `NormFreq.C332_small_partial`, `NormFreq.C333_refuted`, `NormFreq.C333_zero_partial`, `NormFreq.C334_found_partial`, `NormFreq.C334_kept_partial`, `NormFreq.C334_refuted`, `Schema.C335_flips_partial`, `Schema.C335_given_partial`, `Schema.C335_optional_partial`, `Schema.C335_refuted`, `Schema.C336_boolean_partial`, `Schema.C336_given_partial`, `Schema.C336_refuted`, `Schema.C337_optional_partial`, `Schema.C337_refuted`, `Schema.C337_required_partial`, `Schema.C338_lost_partial`, `Schema.C338_refuted`, `Schema.C338_text_partial`, `Schema.C338_whole_partial`, `Schema.C339_found_partial`, `Schema.C339_names_partial`, `Schema.C339_refuted`, `Schema.C340_line_partial`, `Schema.C340_refuted`, `Schema.C341_keys`, `Schema.C341_order`, `Schema.C342_missing_partial`, `Schema.C342_refuted`, `Schema.C342_same_partial`, `Schema.C343_added`, `Schema.C343_rest`, `Schema.C344_refuted`, `Schema.C344_same_partial`, `MTime.C345_limit_partial`, `MTime.C345_midnight_partial`, `MTime.C345_zone_partial`, `MTime.C346_later_partial`, `MTime.C346_refused_partial`, `MTime.C347_swapped_partial`, `MTime.C348_none_partial`, `MTime.C348_refused_partial`, `MTime.C348_refuted`, `MTime.C349_inside`, `MTime.C349_limits`, `EmtfSite.C350_none_partial`, `EmtfSite.C350_range_partial`, `EmtfSite.C350_refuted`, `EmtfSite.C350_text_partial`, `Nomen.C351_names_partial`, `Nomen.C351_unwritten_partial`, `Nomen.C352_added_partial`, `Nomen.C353_clean_partial`, `Nomen.C355_clean_partial`, `Nomen.C355_periods_partial`, `Nomen.C356_renewed_partial`, `EmtfRest.C359_forms_partial`, `EmtfRest.C359_refuted`, `EmtfRest.C360_plain`, `EmtfRest.C360_refused`, `EmtfRest.C360_stable`, `EmtfRest.C361_absent_partial`, `EmtfRest.C361_data_partial`, `EmtfRest.C361_read_partial`, `EmtfRest.C361_refuted`, `EmtfRest.C362_data_partial`, `EmtfRest.C362_read_partial`, `EmtfRest.C362_refuted`, `EmtfRest.C363_iff_partial`, `EmtfRest.C363_refuted`, `EmtfRest.C363_survey_partial`, `EmtfRest.C364_plain_partial`, `EmtfRest.C364_read_partial`, `EmtfRest.C364_refuted`, `EmtfRest.C365_full_partial`, `EmtfRest.C365_kept_partial`, `EmtfRest.C365_refuted`, `RunLists.C366_array_partial`, `RunLists.C366_none_partial`, `RunLists.C366_read_partial`, `RunLists.C366_refuted`, `RunLists.C367_first_partial`, `RunLists.C367_refuted`, `RunLists.C368_after_partial`, `RunLists.C368_refuted`, `RunLists.C369_iff_partial`, `RunLists.C369_input_partial`, `RunLists.C369_left_partial`, `RunLists.C369_refuted`, `RunLists.C370_index_partial`, `RunLists.C370_refuted`, `ListFields.C371_float_partial`, `ListFields.C371_inf_partial`, `ListFields.C371_int_partial`, `ListFields.C371_range_partial`, `ListFields.C371_refuted`, `ListFields.C372_given_partial`, `ListFields.C372_refuted`, `ListFields.C372_text_partial`, `ListFields.C372_total_partial`, `ListFields.C373_iff_partial`, `ListFields.C373_list_partial`, `ListFields.C373_refuted`, `FieldCache.C374_iff_partial`, `FieldCache.C374_off_partial`, `FieldCache.C374_refuted`, `FieldCache.C374_same_partial`, `FieldCache.C375_order_partial`, `FieldCache.C375_refuted`, `FieldCache.C376_class`, `FieldCache.C376_dotted`, `FieldCache.C376_once`, `EmtfWrite.C377_first_partial`, `EmtfWrite.C377_iff_partial`, `EmtfWrite.C377_refuted`, `EmtfWrite.C378_keys`, `EmtfWrite.C379_iff_partial`, `EmtfWrite.C379_near_partial`, `EmtfWrite.C379_refuted`, `EmtfWrite.C380_read_partial`, `EmtfWrite.C380_refuted`, `ZmmUse.C381_all_partial`, `ZmmUse.C381_impedance_partial`, `ZmmUse.C381_number_partial`, `ZmmUse.C381_order_partial`, `ZmmUse.C381_refuted`, `ZmmUse.C381_stay_partial`, `ZmmUse.C381_tipper_partial`, `ZmmUse.C381_which_partial`, `ZmmUse.C382_all_partial`, `ZmmUse.C382_half`, `ZmmUse.C382_refuted`, `ZmmUse.C382_some`, `ZmmUse.C382_two`, `ZmmUse.C383_levels`, `ZmmUse.C383_unknown`, `Copies.C384_own`, `Copies.C385_rebuilt_partial`, `Copies.C386_top_partial`, `Copies.C387_kept_partial`, `Copies.C387_shared_partial`, `Copies.C387_top_partial`, `EdiUse.C388_refuted`, `EdiUse.C389_refuted`, `EdiUse.C390_refuted`, `AvgUse.C391_all_partial`, `AvgUse.C392_iff_partial`, `AvgUse.C393_horizontal_partial`, `AvgUse.C393_hz_partial`, `AvgUse.C393_refuted`, `Standards.C396_default_partial`, `Standards.C396_iff_partial`, `Standards.C396_refuted`, `Standards.C397_none_partial`, `Standards.C397_refuted`, `Standards.C397_times_partial`, `Standards.C398_cut_partial`, `Standards.C398_refuted`, `Standards.C398_rows_partial`, `Standards.C398_values_partial`, `Standards.C399_refuted`, `Standards.C400_refuted`, `StdFields.C401_refuted`, `StdFields.C402_enum`, `StdFields.C402_first`, `StdFields.C402_none`, `EdiKept.C403_error_partial`, `EdiKept.C403_kind_partial`, `EdiKept.C403_last_partial`, `EdiKept.C403_partial`, `EdiKept.C403_refuted`, `EdiKept.C404_none_partial`, `EdiKept.C404_open_partial`, `EdiKept.C404_refuted`, `EdiKept.C404_same_partial`, `EdiKept.C404_section_partial`, `EdiKept.C405_number_partial`, `EdiKept.C405_partial`, `EdiKept.C405_refuted`, `ToZmm.C407_again_partial`, `ToZmm.C407_refuted`, `TsStation.C408_refuted`, `TsStation.C408_stays_partial`, `TsStation.C409_back`, `TsStation.C409_none`, `TsStation.C409_values`, `RespUnits.C410_partial`, `FieldShare.C411_emptied_partial`, `WebLinks.C413_nulls_partial`, `WebLinks.C413_partial`, `WebLinks.C413_refuted`, `PzNorm.C414_between`, `PzNorm.C414_flat`, `PzNorm.C414_none`, `PzNorm.C414_one`, `PzNorm.C414_value`, `PzNorm.C414_whole`
