"""Writes /verif/properties.jsonl (one JSON object per line)."""
import json, pathlib

P = []
def p(id, title, statement, quantifier, why, anchors):
    P.append(dict(id=id, title=title, statement=statement, quantifier=quantifier,
                  why_tests_cant=why, anchors=anchors))

HIST = "A test runs a handful of call sequences; the claim is about every sequence of every length."
ALLIN = "A test samples inputs; the claim is about every input, of any size."
L = "mt_metadata/common/list_dict.py"
H = "mt_metadata/base/helpers.py"
M = "mt_metadata/base/metadata.py"
T = "mt_metadata/common/mttime.py"
B = "mt_metadata/common/band.py"
R = "mt_metadata/timeseries/run.py"
S = "mt_metadata/timeseries/station.py"
V = "mt_metadata/timeseries/survey.py"
X = "mt_metadata/timeseries/experiment.py"

# ---- ListDict
p("C01", "ListDict views stay coherent",
  "After any sequence of ListDict calls (item assignment, append, remove, extend, update, update_keys, sort, pop, clear), keys are pairwise distinct; len(ld) equals len(ld.keys()), len(ld.values()) and len(ld.items()); ld[i] equals ld[ld.keys()[i]] for 0<=i<len(ld); indexes that are negative or >= len(ld) and absent keys raise KeyError.",
  "all finite call histories starting from an empty ListDict, all keys, indexes and stored objects", HIST,
  [f"{L}:ListDict.__getitem__", f"{L}:ListDict.__setitem__", f"{L}:ListDict._get_key_from_index", f"{L}:ListDict.append", f"{L}:ListDict.remove"])
p("C02", "Appending makes the object retrievable and touches nothing else",
  "ld.append(obj) with an object carrying an id or component k makes ld[k] is obj; every other key keeps its value and position; the length grows by one exactly when k was absent, otherwise the previous object under k is replaced in place. An object with neither attribute is stored too.",
  "all ListDict contents and all objects", ALLIN, [f"{L}:ListDict.append", f"{L}:ListDict._get_key_from_object"])
p("C03", "Appending a keyless object never destroys an existing entry",
  "Appending an object that has neither id nor component always adds an entry: no entry present before the call is lost or replaced.",
  "all call histories, including those that removed entries", "Only histories that mix appends with removals can break it; a test picks one history.",
  [f"{L}:ListDict.append", f"{L}:ListDict.remove"])
p("C04", "remove deletes exactly one entry or raises",
  "ld.remove(k) for a present key or in-range index deletes exactly that entry and preserves the order and values of the rest; for an absent key or out-of-range index it raises KeyError and changes nothing.",
  "all contents, all keys and indexes", ALLIN, [f"{L}:ListDict.remove"])
p("C05", "pop(key) removes and returns the entry of that key",
  "ld.pop(k) for a present key k returns exactly {k: ld[k]} and removes only that entry; for an absent key it raises KeyError and changes nothing.",
  "all contents and keys", "The existing test pops the last key, where the wrong entry and the right entry coincide.", [f"{L}:ListDict.pop"])
p("C06", "extend is a right-biased merge honouring skip_keys",
  "After a.extend(b, skip_keys): a key k of b not in skip_keys maps to b's value; all other keys of a keep their value and their order; no other key appears; extending by a non-dict raises TypeError and changes nothing.",
  "all pairs of ListDicts and all skip lists", ALLIN, [f"{L}:ListDict.extend", f"{L}:ListDict.update"])
p("C07", "sort only reorders",
  "ld.sort() leaves a permutation of the same items ordered by key, with every lookup by key unchanged, and is idempotent; sort(inplace=False) returns that ordering and leaves ld unchanged.",
  "all contents", ALLIN, [f"{L}:ListDict.sort"])
p("C08", "update_keys follows renamed objects without losing any",
  "If the objects' current identifiers are pairwise distinct, update_keys() keeps every object, in the same order, reachable under its current identifier, and returns exactly the old->new map of the keys that changed; calling it twice changes nothing further.",
  "all contents and all in-place renamings of stored objects", HIST, [f"{L}:ListDict.update_keys"])
p("C09", "Slices are the contiguous sub-collections they name",
  "ld[a:b] with keys or integers as bounds is the ListDict of the entries at positions index(a) <= p < index(b), in order; a missing bound means the end; a bound of another type raises TypeError; an absent key raises KeyError.",
  "all contents and bounds", ALLIN, [f"{L}:ListDict._get_index_slice_from_slice", f"{L}:ListDict.__getitem__"])
p("C10", "copy returns an equal collection",
  "ld.copy() compares equal to ld, for any ld the API can build.",
  "all call histories", HIST, [f"{L}:ListDict.copy", f"{L}:ListDict.__deepcopy__", f"{L}:ListDict.__setitem__"])
# ---- dict helpers
p("C11", "structure after flatten is the identity",
  "For every nested dict whose keys are non-empty, contain no separator, are distinct per level, and whose inner dicts are non-empty, structure_dict(flatten_dict(d)) == d, including key order.",
  "all nested dicts of any depth and width", "Depth and width are unbounded.", [f"{H}:flatten_dict", f"{H}:structure_dict", f"{H}:recursive_split_dict"])
p("C12", "structure_dict works for every separator",
  "structure_dict(flatten_dict(d, sep=s), sep=s) == d for every single-character separator s not occurring in the keys.",
  "all separators, all nested dicts", "A test would use one separator and a shallow dict.", [f"{H}:structure_dict", f"{H}:recursive_split_dict"])
p("C13", "Structuring a flat dict loses no value",
  "For a flat dict whose dotted keys are pairwise prefix-free, structure_dict never raises and every value is found by walking its key's parts; flattening the result gives back the same key/value pairs.",
  "all prefix-free flat dicts", ALLIN, [f"{H}:structure_dict", f"{H}:recursive_split_dict"])
p("C14", "Dictionary -> XML -> dictionary round trip",
  "element_to_dict(dict_to_xml(d)) == d for every tree of dicts, lists and strings.",
  "all trees", "Lists of length 0 and 1, empty strings and keys called 'item' are the interesting inputs and trees are unbounded.", [f"{H}:dict_to_xml", f"{H}:recursive_split_xml", f"{H}:element_to_dict"])
# ---- MTime
p("C15", "Leap seconds are defined and monotone over the supported range",
  "calculate_leap_seconds(y,m,d) returns a value for every calendar date from 1980-01-01 up to the end of its table, and never decreases with the date.",
  "all dates in the supported range (and all dates outside, where it must raise)", "Gap days at the table's row boundaries are single dates in 46 years.", [f"{T}:calculate_leap_seconds", f"{T}:leap_second_dict"])
p("C16", "MTime comparisons form a total order",
  "For any two time stamps exactly one of a < b, a == b, a > b holds; <= and >= are the corresponding weak orders; < is transitive.",
  "all pairs (triples) of time stamps", ALLIN, [f"{T}:MTime.__lt__", f"{T}:MTime.__gt__", f"{T}:MTime.__le__", f"{T}:MTime.__ge__", f"{T}:MTime.__eq__"])
p("C17", "Out-of-range times are clamped, in-range times kept",
  "Parsing a stamp at or below the minimum gives the minimum, at or above the maximum gives the maximum, otherwise the stamp itself (up to sub-microsecond rounding); the result is always inside [min,max]; parsing the result again changes nothing; parsing preserves order.",
  "all stamps", ALLIN, [f"{T}:_check_timestamp", f"{T}:_fix_out_of_bounds_time_stamp", f"{T}:parse"])
p("C18", "Sub-microsecond rounding is small, idempotent and order preserving",
  "Parsing moves an in-range time stamp by less than half a microsecond, and two stamps in order stay in order; once parsed, a stamp is a fixed point.",
  "all nanosecond stamps", ALLIN, [f"{T}:parse"])
p("C19", "GPS to UTC conversion preserves order",
  "If GPS time a is before GPS time b, the parsed UTC stamps satisfy utc(a) <= utc(b).",
  "all pairs of GPS times in the supported range", "The failing pairs sit within one second of a leap second.", [f"{T}:parse", f"{T}:calculate_leap_seconds"])
p("C20", "Equal instants give equal time stamps",
  "Two stamps denoting the same UTC instant compare equal and hash equal, whatever time zone offset they were written with (stored stamps are always UTC).",
  "all instants and offsets", ALLIN, [f"{T}:_localize_utc", f"{T}:MTime.__eq__", f"{T}:MTime.__hash__"])
p("C21", "Integer epochs are read in the right unit",
  "An integer given as epoch seconds and the same instant given as epoch nanoseconds parse to the same time stamp.",
  "all instants in the representable range", ALLIN, [f"{T}:parse"])
# ---- Metadata base
p("C22", "update never erases information",
  "a.update(b) leaves a field of a unchanged whenever b's value for it is null-like (None, '', 0.0, [], default time, null strings); otherwise the field takes b's value; with match=[...] and differing values it raises ValueError before changing anything.",
  "all pairs of metadata objects and match lists", ALLIN, [f"{M}:MetadataBase.update"])
p("C23", "Metadata equality is an equivalence",
  "== on metadata objects of one class is reflexive, symmetric and transitive.",
  "all pairs/triples of objects", ALLIN, [f"{M}:MetadataBase.__eq__"])
p("C24", "An object equals its own dictionary",
  "obj == obj.to_dict() (dictionary, JSON string and pandas Series are documented as comparable) is True.",
  "all objects", ALLIN, [f"{M}:MetadataBase.__eq__", f"{M}:MetadataBase.load"])
p("C25", "Dotted keyword arguments build the same nested structure as nested dicts",
  "Dotted keyword input expands to a nested dict in which every dotted key resolves to its value when the keys are prefix-free, independently of their order; a flat name passed together with dotted children of the same name is replaced by the nested value.",
  "all sets of dotted names", ALLIN, [f"{M}:DotNotationBaseModel.__init__", f"{M}:DotNotationBaseModel._set_nested_attribute"])
# ---- Band
p("C26", "Band indices are exactly the in-band frequencies",
  "The indices a Band reports for a frequency axis are exactly those i with frequencies[i] inside the interval under its closed setting, increasing; set_indices_from_frequencies stores the first and last; on a sorted axis harmonic_indices equals exactly the in-band indices; an empty selection raises.",
  "all bands, closed settings and frequency axes", ALLIN, [f"{B}:Band._indices_from_frequencies", f"{B}:Band.set_indices_from_frequencies", f"{B}:Band.harmonic_indices"])
p("C27", "Band containment agrees with interval containment",
  "band.contains(other) holds iff every frequency of the other band lies in band; in particular every band contains itself and containment is transitive.",
  "all pairs of bands and closed settings", ALLIN, [f"{B}:Band.contains"])
p("C28", "Band overlap is symmetric and means a shared frequency",
  "a.overlaps(b) == b.overlaps(a), and for non-degenerate bands it holds iff some frequency lies in both.",
  "all pairs of bands and closed settings", ALLIN, [f"{B}:Band.overlaps"])
p("C29", "Center frequency lies in the band",
  "For 0 < frequency_min <= frequency_max the center frequency (both averaging types) lies between the bounds, geometric <= arithmetic.",
  "all real bounds", ALLIN, [f"{B}:Band.center_frequency"])
# ---- Run
p("C30", "Recorded-channel lists always mirror the channels",
  "After any sequence of add_channel/remove_channel/merge/update on a Run whose channel names are not the reserved defaults, channels_recorded_electric/_magnetic/_auxiliary are exactly the sorted component names of the stored channels of that type, and has_channel(c) iff c is one of them.",
  "all call histories", HIST, [f"{R}:Run._update_channels_recorded", f"{R}:Run.validate_channels_recorded", f"{R}:Run.add_channel", f"{R}:Run.remove_channel", f"{R}:Run.has_channel"])
p("C31", "add_channel/get_channel/remove_channel behave like a map",
  "After add_channel(ch) get_channel(ch.component) returns a channel carrying ch's non-null metadata; other channels are untouched; remove_channel(c) removes exactly c and is a no-op for unknown c.",
  "all runs and channels", HIST, [f"{R}:Run.add_channel", f"{R}:Run.get_channel", f"{R}:Run.remove_channel"])
p("C32", "Channel type inferred from name and from dict agree",
  "A channel described by a name, by {'component': name, 'type': t} or by an object gets the same type: e* electric, h*/b*/magnetic magnetic, otherwise auxiliary.",
  "all names and descriptions", ALLIN, [f"{R}:Run._get_correct_channel_type"])
p("C33", "Run time period covers its channels and never shrinks",
  "After update_time_period the run starts no later than, and ends no earlier than, every channel with a non-default time; if the run already had non-default times the new period contains the old one; the call is idempotent.",
  "all runs with any number of channels", ALLIN, [f"{R}:Run.update_time_period"])
p("C34", "merge(inplace=False) leaves the receiver unchanged",
  "run.merge(other, inplace=False) returns the merged run and does not modify run.",
  "all pairs of runs", ALLIN, [f"{R}:Run.merge"])
# ---- Station
p("C35", "Station.run_list mirrors the runs",
  "After any sequence of add_run/remove_run calls (any update flag), run_list equals the keys of runs and has_run(id) iff get_run(id) succeeds.",
  "all call histories", HIST, [f"{S}:Station.add_run", f"{S}:Station.remove_run", f"{S}:Station.has_run", f"{S}:Station.get_run", f"{S}:Station.update_run_list"])
p("C36", "remove_run does not alter the remaining runs",
  "station.remove_run(id) removes that run and leaves every other run exactly as it was, and channels_recorded becomes the channels of the remaining runs.",
  "all stations and run ids", "The existing tests remove a run whose channels also occur in another run.", [f"{S}:Station.remove_run", f"{S}:Station.validate_runs_and_channels_recorded", f"{S}:Station.update_run_list"])
p("C37", "Runs can be sorted by start time",
  "sort_runs_by_time reorders runs by start time, losing none.",
  "all stations", ALLIN, [f"{S}:Station.sort_runs_by_time"])
p("C38", "Station time period covers its runs",
  "After update_time_period the station period contains the period of every run with non-default times, and it only grows.",
  "all stations with any number of runs", ALLIN, [f"{S}:Station.update_time_period"])
# ---- Survey / Experiment
p("C39", "Survey bounding box is tight",
  "After update_bounding_box with at least one station, every station lies within the box and each side touches a station; it does not depend on the order of the stations; with no station it is unchanged.",
  "all surveys", ALLIN, [f"{V}:Survey.update_bounding_box"])
p("C40", "Stations of a survey behave like a map",
  "After any history of add_station/remove_station, has_station(id) iff the last operation on id was an add, get_station returns that station, unknown ids raise/warn without change, and station ids are distinct.",
  "all call histories", HIST, [f"{V}:Survey.add_station", f"{V}:Survey.remove_station", f"{V}:Survey.has_station", f"{V}:Survey.get_station"])
p("C41", "Merging experiments unions their surveys",
  "Adding/merging experiments keeps every survey of both sides under its id; on a clash the right-hand side wins; nothing else changes.",
  "all pairs of experiments", ALLIN, [f"{X}:Experiment.merge", f"{X}:Experiment.add_survey"])
p("C42", "A single filter read back from XML is accepted",
  "Reading an experiment whose XML holds exactly one filter yields that filter, as reading two filters yields both.",
  "all filter dictionaries", "The failing branch is taken only by files with one filter.", [f"{X}:Experiment._read_filter_dict"])
# ---- Location
p("C43", "Degree-minute-second strings round trip",
  "convert_position_str2float(convert_position_float2str(x)) recovers x to within the printed precision, including the sign, for every x in [-180,180].",
  "all positions", "Only the band -1 < x < 0 loses the sign.", ["mt_metadata/utils/location_helpers.py:convert_position_float2str", "mt_metadata/utils/location_helpers.py:convert_position_str2float"])
p("C44", "Accepted positions are in range",
  "validate_position returns a value only if |latitude| <= 90 or |longitude| <= 180 respectively, returns in-range numbers unchanged, and raises ValueError otherwise.",
  "all numbers and strings", ALLIN, ["mt_metadata/utils/location_helpers.py:validate_position"])
# ---- Units
p("C45", "Unit strings are split and recombined losslessly",
  "Parsing a unit expression built from known units with '/', ' per ' or space separators yields those units with the right separators, and the combined long name is the units' names joined by them.",
  "all unit expressions of any length", "Expressions are unbounded.", ["mt_metadata/common/units.py:parse_unit_string", "mt_metadata/common/units.py:find_separator", "mt_metadata/common/units.py:Unit.combine", "mt_metadata/common/units.py:get_unit_object"])
# ---- FDSN
p("C46", "Every positive sample rate gets exactly the right period code",
  "get_period_code is defined for every positive sample rate, codes partition the rates into intervals, and faster sampling never gets a slower code.",
  "all positive sample rates", ALLIN, ["mt_metadata/timeseries/stationxml/fdsn_tools.py:get_period_code"])
p("C47", "FDSN channel codes decode to what was encoded",
  "read_channel_code(make_channel_code(rate, type, azimuth)) yields a period range containing the rate, the measurement type and an orientation consistent with the azimuth.",
  "all rates, measurement types and azimuths", ALLIN, ["mt_metadata/timeseries/stationxml/fdsn_tools.py:make_channel_code", "mt_metadata/timeseries/stationxml/fdsn_tools.py:read_channel_code", "mt_metadata/timeseries/stationxml/fdsn_tools.py:get_orientation_code"])
# ---- Filters
p("C48", "Applied filters stay ordered by stage with distinct names",
  "After any history of add_filter/remove_filter on a channel the filters are ordered by stage and no name occurs twice.",
  "all call histories", HIST, ["mt_metadata/timeseries/channel.py:Channel.add_filter", "mt_metadata/timeseries/channel.py:Channel.remove_filter", "mt_metadata/timeseries/channel.py:Channel.validate_filters"])
p("C49", "A filter list is accepted iff its unit chain matches",
  "A ChannelResponse accepts a filter list iff the output units of every stage equal the input units of the next; its input/output units are then those of the first and last stage.",
  "all filter lists", ALLIN, ["mt_metadata/timeseries/filters/channel_response.py:ChannelResponse._check_consistency_of_units"])
p("C50", "The channel response is the product of its filters' responses",
  "complex_response over the full list equals the pointwise product of the filter responses, is multiplicative under concatenation and independent of order; excluding delays divides out exactly the delay filters; total_delay is additive.",
  "all filter lists and frequencies", ALLIN, ["mt_metadata/timeseries/filters/channel_response.py:ChannelResponse.complex_response", "mt_metadata/timeseries/filters/channel_response.py:ChannelResponse.total_delay"])
p("C51", "The channel pass band is the intersection of the filters' pass bands",
  "pass_band is contained in each filter's pass band and is the largest such interval.",
  "all filter lists", ALLIN, ["mt_metadata/timeseries/filters/channel_response.py:ChannelResponse.pass_band"])
p("C52", "FIR symmetry expansion yields symmetric coefficients",
  "symmetry_corrected_coefficients of an EVEN (ODD) filter with n stored coefficients has 2n (2n-1) entries, starts with the stored ones and is a palindrome; NONE returns them unchanged.",
  "all coefficient lists", ALLIN, ["mt_metadata/timeseries/filters/fir_filter.py:FIRFilter.symmetry_corrected_coefficients"])
p("C53", "Response-table phases end up in radians",
  "Phases supplied in milliradians, degrees or radians within one turn are converted to the same radians, and converting an already converted table changes nothing.",
  "all phase tables", ALLIN, ["mt_metadata/timeseries/filters/frequency_response_table_filter.py:FrequencyResponseTableFilter.validate_phases"])
# ---- Processing
p("C54", "Decimation levels have cumulative sample rates",
  "Level i of the Fourier-coefficient decimations created from an initial rate r and factors f0,f1,... has sample rate r/(f1*...*fi) and level number i, for every number of levels.",
  "all rates, factor lists and level counts", ALLIN, ["mt_metadata/processing/fourier_coefficients/decimation.py:fc_decimations_creator"])
p("C55", "Processing.assign_bands uses the level's true sample rate",
  "The decimation sample rate assigned to level k is the base rate divided by the product of all decimation factors up to k.",
  "all decimation schemes", "With one constant factor the wrong and right formula agree.", ["mt_metadata/processing/aurora/processing.py:Processing.assign_bands"])
p("C56", "Decimation lists are stored as given",
  "Assigning a list of decimation levels to a Processing object stores exactly those levels, once each, in order.",
  "all lists of levels, given as dicts or objects", ALLIN, ["mt_metadata/processing/aurora/processing.py:Processing.validate_decimations"])
p("C57", "A decimation level is consistent with the archived parameters it generates",
  "level.is_consistent_with_archived_fc_parameters(level.to_fc_decimation()) holds for every level, and a differing parameter makes it fail.",
  "all decimation levels", ALLIN, ["mt_metadata/processing/aurora/decimation_level.py:DecimationLevel.is_consistent_with_archived_fc_parameters", "mt_metadata/processing/aurora/decimation_level.py:DecimationLevel.to_fc_decimation"])
p("C58", "Fourier harmonics are increasing, below Nyquist, and evenly spaced",
  "get_fft_harmonics(n, sr) has floor(n/2) entries k*sr/n, all in [0, sr/2), strictly increasing.",
  "all window lengths and rates", ALLIN, ["mt_metadata/processing/window.py:get_fft_harmonics"])
p("C59", "A window's taper reflects its current settings",
  "window.taper() has num_samples entries computed from the current settings after any history of setting changes and taper() calls.",
  "all call histories", HIST, ["mt_metadata/processing/window.py:Window.taper"])
p("C60", "Enough samples means at least the required windows fit",
  "is_valid_for_time_series_length(n) holds iff min_num_stft_windows windows of num_samples with the given overlap fit in n samples.",
  "all lengths and window parameters", ALLIN, ["mt_metadata/processing/fourier_coefficients/decimation.py:Decimation.is_valid_for_time_series_length"])
p("C61", "FC decimation: channels_estimated mirrors channels",
  "After any history of add_channel/remove_channel on a Fourier-coefficient Decimation, has_channel(c) iff c is stored.",
  "all call histories", HIST, ["mt_metadata/processing/fourier_coefficients/decimation.py:Decimation.add_channel", "mt_metadata/processing/fourier_coefficients/decimation.py:Decimation.has_channel"])
p("C62", "FC time period ends no earlier than any of its channels",
  "After update_time_period the start/end of a Decimation (FC) cover all its channels (levels) with non-default times.",
  "all decimations and FC objects", ALLIN, ["mt_metadata/processing/fourier_coefficients/decimation.py:Decimation.update_time_period", "mt_metadata/processing/fourier_coefficients/fc.py:FC.update_time_period"])
p("C63", "FC decimation levels stay in sync",
  "After any history of add_decimation_level/remove_decimation_level, decimation_levels lists exactly the stored levels, and has_decimation_level(l) iff get_decimation_level(l) succeeds.",
  "all call histories", HIST, ["mt_metadata/processing/fourier_coefficients/fc.py:FC.add_decimation_level", "mt_metadata/processing/fourier_coefficients/fc.py:FC.remove_decimation_level"])
p("C64", "Band edges of a frequency-band table stay sorted and aligned",
  "FrequencyBands accepts an edge array iff it is n x 2, keeps row pairing when sorting by any key, and bands() yields one band per row in the requested order; validate() re-establishes increasing centers.",
  "all edge tables", ALLIN, ["mt_metadata/processing/aurora/frequency_bands.py:FrequencyBands.sort", "mt_metadata/processing/aurora/frequency_bands.py:FrequencyBands.bands", "mt_metadata/processing/aurora/frequency_bands.py:FrequencyBands.validate"])
p("C65", "Station data frame round trip",
  "from_dataset_dataframe(to_dataset_dataframe(station)) reproduces the station's runs, time periods, channels and flags.",
  "all processing stations", ALLIN, ["mt_metadata/processing/aurora/station.py:Station.to_dataset_dataframe", "mt_metadata/processing/aurora/station.py:Station.from_dataset_dataframe"])
p("C66", "Channel nomenclature is a faithful renaming",
  "For every supported keyword the five channel names are pairwise distinct and changing the keyword replaces all names by that keyword's map; explicitly chosen names are kept.",
  "all keywords and histories of keyword changes", HIST, ["mt_metadata/processing/aurora/channel_nomenclature.py:ChannelNomenclature.update"])
# ---- Weights
p("C67", "Monotonic kernels map into [0,1] and are monotone",
  "For lower < upper bound, a low-cut (high-cut) taper kernel is non-decreasing (non-increasing) in the feature value, stays in [0,1], and equals 0/1 outside the transition region.",
  "all feature values, bounds and half-window styles", ALLIN, ["mt_metadata/features/weights/taper_monotonic_weight_kernel.py:TaperMonotonicWeightKernel.evaluate"])
p("C68", "Combined weights stay in [0,1]",
  "If every kernel weight lies in [0,1] then feature and channel weights lie in [0,1] for every combination style; min <= product-style bounds hold; no features gives weight 1; a missing feature raises KeyError.",
  "all weight specs", ALLIN, ["mt_metadata/features/weights/channel_weight_spec.py:ChannelWeightSpec.evaluate", "mt_metadata/features/weights/feature_weight_spec.py:FeatureWeightSpec.evaluate"])
p("C69", "A threshold kernel separates values at its threshold",
  "ThresholdWeightKernel.evaluate returns 1 on the kept side of the threshold and 0 on the other.",
  "all values and thresholds", ALLIN, ["mt_metadata/features/weights/threshold_weight_kernel.py:ThresholdWeightKernel.evaluate"])
# ---- IO & others
p("C70", "Comments survive their string form",
  "from_dict/as_string of a Comment round trips time stamp, author and text whenever author and text contain no separator.",
  "all comments", ALLIN, ["mt_metadata/common/comment.py:Comment.as_string", "mt_metadata/common/comment.py:Comment.from_dict"])
p("C71", "Enumeration values are matched regardless of case",
  "An enumeration derived from StrEnumerationBase accepts a string iff it equals some member up to case, and returns that member; accepting is idempotent.",
  "all strings and all enumerations derived from StrEnumerationBase", ALLIN, ["mt_metadata/common/enumerations.py:StrEnumerationBase._normalize_case"])
p("C72", "EDI key=value lines keep their pairing under any spacing",
  "_validate_str_with_equals splits a line into key=value items independent of blanks around '=', losing no key and no value.",
  "all lines", ALLIN, ["mt_metadata/transfer_functions/io/tools.py:_validate_str_with_equals"])
p("C73", "Channel indexing of a transfer function names only recorded channels",
  "index_locator's input/output channels are channels that occur in the given list and its flags agree with their presence.",
  "all channel lists", ALLIN, ["mt_metadata/transfer_functions/io/tools.py:index_locator"])
p("C74", "StationXML channel epochs are merged only if identical",
  "Adding a channel epoch to a run either extends an existing channel with identical metadata or creates a new one; comparison is reflexive and symmetric; no epoch is lost.",
  "all sequences of epochs", HIST, ["mt_metadata/timeseries/stationxml/xml_inventory_mt_experiment.py:XMLInventoryMTExperiment.add_run", "mt_metadata/timeseries/stationxml/xml_inventory_mt_experiment.py:XMLInventoryMTExperiment.compare_xml_channel"])

# ---- added while the model grew
p("C75", "A serialised time stamp reads back unchanged",
  "MTime(**t.model_dump()) equals t for every constructed t (the stored stamp is already UTC).",
  "all stamps, gps flag set or not", ALLIN, [f"{T}:MTime._serialize_model", f"{T}:MTime.validate_time_stamp", f"{T}:parse"])
p("C76", "Adding and subtracting a duration are inverse",
  "(t + d) - d == t and (t + d) - t == d.",
  "all stamps and durations that stay in range", ALLIN, [f"{T}:MTime.__add__", f"{T}:MTime.__sub__"])
p("C77", "MDate equality is equality of the printed date",
  "Two MDate values compare equal (and hash equal) exactly when they print the same date; printed dates order as the instants do.",
  "all pairs of stamps", ALLIN, [f"{T}:MDate", f"{T}:MTime.__eq__", f"{T}:MDate.__hash__"])
p("C78", "MTime.from_dict leaves a usable time stamp",
  "After t.from_dict(value) with a value the constructor accepts, t.isoformat() works.",
  "all values", ALLIN, [f"{T}:MTime.from_dict", f"{T}:MTime.isoformat"])
p("C79", "An automatic band name follows the frequencies",
  "A Band that was never given a name is named after its current frequency bounds.",
  "all frequency assignments", HIST, [f"{B}:Band.check_name", f"{B}:Band.validate_name"])
p('C80', 'to_dict() only leaves out empty fields',
  'obj.to_dict() (required only) contains every field whose value is not null-like, and every required field.',
  'all objects', ALLIN, ['mt_metadata/base/metadata.py:MetadataBase.to_dict'])
p('C81', 'Dictionaries read back into the object they came from',
  'new.from_dict(obj.to_dict(required=False)) makes new equal obj field by field; the default to_dict() restores every field it contains and leaves the others alone; skip_none never erases.',
  'all objects of one class', ALLIN, ['mt_metadata/base/metadata.py:MetadataBase.to_dict', 'mt_metadata/base/metadata.py:MetadataBase.from_dict'])
p('C82', 'A constructor accepts the class-wrapped dictionary',
  'Cls(**obj.to_dict()) hands every entry of the wrapped dictionary to pydantic under its nested path, for dotted and nested keys alike.',
  'all wrapped dictionaries', ALLIN, ['mt_metadata/base/metadata.py:DotNotationBaseModel.__init__'])
p('C83', 'A removed run stays removed',
  'After remove_run(id) no later assignment of an unrelated station attribute brings a run with that id back.',
  'all stations, ids and update flags', HIST, ['mt_metadata/timeseries/station.py:Station.remove_run', 'mt_metadata/timeseries/station.py:Station.validate_runs_and_channels_recorded'])
p('C84', 'Adding a station under a known id loses no runs',
  "After add_station with a station whose id the survey already has, every run of the old and of the added station can be found in the survey's station.",
  'all surveys, all stations', HIST, ['mt_metadata/timeseries/survey.py:Survey.add_station'])
p('C85', 'Adding a survey under a known id loses no stations',
  "After add_survey with a survey whose id the experiment already has, every station of either is in the experiment's survey.",
  'all experiments, all surveys', HIST, ['mt_metadata/timeseries/experiment.py:Experiment.add_survey'])
p('C86', 'The survey period covers its stations and only grows',
  'After updating, the start day of the survey is not after the start day of any station it counts and the end day not before; repeated updating never shrinks it.',
  'all surveys', ALLIN, ['mt_metadata/timeseries/survey.py:Survey.update_time_period'])
p('C87', 'Every experiment written to XML can be read',
  'from_xml(to_xml()) raises for no experiment.',
  'all experiments', ALLIN, ['mt_metadata/timeseries/experiment.py:Experiment.to_xml', 'mt_metadata/timeseries/experiment.py:Experiment.from_xml'])
p('C88', 'Every filter written to XML is read back',
  'When reading succeeds, each filter of the survey is in the survey read back, under its lower-case name.',
  'all lists of filters', ALLIN, ['mt_metadata/timeseries/experiment.py:Experiment._read_filter_dict'])
p('C89', 'Validated names are normal and stable',
  'validate_name fails only on names starting with a digit; its result has no capitals and no slash, and validating it again changes nothing.',
  'all strings', ALLIN, ['mt_metadata/utils/validators.py:validate_name', 'mt_metadata/utils/validators.py:validate_attribute'])
p('C90', 'Validated station names are words and stable',
  'validate_station_name returns only nonempty strings of letters, digits and underscores, returns those unchanged, and is idempotent.',
  'all strings', ALLIN, ['mt_metadata/utils/validators.py:validate_station_name'])
p('C91', 'A minus sign makes a position string negative',
  'The value read from a position string that begins with a minus sign is not positive.',
  'all position strings', ALLIN, ['mt_metadata/utils/location_helpers.py:convert_position_str2float'])
p('C92', 'Every known unit is found by its symbol and by its name',
  'Looking up the symbol of any unit in the table gives that unit; looking up its name in any mixture of upper and lower case does too.',
  'all units with all prefixes, all case variants', ALLIN, ['mt_metadata/common/units.py:get_unit_from_df'])
p('C93', 'Normalised unit names are stable',
  'The name of the unit found for a string, looked up again, gives a unit of the same name.',
  'all strings', ALLIN, ['mt_metadata/common/units.py:get_unit_object', 'mt_metadata/timeseries/filters/filter_base.py:FilterBase.units_in_object'])
p('C94', 'Direction letters survive the channel code',
  'create_mt_component(make_channel_code(rate, type, letter)) is e or h followed by the letter for electric and magnetic channels and letters x, y, z.',
  'all sample rates', ALLIN, ['mt_metadata/timeseries/stationxml/fdsn_tools.py:create_mt_component', 'mt_metadata/timeseries/stationxml/fdsn_tools.py:make_channel_code'])
p('C95', 'Removing a filter removes only it and renumbers the rest',
  'remove_filter(name) leaves exactly the other filters; with reset_stages they are numbered 1, 2, ... in stored order, without it an ordered channel keeps them as they are; get_filter(name) then finds nothing.',
  'all filter lists and names', ALLIN, ['mt_metadata/timeseries/channel.py:Channel.remove_filter', 'mt_metadata/timeseries/channel.py:Channel.get_filter'])
p('C96', 'Pass bands lie in the given range and a flat filter passes everything',
  'FilterBase.pass_band returns frequencies from the given array with lower <= upper for increasing frequencies; a filter with frequency-independent amplitude passes the whole range.',
  'all frequency arrays and amplitudes', ALLIN, ['mt_metadata/timeseries/filters/filter_base.py:FilterBase.pass_band'])
p('C97', 'A FIR filter has its stated gain at the reference frequency',
  'abs(complex_response(gain_frequency)) equals abs(gain) for every FIR filter whose taps do not cancel there.',
  'all taps, symmetries, rates and gains', ALLIN, ['mt_metadata/timeseries/filters/fir_filter.py:FIRFilter.complex_response', 'mt_metadata/timeseries/filters/fir_filter.py:FIRFilter.corrective_scalar'])
p('C98', 'A response table reproduces its entries',
  'complex_response at a tabulated frequency is gain times the tabulated amplitude with the tabulated phase.',
  'all increasing tables with two or more rows', ALLIN, ['mt_metadata/timeseries/filters/frequency_response_table_filter.py:FrequencyResponseTableFilter.complex_response'])
p('C99', 'Responses to real signals are Hermitian',
  'For coefficient, delay, FIR filters and pole-zero filters with conjugate pairs the channel response at -f is the complex conjugate of the response at f.',
  'all filter lists and frequencies', ALLIN, ['mt_metadata/timeseries/filters/channel_response.py:ChannelResponse.complex_response', 'mt_metadata/timeseries/filters/pole_zero_filter.py:PoleZeroFilter.complex_response'])
p('C101', 'EMTF decimation data follow the level number',
  'Processing.assign_decimation_level_data_emtf(r) gives every level factor 1 (level 0) or 4 and the sample rate r/4^level, and changes nothing else.',
  'all lists of levels', ALLIN, ['mt_metadata/processing/aurora/processing.py:Processing.assign_decimation_level_data_emtf'])
p('C100', 'Stations data frame round trip',
  'Stations.from_dataset_dataframe(to_dataset_dataframe(stations)) reproduces the local and all remote stations; a data frame with only remote rows is refused.',
  'all stations objects, read into any stations object', ALLIN, ['mt_metadata/processing/aurora/stations.py:Stations.to_dataset_dataframe', 'mt_metadata/processing/aurora/stations.py:Stations.from_dataset_dataframe'])
p('C102', 'Geomagnetic model names keep their version',
  'A geomagnetic model is accepted iff the part before the first dash is a known model in any case, and it is stored exactly as given.',
  'all strings', ALLIN, ['mt_metadata/common/enumerations.py:GeomagneticModelEnum._validate_lowercase'])
p('C103', 'Station lookup by id',
  'Stations.get_station returns the local station if it has the id, else the last added remote station with it, else raises KeyError.',
  'all stations objects and ids', ALLIN, ['mt_metadata/processing/aurora/stations.py:Stations.get_station'])
p('C104', 'Inactive kernels are skipped',
  'A kernel whose active flag is false does not take part in a feature weight.',
  'all feature weight specs and values', ALLIN, ['mt_metadata/features/weights/base.py:Base.active', 'mt_metadata/features/weights/feature_weight_spec.py:FeatureWeightSpec.evaluate'])
p('C105', 'Every given weight kernel is used',
  'FeatureWeightSpec keeps every kernel it is given, in order.',
  'all lists of kernels and kernel dictionaries', ALLIN, ['mt_metadata/features/weights/feature_weight_spec.py:FeatureWeightSpec.validate_weight_kernels'])
p('C106', 'Activation kernels map into [0,1] and are monotone',
  'For lower < upper bound and steepness >= 0 an activation kernel is monotone in the direction of its threshold, stays in [0,1], and cuts what lies on the cut side of its bounds.',
  'all values, bounds, styles and steepnesses', ALLIN, ['mt_metadata/features/weights/activation_monotonic_weight_kernel.py:ActivationMonotonicWeightKernel.evaluate'])
p('C107', 'The composite taper is a band pass',
  'TaperWeightKernel.evaluate is in [0,1], 0 outside the two cuts and 1 between the transitions.',
  'all values, cuts and styles', ALLIN, ['mt_metadata/features/weights/taper_weight_kernel.py:TaperWeightKernel.evaluate'])
p('C108', 'Weights of a band come from the closest frequency',
  'get_weights_for_band returns the weights at the frequency closest to the band center (the first of several).',
  'all weights, frequencies and bands', ALLIN, ['mt_metadata/features/weights/channel_weight_spec.py:ChannelWeightSpec.get_weights_for_band'])
p('C109', 'Comment equality is comparison of contents',
  'A comment equals another comment (or string, dictionary) exactly when time stamp, author and text agree, and never equals None.',
  'all comments and right-hand sides', ALLIN, ['mt_metadata/common/comment.py:Comment.__eq__'])
p('C110', 'Comments survive their dictionary form',
  'Reading to_dict of a comment built through the API back with from_dict restores time stamp, author and text.',
  'all comments reachable by construction and assignment', HIST, ['mt_metadata/common/comment.py:Comment.from_dict', 'mt_metadata/common/comment.py:Comment.set_variables'])
p('C111', 'Writing a comment as XML leaves the comment unchanged',
  'Comment.to_xml does not modify the comment it writes.',
  'all comments', ALLIN, ['mt_metadata/common/comment.py:Comment.to_xml'])
p('C112', 'EDI files on one line are split into the lines of the same file',
  '_validate_edi_lines returns lines without line ends, and a file stored on a single line is cut at its carriage returns.',
  'all files', ALLIN, ['mt_metadata/transfer_functions/io/tools.py:_validate_edi_lines'])
p('C113', 'Run ids of a channel survive StationXML',
  'The run ids written into the comments of a StationXML channel are the run ids read back, in order.',
  'all lists of run ids', ALLIN, ['mt_metadata/timeseries/stationxml/xml_channel_mt_channel.py:XMLChannelMTChannel._make_xml_comments', 'mt_metadata/timeseries/stationxml/xml_channel_mt_channel.py:XMLChannelMTChannel._parse_xml_comments'])
p('C114', 'The comment of a channel survives StationXML',
  'The text of a channel comment written to StationXML is the text read back.',
  'all texts', ALLIN, ['mt_metadata/timeseries/stationxml/xml_channel_mt_channel.py:XMLChannelMTChannel._make_xml_comments', 'mt_metadata/timeseries/stationxml/xml_channel_mt_channel.py:XMLChannelMTChannel._parse_xml_comments'])
p('C115', 'Dictionary-like StationXML comments are read completely',
  "read_xml_comment reads a comment 'k: v, k: v, ...' into the dictionary of its pairs.",
  'all comments of any number of pairs', ALLIN, ['mt_metadata/timeseries/stationxml/utils.py:read_xml_comment'])
p('C116', 'Author and comments of a StationXML comment are separated',
  "'author: a, comments: c' is read as author a and comments c, in either order and with either missing.",
  'all authors and texts', ALLIN, ['mt_metadata/timeseries/stationxml/utils.py:read_xml_comment'])
p('C117', 'The comment of a run survives StationXML',
  'The comment of a run, written as station comment mt.run:<id>.comments, is read back into the same run.',
  'all run ids and texts', ALLIN, ['mt_metadata/timeseries/stationxml/xml_station_mt_station.py:XMLStationMTStation._add_run_comments', 'mt_metadata/timeseries/stationxml/utils.py:create_comment'])
p('C118', 'The data logger description survives StationXML',
  "The description written for a run's data logger is parsed back into the same fields.",
  'all fields and values', ALLIN, ['mt_metadata/timeseries/stationxml/xml_equipment_mt_run.py:XMLEquipmentMTRun._make_description', 'mt_metadata/timeseries/stationxml/xml_equipment_mt_run.py:XMLEquipmentMTRun._parse_description'])
p('C119', 'Electrode ids survive StationXML',
  'The ids of the positive and negative electrode are read back as written.',
  'all ids', ALLIN, ['mt_metadata/timeseries/stationxml/xml_channel_mt_channel.py:XMLChannelMTChannel._parse_electrode_ids'])
p('C120', 'The reversed translator inverts the translator',
  'flip_dict maps every name of an entry back to the key of that entry.',
  'all translator dictionaries', ALLIN, ['mt_metadata/timeseries/stationxml/utils.py:BaseTranslator.flip_dict'])
p('C121', 'The DOI of a survey survives StationXML',
  'The DOI written as network identifier is the DOI read back.',
  'all DOIs', ALLIN, ['mt_metadata/timeseries/stationxml/xml_network_mt_survey.py:XMLNetworkMTSurvey.xml_to_mt', 'mt_metadata/timeseries/stationxml/xml_network_mt_survey.py:XMLNetworkMTSurvey.mt_to_xml'])
p('C122', 'The model of a magnetic sensor survives StationXML',
  'Model and name of a magnetometer are read back as written.',
  'all models and names', ALLIN, ['mt_metadata/timeseries/stationxml/xml_channel_mt_channel.py:XMLChannelMTChannel._mt_to_sensor', 'mt_metadata/timeseries/stationxml/xml_channel_mt_channel.py:XMLChannelMTChannel._sensor_to_mt'])
p('C123', 'The id of a run survives its resource id',
  "The run id written in the equipment's resource id is the id read back.",
  'all run ids', ALLIN, ['mt_metadata/timeseries/stationxml/xml_equipment_mt_run.py:XMLEquipmentMTRun.xml_to_mt', 'mt_metadata/timeseries/stationxml/xml_equipment_mt_run.py:XMLEquipmentMTRun.mt_to_xml'])
p('C124', 'The licence of a survey survives StationXML',
  'The release licence of a survey written as the restricted status of a network is the licence read back.',
  'all licences a survey accepts', ALLIN, ['mt_metadata/common/enumerations.py:LicenseEnum', 'mt_metadata/common/copyright.py:Copyright', 'mt_metadata/timeseries/stationxml/fdsn_tools.py:release_dict', 'mt_metadata/timeseries/stationxml/xml_network_mt_survey.py:XMLNetworkMTSurvey'])
p('C125', 'An accepted licence is accepted again',
  'A licence that was accepted is stored under a value that is itself accepted and unchanged; spellings that differ only in separators name the same licence.',
  'all texts given as licence', ALLIN, ['mt_metadata/common/enumerations.py:LicenseEnum', 'mt_metadata/common/copyright.py:Copyright', 'mt_metadata/timeseries/survey.py:Survey.validate_release_license'])
p('C126', 'Runs get their channels back from StationXML',
  'A station written as channel epochs and read back gives every run exactly the channels it had, and no others.',
  'all stations, any number of runs and channels', HIST, ['mt_metadata/timeseries/stationxml/xml_inventory_mt_experiment.py:XMLInventoryMTExperiment.add_run', 'mt_metadata/timeseries/stationxml/xml_inventory_mt_experiment.py:XMLInventoryMTExperiment.xml_to_mt'])
p('C127', 'Channels that list no run are kept',
  'Reading StationXML from another source, every channel ends up in a run of the station.',
  'all stations whose channels list no runs', ALLIN, ['mt_metadata/timeseries/stationxml/xml_inventory_mt_experiment.py:XMLInventoryMTExperiment.xml_to_mt'])
p('C128', 'Impedance and tipper of a Z file in geographic coordinates',
  'ZMM.calculate_impedance and calculate_tippers return the tensor that, for every magnetic field, gives the electric (vertical magnetic) field in north and east components, whatever the azimuths and the order of the channels in the file; the angle argument turns the tensor by that angle and leaves determinant, trace and Zxy - Zyx unchanged.',
  'for all files, azimuths, channel orders, numbers of predicted channels, angles and fields', ALLIN, ['mt_metadata/transfer_functions/io/zfiles/zmm.py:ZMM.calculate_impedance', 'mt_metadata/transfer_functions/io/zfiles/zmm.py:ZMM.calculate_tippers'])
p('C129', 'Errors of impedances and tippers of a Z file',
  'If the matrices of the file are covariances (inverse signal power of the magnetic channels and residual covariance), every error returned is a real number, and it is the root of the residual variance of the geographic component times the inverse power of the geographic magnetic component.',
  'for all files, azimuths, angles and all sets of samples from which the matrices were made', ALLIN, ['mt_metadata/transfer_functions/io/zfiles/zmm.py:ZMM.calculate_impedance', 'mt_metadata/transfer_functions/io/zfiles/zmm.py:ZMM.calculate_tippers'])
p('C130', 'Reading, writing and reading a Z file keeps the impedance',
  'A Z file that is read with the defaults, written and read again has the impedance of the first file.',
  'for all files and azimuths', HIST, ['mt_metadata/transfer_functions/io/zfiles/zmm.py:ZMM.write', 'mt_metadata/transfer_functions/io/zfiles/zmm.py:ZMM._fill_dataset', 'mt_metadata/transfer_functions/io/zfiles/zmm.py:ZMM.calculate_impedance'])
p('C131', 'Transfer functions from the spectra of an EDI file',
  'For spectra made of any samples of the channels, EDI._read_spectra returns the impedance (and tipper) whose residuals are uncorrelated with the reference channels; if the samples obey an impedance and a tipper, these are returned. Files have four to seven channels, with or without a vertical magnetic field, with or without remote reference.',
  'for all numbers of samples, samples, orders of channels and reference channels for which the reference spectra can be inverted', ALLIN, ['mt_metadata/transfer_functions/io/edi/edi.py:EDI._read_spectra'])
p('C132', 'Errors from the spectra of an EDI file',
  'The errors EDI._read_spectra returns are the roots of residual variance times inverse reference power, and never zero.',
  'for all samples and numbers of averages', ALLIN, ['mt_metadata/transfer_functions/io/edi/edi.py:EDI._read_spectra'])
p('C133', 'Impedance from apparent resistivity and phase in EDI files',
  'An element of the impedance given as apparent resistivity and phase has modulus sqrt(5 f rho) and that phase, and its error is the phase error times the modulus; elements given as real and imaginary part are not changed.',
  'for all frequencies, resistivities and phases', ALLIN, ['mt_metadata/transfer_functions/io/edi/edi.py:EDI._read_mt'])
p('C134', 'Data written to an EDI file are read back',
  'For arrays of frequencies, rotation angles, impedances, tippers and variances EDI.write followed by EDI._read_mt returns the same arrays, with every number as the format prints it and zeros as zeros, or all of them turned around when the frequencies ascend.',
  'for all numbers of frequencies, arrays, empty values and number formats that leave a blank before numbers', ALLIN, ['mt_metadata/transfer_functions/io/edi/edi.py:EDI.write', 'mt_metadata/transfer_functions/io/edi/edi.py:EDI._write_data_block', 'mt_metadata/transfer_functions/io/edi/edi.py:EDI._read_mt', 'mt_metadata/transfer_functions/io/edi/edi.py:EDI._assert_descending_frequency'])
p('C135', 'Arrays assigned to a transfer function are returned',
  'After any sequence of assignments of NumPy arrays, None and periods to a TF object, with exceptions in between, every property (transfer_function, impedance, tipper, their errors and model errors, inverse_signal_power, residual_covariance) returns the numbers last assigned to it, directly or as part of transfer_function, and None if the data are all zero; arrays of a wrong shape or number of periods are refused and change nothing.',
  'for all distinct channel names, periods, sequences of assignments and arrays with or without nan', HIST, ['mt_metadata/transfer_functions/core.py:TF._set_data_array', 'mt_metadata/transfer_functions/core.py:TF._validate_input_ndarray', 'mt_metadata/transfer_functions/core.py:TF.impedance', 'mt_metadata/transfer_functions/core.py:TF.tipper', 'mt_metadata/transfer_functions/core.py:TF.transfer_function'])
p('C136', 'Assigning periods keeps the arrays',
  'Assigning as many periods as a TF object has replaces them and keeps all arrays; another number of periods is refused once periods were given.',
  'for all states that assignments lead to and all lists of periods', HIST, ['mt_metadata/transfer_functions/core.py:TF.period'])
p('C137', 'Errors from covariances',
  'When inverse_signal_power and residual_covariance have both been assigned, in either order and whatever was assigned before, the error of an element of impedance or tipper is the square root of the modulus of residual variance of the output times inverse signal power of the input.',
  'for all states that assignments lead to and all covariances that are not zero', HIST, ['mt_metadata/transfer_functions/core.py:TF._compute_error_from_covariance', 'mt_metadata/transfer_functions/core.py:TF.inverse_signal_power', 'mt_metadata/transfer_functions/core.py:TF.residual_covariance'])
p('C138', 'Labelled arrays are assigned by label',
  'A DataArray is assigned by its channel labels, whatever their order, and changes no other array; wrong labels and other periods are refused and change nothing.',
  'for all states that assignments lead to and all labelled arrays', HIST, ['mt_metadata/transfer_functions/core.py:TF._validate_input_dataarray', 'mt_metadata/transfer_functions/core.py:TF._set_data_array'])
p('C139', 'Renaming channels',
  'The arrays of a TF object are kept when channel_nomenclature is given other names.',
  'for all states that assignments lead to and all names', HIST, ['mt_metadata/transfer_functions/core.py:TF.channel_nomenclature', 'mt_metadata/transfer_functions/core.py:TF.has_impedance'])
p('C140', 'Blocks of EDI files are read by their names',
  'In an EDI file of blocks in any order EDI._read_mt takes each part of each element, the frequencies and the angles from the last block with the name the EDI standard gives it, in upper or lower case and with anything else in its line; blocks of other names have no effect; numbers that cannot be read and the empty value are zero; a missing tipper is zero.',
  'for all lists of blocks, names, lines and numbers', ALLIN, ['mt_metadata/transfer_functions/io/edi/edi.py:EDI._read_mt', 'mt_metadata/transfer_functions/io/edi/edi.py:EDI._assert_descending_frequency'])
p('C141', 'A Z file written and read again',
  'The text ZMM.write writes, read by ZMM.read without rotation, gives back the processing type, the station, the coordinates rounded to three decimals, the declination, number, azimuth and tilt of each channel, and for each period its value, decimation level, band, number of points and sampling rate, the transfer functions between the two channels of the lowest numbers (inputs) and the others (outputs), and the Hermitian inverse signal power and residual covariance matrices, all rounded to the digits written; all other elements are zero.',
  'for all headers, channel numbers, numbers of channels and periods, and values; any printing and reading of numbers that agree', ALLIN, ['mt_metadata/transfer_functions/io/zfiles/zmm.py:ZMM.write', 'mt_metadata/transfer_functions/io/zfiles/zmm.py:ZMM.read', 'mt_metadata/transfer_functions/io/zfiles/zmm.py:ZMMHeader.read_header', 'mt_metadata/transfer_functions/io/zfiles/zmm.py:ZMMHeader.write_header', 'mt_metadata/transfer_functions/io/zfiles/zmm.py:ZMM._get_period_blocks', 'mt_metadata/transfer_functions/io/zfiles/zmm.py:ZMM._read_period_block'])
p('C142', 'Names and unnumbered channels in Z files',
  'A station name of one line comes back from a Z file, and so do the transfer functions of channels that had no number when the file was written.',
  'for all names', ALLIN, ['mt_metadata/transfer_functions/io/zfiles/zmm.py:ZMMHeader.read_header', 'mt_metadata/transfer_functions/io/zfiles/zmm.py:ZMMHeader.write_header'])
p('C143', 'Values of a J file are found at their periods',
  'After JFile.read the periods are exactly the unmasked numbers in the first column of the impedance rows (and of the tipper rows, if there are any of the first tipper), none twice; at each period every component has the value and the error of its last row with that period, and zero where it has no row; masked and unreadable numbers are zero, infinite errors a million.',
  'for all files of a header, a station, blocks of components in any order and number with any rows, and resistivities behind; any floats whose text is read as what it was', ALLIN, ['mt_metadata/transfer_functions/io/jfiles/jfile.py:JFile.read'])
p('C144', 'The header of a J file is read',
  'The names and values in the comment lines of a J file are read whatever the number of blanks: the descriptions of data files in groups that begin with nfil, the angles in groups that begin with theta1, all others as parameters, numbers as numbers; the title is the first line; the file is read without error.',
  'for all headers of words without equals signs and commas, in any number of lines and in any order of groups and parameters', ALLIN, ['mt_metadata/transfer_functions/io/jfiles/metadata/header.py:Header.read_header', 'mt_metadata/transfer_functions/io/jfiles/metadata/header.py:Header._read_header_line', 'mt_metadata/transfer_functions/io/jfiles/jfile.py:JFile.read'])
p('C145', 'The position in a J file is read',
  'Latitude, longitude, elevation and azimuth given in the information lines of a J file are those of the header after reading.',
  'for all positions', ALLIN, ['mt_metadata/transfer_functions/io/jfiles/metadata/header.py:Header.read_metadata', 'mt_metadata/transfer_functions/io/jfiles/jfile.py:JFile._validate_j_file'])
p('C146', 'The periods of a J file increase',
  'The periods read from a J file are in increasing order.',
  'for all files', ALLIN, ['mt_metadata/transfer_functions/io/jfiles/jfile.py:JFile.read'])
p('C147', 'Lists in the header of a J file',
  'A name followed by several values in the header of a J file (such as indices) gets all of them.',
  'for all lists of values', ALLIN, ['mt_metadata/transfer_functions/io/jfiles/metadata/header.py:Header._read_header_line'])
p('C148', 'Making positions readable leaves the rest of a J file',
  'Before a J file is read only its latitude, longitude and elevation lines are rewritten; the other lines are kept, and files without these lines are read as well.',
  'for all files', ALLIN, ['mt_metadata/transfer_functions/io/jfiles/jfile.py:JFile._validate_j_file'])
p('C149', 'A J file gives a transfer function',
  'A J file that can be read gives a transfer function, with a run whose sample rate is the inverse of the time step (or its absolute value, if negative).',
  'for all files', ALLIN, ['mt_metadata/transfer_functions/io/jfiles/jfile.py:JFile.station_metadata', 'mt_metadata/transfer_functions/core.py:TF.from_jfile'])
p('C150', 'All blocks of a J file are read',
  'Every row of a component in a J file is read, wherever blocks of resistivities and empty lines are.',
  'for all files', ALLIN, ['mt_metadata/transfer_functions/io/jfiles/jfile.py:JFile.read'])
p('C151', 'Values of an AVG table are at their frequencies and elements',
  'Each row of an AVG table gives, in the impedance at its frequency and component, its magnitude times exp(i phase/1000); the last row counts if a component repeats a frequency; elements without a row are zero with error one; the frequencies are those of the rows, each once, ascending. Components are placed by their letters, x being north if z is positive down and east if it is positive up.',
  'for all tables with known components of the impedance, both directions of z', ALLIN, ['mt_metadata/transfer_functions/io/zonge/zonge.py:ZongeMTAvg._fill_z', 'mt_metadata/transfer_functions/io/zonge/zonge.py:ZongeMTAvg._get_comp_index', 'mt_metadata/transfer_functions/io/zonge/zonge.py:ZongeMTAvg.read'])
p('C152', 'Magnitudes and phases of AVG files are inverse to complex values',
  'to_complex undoes to_amp_phase for every complex number, and to_amp_phase undoes to_complex for positive magnitudes and phases within half a turn.',
  'for all complex numbers, all positive magnitudes and phases in the principal range', ALLIN, ['mt_metadata/transfer_functions/io/zonge/zonge.py:ZongeMTAvg.to_complex', 'mt_metadata/transfer_functions/io/zonge/zonge.py:ZongeMTAvg.to_amp_phase'])
p('C153', 'Errors of the impedance in AVG files',
  'An error of p percent of the apparent resistivity, in a row whose magnitude and resistivity agree, is an error of p/2 percent of the impedance.',
  'for all rows', ALLIN, ['mt_metadata/transfer_functions/io/zonge/zonge.py:ZongeMTAvg._fill_z'])
p('C154', 'Errors of the tipper in AVG files',
  'The error of the tipper is zero if the errors in the file are zero.',
  'for all tables with tipper', ALLIN, ['mt_metadata/transfer_functions/io/zonge/zonge.py:ZongeMTAvg._fill_t'])
p('C155', 'The lines that start a component are read',
  'The line $Rx.Cmp=... is read for all components of impedance and tipper, with and without blanks at the equals sign.',
  'for all components and all states of reading', ALLIN, ['mt_metadata/transfer_functions/io/zonge/metadata/header.py:Header.read_header'])
p('C156', 'Impedances go through the AVG table',
  'The table made from the arrays, read as a table, gives the impedance of the arrays at every frequency.',
  'for all arrays, all lists of different frequencies in any order, both directions of z', ALLIN, ['mt_metadata/transfer_functions/io/zonge/zonge.py:ZongeMTAvg._create_dataframe_from_arrays', 'mt_metadata/transfer_functions/io/zonge/zonge.py:ZongeMTAvg._fill_z'])
p('C157', 'Errors go through the AVG table',
  'The table made from the arrays, read as a table, gives the errors of the arrays.',
  'for all arrays with errors that are not negative and positive frequencies', ALLIN, ['mt_metadata/transfer_functions/io/zonge/zonge.py:ZongeMTAvg._create_dataframe_from_arrays', 'mt_metadata/transfer_functions/io/zonge/zonge.py:ZongeMTAvg._fill_z'])
p('C158', 'Tippers go through the AVG table',
  'The table made from the arrays, read as a table, gives the tipper of the arrays.',
  'for all arrays, both directions of z', ALLIN, ['mt_metadata/transfer_functions/io/zonge/zonge.py:ZongeMTAvg._create_dataframe_from_arrays', 'mt_metadata/transfer_functions/io/zonge/zonge.py:ZongeMTAvg._fill_t'])
p('C159', 'An AVG table is written and read',
  'Reading the file written from a table gives all its rows with numbers as rounded in the text, the rounded frequencies ascending and the impedances of the rounded magnitudes and phases; without a table the same holds of the arrays.',
  'for all tables of any components and order, all readable headers, any way of printing numbers that can be read', ALLIN, ['mt_metadata/transfer_functions/io/zonge/zonge.py:ZongeMTAvg.write', 'mt_metadata/transfer_functions/io/zonge/zonge.py:ZongeMTAvg.read', 'mt_metadata/transfer_functions/io/zonge/metadata/header.py:Header.write_header', 'mt_metadata/transfer_functions/io/zonge/metadata/header.py:Header.read_header'])
p('C160', 'A file written with a valid header can be read',
  'If the values of the header are valid, the AVG file written with it can be read.',
  'for all headers and tables', ALLIN, ['mt_metadata/transfer_functions/io/zonge/metadata/header.py:Header.write_header', 'mt_metadata/transfer_functions/io/zonge/metadata/header.py:Header.read_header'])
p('C161', 'A transfer function written as AVG file can be read',
  'TF.write to an AVG file followed by TF.read succeeds.',
  'for all transfer functions with impedance', ALLIN, ['mt_metadata/transfer_functions/core.py:TF.to_avg', 'mt_metadata/transfer_functions/core.py:TF.from_avg', 'mt_metadata/transfer_functions/io/zonge/zonge.py:ZongeMTAvg.write', 'mt_metadata/transfer_functions/io/zonge/zonge.py:ZongeMTAvg.read'])
p('C162', 'Arrays of an AVG object are what is written',
  'Reading the file written from an object gives the impedance array of the object, rounded as in the text.',
  'for all objects, with or without a table', ALLIN, ['mt_metadata/transfer_functions/io/zonge/zonge.py:ZongeMTAvg.write', 'mt_metadata/transfer_functions/io/zonge/zonge.py:ZongeMTAvg._create_dataframe_from_arrays'])
p('C163', 'Names of stations go through AVG files',
  'The name of the station in a written file is read as it was.',
  'for all names without blanks at the ends', ALLIN, ['mt_metadata/transfer_functions/io/zonge/metadata/header.py:Header.read_header', 'mt_metadata/transfer_functions/io/zonge/metadata/header.py:Header.write_header'])
p('C164', 'The option toZmag of AVG files is read',
  'The option PhaseSlope.toZmag of a file is the attribute that is written as PhaseSlope.ToZMag.',
  'for all values and states of reading', ALLIN, ['mt_metadata/transfer_functions/io/zonge/metadata/header.py:Header.read_header'])
p('C165', 'Azimuths of channels from AVG files',
  'The azimuth of a channel is that in the lines of its component, if there are any, else it is from the heading of the array.',
  'for all headers', ALLIN, ['mt_metadata/transfer_functions/io/zonge/zonge.py:ZongeMTAvg.run_metadata', 'mt_metadata/transfer_functions/io/zonge/metadata/header.py:Header._has_channel'])
p('C166', 'Bounds of merge',
  'Every merged period is within the inclusive bounds of the transfer function it comes from, with the numbers it has there.',
  'for all transfer functions with periods in any order, all lists of items, all bounds', ALLIN, ['mt_metadata/transfer_functions/core.py:TF.merge'])
p('C167', 'Merge loses no period',
  'Every period within the bounds of a merged transfer function is in the result with its numbers, unless merge raises.',
  'for all transfer functions, all lists of items, all bounds', ALLIN, ['mt_metadata/transfer_functions/core.py:TF.merge'])
p('C168', 'Transfer functions that do not overlap can be merged',
  'Merging transfer functions whose periods within bounds do not overlap succeeds.',
  'for all transfer functions with periods in any order, all lists of items, all bounds', ALLIN, ['mt_metadata/transfer_functions/core.py:TF.merge'])
p('C169', 'Merge does not depend on the order of the items',
  'The result of merge is the same for any order of the list of transfer functions.',
  'for all transfer functions and all permutations of all lists of items', ALLIN, ['mt_metadata/transfer_functions/core.py:TF.merge'])
p('C170', 'Merge leaves the merged transfer functions unchanged',
  'The transfer functions given to merge are as they were afterwards, also if it raises.',
  'for all transfer functions, all lists of items, all bounds', ALLIN, ['mt_metadata/transfer_functions/core.py:TF.merge'])
p('C171', 'Merged periods ascend',
  'The periods of the result ascend and no period is there twice, if none is twice in one of the parts.',
  'for all transfer functions, all lists of items, all bounds', ALLIN, ['mt_metadata/transfer_functions/core.py:TF.merge'])
p('C172', 'Merge in place',
  'Merge in place changes the object to what merge would return; otherwise, and if it raises, the object is unchanged.',
  'for all transfer functions, all lists of items, all bounds', ALLIN, ['mt_metadata/transfer_functions/core.py:TF.merge'])
p('C173', 'Equal transfer functions',
  'Objects that compare as equal have equal metadata, periods, transfer functions and errors.',
  'for all pairs of objects', ALLIN, ['mt_metadata/transfer_functions/core.py:TF.__eq__'])
p('C174', 'Files are read in the format in which they are written',
  'TF.read, given the name of a file that TF.write made, chooses the format in which it was written.',
  'for all names, directories, types and stations', ALLIN, ['mt_metadata/transfer_functions/core.py:TF.write', 'mt_metadata/transfer_functions/core.py:TF.read'])
p('C175', 'File types of the documentation',
  'TF.write writes each of the file types in its signature under the name of the station, and a full path decides on type, name and directory.',
  'for all stations, directories and arguments', ALLIN, ['mt_metadata/transfer_functions/core.py:TF.write'])
p('C176', 'EMTF XML data are read back',
  'The data written to an EMTF XML file are read back: all periods to thirteen digits and every number that is neither zero nor missing to seven.',
  'for all numbers of periods, all arrays given or not, all entries', ALLIN, ['mt_metadata/transfer_functions/io/emtfxml/metadata/data.py:TransferFunction.write_block', 'mt_metadata/transfer_functions/io/emtfxml/metadata/data.py:TransferFunction.read_data', 'mt_metadata/transfer_functions/io/emtfxml/metadata/data.py:TransferFunction.read_dict', 'mt_metadata/transfer_functions/io/emtfxml/emtfxml.py:EMTFXML.write', 'mt_metadata/transfer_functions/io/emtfxml/emtfxml.py:EMTFXML.read'])
p('C177', 'Zeros in EMTF XML',
  'An entry that is zero or missing is read back as zero.',
  'for all arrays and entries', ALLIN, ['mt_metadata/transfer_functions/io/emtfxml/metadata/data.py:TransferFunction.write_block', 'mt_metadata/transfer_functions/io/emtfxml/metadata/data.py:TransferFunction.read_block'])
p('C178', 'Data types of EMTF XML files',
  'Data written to a file and read again have the same data types (impedance, tipper).',
  'for all arrays given or not', ALLIN, ['mt_metadata/transfer_functions/io/emtfxml/metadata/data.py:TransferFunction.write_block', 'mt_metadata/transfer_functions/io/emtfxml/emtfxml.py:EMTFXML._get_data_types'])
p('C179', 'Statistical estimates',
  'A statistical estimate is listed if and only if the impedances or the tippers have one that is not zero.',
  'for all arrays given or not', ALLIN, ['mt_metadata/transfer_functions/io/emtfxml/emtfxml.py:EMTFXML._get_statistical_estimates'])
p('C180', 'Data types',
  'A data type is listed, once and impedances first, if and only if its array has a number that is not zero.',
  'for all arrays given or not', ALLIN, ['mt_metadata/transfer_functions/io/emtfxml/emtfxml.py:EMTFXML._get_data_types'])
p('C181', 'Site layout follows the data',
  'After the update the site layout has hx and hy if there are impedances or tippers, ex and ey if there are impedances, hz if there are tippers, and no others; channels given before are kept, and only missing ones are made.',
  'for all data and all previous layouts, in any spelling of names', ALLIN, ['mt_metadata/transfer_functions/io/emtfxml/emtfxml.py:EMTFXML._update_site_layout'])
p('C182', 'Texts of repeated elements',
  'No text of an XML element is lost when the keys of its dictionary are made lower case.',
  'for all element trees', ALLIN, ['mt_metadata/transfer_functions/io/emtfxml/metadata/helpers.py:_convert_keys_to_lower_case', 'mt_metadata/base/helpers.py:element_to_dict'])
p('C183', 'EMTF XML objects keep the transfer function',
  'A transfer function converted to an EMTF XML object and back has its periods, transfer function, errors, inverse signal power and residual covariance.',
  'for all histories of assignments, all periods and arrays', HIST, ['mt_metadata/transfer_functions/core.py:TF.to_emtfxml', 'mt_metadata/transfer_functions/core.py:TF.from_emtfxml'])
p('C184', 'Data of EMTF XML files reach the transfer function',
  'The data of a file of impedances without tippers, with the inverse signal power of the impedances, are all in the transfer function that is made from it.',
  'for all numbers of periods and all entries', ALLIN, ['mt_metadata/transfer_functions/core.py:TF.from_emtfxml'])
p('C185', 'Names of channels and EMTF XML',
  'EMTF XML data can be read into an object with any names of channels.',
  'for all distinct names and all data', ALLIN, ['mt_metadata/transfer_functions/core.py:TF.from_emtfxml', 'mt_metadata/transfer_functions/core.py:TF.channel_nomenclature'])
p('C186', 'EDI objects keep the transfer function',
  'A transfer function converted to an EDI object and back has its periods, impedances, tippers, the errors of both and its angles, whatever its channels are called and whether or not it has all of these.',
  'for all histories of assignments, names, periods and arrays', HIST, ['mt_metadata/transfer_functions/core.py:TF.to_edi', 'mt_metadata/transfer_functions/core.py:TF.from_edi'])
p('C187', 'Reading EDI data into an object in use',
  'The impedances, tippers and errors of a transfer function after reading an EDI file do not depend on what it had before.',
  'for all histories of assignments and all EDI data', HIST, ['mt_metadata/transfer_functions/core.py:TF.from_edi'])
p('C188', 'Spectra keep their covariances',
  'Reading an EDI file of spectra gives the transfer function with its errors and covariances, with and without vertical magnetic field.',
  'for all numbers of frequencies, names of channels and arrays', ALLIN, ['mt_metadata/transfer_functions/core.py:TF.from_edi'])
p('C189', 'Channels of Z file objects',
  'Converting a transfer function with data to a Z file object gives two inputs and the outputs there are data of, whatever channels the first run has.',
  'for all histories of assignments and all lists of channels', HIST, ['mt_metadata/transfer_functions/core.py:TF.to_zmm', 'mt_metadata/transfer_functions/core.py:TF.make_zmm_run'])
p('C190', 'Data of Z files reach the transfer function',
  'The data of every Z file can be read: the entries of its channels are kept, the errors are those of the covariances.',
  'for all names of channels, outputs, periods and entries', ALLIN, ['mt_metadata/transfer_functions/core.py:TF.from_zmm', 'mt_metadata/transfer_functions/core.py:TF._compute_error_from_covariance'])
p('C191', 'Z file objects keep the transfer function',
  'A transfer function with impedances, tippers and covariances converted to a Z file object and back has its periods and these arrays.',
  'for all histories of assignments', HIST, ['mt_metadata/transfer_functions/core.py:TF.to_zmm', 'mt_metadata/transfer_functions/core.py:TF.from_zmm'])
p('C192', 'Header section of EDI files',
  'Reading the header section that was written gives every attribute that has a value, whatever stands before and after the section.',
  'for all names, values and other lines', ALLIN, ['mt_metadata/transfer_functions/io/edi/metadata/header.py:Header.read_header', 'mt_metadata/transfer_functions/io/edi/metadata/header.py:Header.write_header', 'mt_metadata/transfer_functions/io/edi/metadata/header.py:Header.get_header_list'])
p('C193', 'Lines of measurements',
  'A measurement is read back from the line that is written for it, its numbers as they are printed.',
  'for all measurements of electric and magnetic channels', ALLIN, ['mt_metadata/transfer_functions/io/edi/metadata/define_measurement.py:DefineMeasurement.read_measurement', 'mt_metadata/transfer_functions/io/edi/metadata/emeasurement.py:EMeasurement.write_meas_line', 'mt_metadata/transfer_functions/io/edi/metadata/hmeasurement.py:HMeasurement.write_meas_line'])
p('C194', 'Define-measurement section of EDI files',
  'Reading the define-measurement section that was written gives its settings and its measurements of different types, whatever stands before and after.',
  'for all settings, measurements and other lines', ALLIN, ['mt_metadata/transfer_functions/io/edi/metadata/define_measurement.py:DefineMeasurement.write_measurement', 'mt_metadata/transfer_functions/io/edi/metadata/define_measurement.py:DefineMeasurement.read_measurement', 'mt_metadata/transfer_functions/io/edi/metadata/define_measurement.py:DefineMeasurement.get_measurement_lists'])
p('C195', 'Measurements of the same type',
  'Every different measurement line of the section is kept, also if several are of the same type.',
  'for all lists of measurements', ALLIN, ['mt_metadata/transfer_functions/io/edi/metadata/define_measurement.py:DefineMeasurement.read_measurement'])
p('C196', 'Identifiers of measurements',
  'Measurements are written in the order of their identifiers, none is lost, and measurements with different identifiers or none are written with different identifiers.',
  'for all dictionaries of measurements', ALLIN, ['mt_metadata/transfer_functions/io/edi/metadata/define_measurement.py:DefineMeasurement._sort_measurements', 'mt_metadata/transfer_functions/io/edi/metadata/define_measurement.py:DefineMeasurement.write_measurement'])
p('C197', 'Data section of EDI files',
  'Reading the data section that was written gives its numbers, its station and the identifiers of its channels.',
  'for all sections, of impedances and of spectra, and other lines', ALLIN, ['mt_metadata/transfer_functions/io/edi/metadata/data_section.py:DataSection.read_data', 'mt_metadata/transfer_functions/io/edi/metadata/data_section.py:DataSection.write_data', 'mt_metadata/transfer_functions/io/edi/metadata/data_section.py:DataSection.get_data'])
p('C198', 'Identifiers of channels in the data section',
  'Matching gives every component whose measurement has one of the identifiers of the section that identifier, and leaves the other components as they are.',
  'for all identifiers', ALLIN, ['mt_metadata/transfer_functions/io/edi/metadata/data_section.py:DataSection.match_channels'])
p('C199', 'Blanks in the settings of the section',
  'Blanks around the name and the value of a setting do not matter, nor does the case of the name.',
  'for all settings, values and numbers of blanks', ALLIN, ['mt_metadata/transfer_functions/io/edi/metadata/define_measurement.py:DefineMeasurement.read_measurement'])
p('C200', 'Information section of EDI files',
  'The names and values of the information section that was written are read back, whatever stands before and after the section.',
  'for all dictionaries of names and values and all other lines', ALLIN, ['mt_metadata/transfer_functions/io/edi/metadata/information.py:Information.write_info', 'mt_metadata/transfer_functions/io/edi/metadata/information.py:Information.read_info', 'mt_metadata/transfer_functions/io/edi/metadata/information.py:Information._parse_standard_info'])
p('C201', 'Information that was read is stable',
  'What was read from an information section can be written into any file and is read again as it was.',
  'for all sections and files', HIST, ['mt_metadata/transfer_functions/io/edi/metadata/information.py:Information.read_info', 'mt_metadata/transfer_functions/io/edi/metadata/information.py:Information.write_info'])
p('C202', 'Standard names and processing parameters',
  'All processing parameters of the information section are kept in the order of the file, and every other value under its standard name, the last one if there are several.',
  'for all lists of names and values', ALLIN, ['mt_metadata/transfer_functions/io/edi/metadata/information.py:Information._parse_standard_info'])
p('C203', 'Two columns on a line of Phoenix files',
  'Two names with their values on one line, more than three blanks apart, are read as if they stood on two lines.',
  'for all columns, distances and other lines', ALLIN, ['mt_metadata/transfer_functions/io/edi/metadata/information.py:Information._split_phoenix_columns', 'mt_metadata/transfer_functions/io/edi/metadata/information.py:Information._parse_phoenix_info'])
p('C204', 'Names in Phoenix files',
  'Every value of the information section of a Phoenix file is kept under its standard name, voltages and resistances without their units, and the maker of each coil is noted.',
  'for all lists of names and values', ALLIN, ['mt_metadata/transfer_functions/io/edi/metadata/information.py:Information._parse_phoenix_info', 'mt_metadata/transfer_functions/io/edi/metadata/information.py:Information._apply_phoenix_translation'])
p('C205', 'Channels in Empower files',
  'What an Empower file says of a channel is kept under the name of that channel and not of another one.',
  'for all sequences of section headers, channel headers and values', HIST, ['mt_metadata/transfer_functions/io/edi/metadata/information.py:Information._parse_empower_info', 'mt_metadata/transfer_functions/io/edi/metadata/information.py:Information._get_empower_std_key'])
p('C206', 'Units in Empower files',
  'Numbers are read from an Empower file without their unit.',
  'for all numbers and units', ALLIN, ['mt_metadata/transfer_functions/io/edi/metadata/information.py:Information._parse_empower_info'])
p('C207', 'The response of a channel survives StationXML',
  'The filters read from the stages of a StationXML response have together the response of the filters written, at every frequency, with or without delays and decimation.',
  'for all lists of filters of all classes and all frequencies', ALLIN, ['mt_metadata/timeseries/filters/channel_response.py:ChannelResponse.to_obspy', 'mt_metadata/timeseries/filters/obspy_stages.py:create_filter_from_stage', 'mt_metadata/timeseries/stationxml/xml_channel_mt_channel.py:XMLChannelMTChannel._xml_response_to_mt'])
p('C208', 'Filters in StationXML',
  'Names, units, gains and order of the filters of a channel survive StationXML, and they are applied to the channel under their names, numbered from one.',
  'for all lists of filters', ALLIN, ['mt_metadata/timeseries/filters/channel_response.py:ChannelResponse.to_obspy', 'mt_metadata/timeseries/stationxml/xml_channel_mt_channel.py:XMLChannelMTChannel._xml_response_to_mt', 'mt_metadata/timeseries/filters/filter_base.py:FilterBase.from_obspy_stage'])
p('C209', 'Classes of filters in StationXML',
  'A filter read from StationXML is of the class of the filter written and described by the same poles, zeros, coefficients, tables and delays.',
  'for all lists of filters', ALLIN, ['mt_metadata/timeseries/filters/obspy_stages.py:create_filter_from_stage', 'mt_metadata/timeseries/filters/obspy_stages.py:check_if_coefficient_filter_is_delay_only'])
p('C210', 'The sensitivity written to StationXML',
  'The instrument sensitivity written for a channel is the amplitude of its response at the normalisation frequency.',
  'for all lists of filters, frequencies and roundings', ALLIN, ['mt_metadata/timeseries/filters/channel_response.py:ChannelResponse.to_obspy', 'mt_metadata/timeseries/filters/channel_response.py:ChannelResponse.compute_total_gain'])
p('C211', 'The sensitivity of an instrument',
  'compute_instrument_sensitivity is the amplitude of the channel response at the normalisation frequency to six digits, and one if the amplitude is zero.',
  'for all lists of filters, frequencies and roundings', ALLIN, ['mt_metadata/timeseries/filters/channel_response.py:ChannelResponse.compute_instrument_sensitivity'])
p('C212', 'One filter for each stage',
  'Every stage of a response becomes a filter of the channel.',
  'for all lists of filters with different names', ALLIN, ['mt_metadata/timeseries/stationxml/xml_channel_mt_channel.py:XMLChannelMTChannel._xml_response_to_mt'])
p('C213', 'Names for filters without a name',
  'A filter without a name gets a name that no other filter of the survey has, or that of a filter with the same response.',
  'for all filters and all filters of the survey', ALLIN, ['mt_metadata/timeseries/stationxml/xml_channel_mt_channel.py:XMLChannelMTChannel._add_filter_number'])
p('C214', 'Units of a channel in StationXML',
  'The units of a channel survive StationXML.',
  'for all units and lists of filters', ALLIN, ['mt_metadata/timeseries/stationxml/xml_channel_mt_channel.py:XMLChannelMTChannel._get_mt_units', 'mt_metadata/timeseries/stationxml/xml_channel_mt_channel.py:XMLChannelMTChannel.xml_to_mt'])
p('C215', 'Orientation of a channel in StationXML',
  'Azimuth and tilt of a channel survive StationXML.',
  'for all angles', ALLIN, ['mt_metadata/timeseries/stationxml/xml_channel_mt_channel.py:XMLChannelMTChannel.mt_to_xml', 'mt_metadata/timeseries/stationxml/xml_channel_mt_channel.py:XMLChannelMTChannel.xml_to_mt'])
p('C216', 'Position of a channel in StationXML',
  'The positions of a channel, of both electrodes for an electric one, survive StationXML.',
  'for all positions', ALLIN, ['mt_metadata/timeseries/stationxml/xml_channel_mt_channel.py:XMLChannelMTChannel.mt_to_xml', 'mt_metadata/timeseries/stationxml/xml_channel_mt_channel.py:XMLChannelMTChannel._get_mt_position'])
p('C217', "The transfer function's metadata survive EDI",
  'Attributes of the transfer function of a station that have a value are the same after to_edi and from_edi.',
  'for all surveys and stations', ALLIN, ['mt_metadata/transfer_functions/io/edi/edi.py:EDI.station_metadata', 'mt_metadata/transfer_functions/core.py:TF.to_edi', 'mt_metadata/transfer_functions/core.py:TF.from_edi'])
p('C218', 'Processing parameters and remote references survive EDI',
  'The processing parameters and the remote references of a station are the same after to_edi and from_edi.',
  'for all surveys and stations', ALLIN, ['mt_metadata/transfer_functions/io/edi/edi.py:EDI.station_metadata', 'mt_metadata/transfer_functions/core.py:TF.to_edi', 'mt_metadata/transfer_functions/core.py:TF.from_edi'])
p('C219', 'Runs survive EDI',
  'The runs of a station and the list of processed runs are the same after to_edi and from_edi.',
  'for all surveys and stations', ALLIN, ['mt_metadata/transfer_functions/io/edi/edi.py:EDI.station_metadata', 'mt_metadata/transfer_functions/core.py:TF.to_edi', 'mt_metadata/transfer_functions/core.py:TF.from_edi'])
p('C220', 'Name, place, times and authors survive EDI',
  'The name, location, declination, reference frame, times, authors and geographic name of a station are the same after to_edi and from_edi.',
  'for all surveys and stations', ALLIN, ['mt_metadata/transfer_functions/io/edi/edi.py:EDI.station_metadata', 'mt_metadata/transfer_functions/core.py:TF.to_edi', 'mt_metadata/transfer_functions/core.py:TF.from_edi'])
p('C221', 'Provenance survives EDI',
  'The provenance of a station is the same after to_edi and from_edi.',
  'for all surveys and stations', ALLIN, ['mt_metadata/transfer_functions/io/edi/edi.py:EDI.station_metadata', 'mt_metadata/transfer_functions/core.py:TF.to_edi', 'mt_metadata/transfer_functions/core.py:TF.from_edi'])
p('C222', 'Every station can be converted to EDI',
  'The survey and station metadata of any transfer function can be put into an EDI object and be read from it.',
  'for all surveys and stations', ALLIN, ['mt_metadata/transfer_functions/io/edi/edi.py:EDI.station_metadata', 'mt_metadata/transfer_functions/core.py:TF.to_edi', 'mt_metadata/transfer_functions/core.py:TF.from_edi'])
p('C223', 'Electric channels in EDI',
  'The attributes of an electric channel that are written to the information section are read.',
  'for all stations with distinct names', ALLIN, ['mt_metadata/transfer_functions/io/edi/edi.py:EDI._get_electric_metadata', 'mt_metadata/transfer_functions/io/edi/edi.py:EDI.station_metadata'])
p('C224', 'Magnetic channels in EDI',
  'The attributes of a magnetic channel, or at least of its sensor, that are written to the information section are read.',
  'for all stations with distinct names', ALLIN, ['mt_metadata/transfer_functions/io/edi/edi.py:EDI._get_magnetic_metadata', 'mt_metadata/transfer_functions/io/edi/edi.py:EDI.station_metadata'])
p('C225', 'The survey survives EDI',
  'The attributes of a survey, apart from those computed from its stations, are the same after to_edi and from_edi.',
  'for all surveys and stations', ALLIN, ['mt_metadata/transfer_functions/io/edi/edi.py:EDI.survey_metadata', 'mt_metadata/transfer_functions/core.py:TF.to_edi', 'mt_metadata/transfer_functions/core.py:TF.from_edi'])
p('C226', 'Runs survive EMTF XML objects',
  'The runs of a station are the same after to_emtfxml and from_emtfxml: their ids, data loggers, sampling rates and times, in their order.',
  'for all lists of runs, whatever their channels, sensors and comments', ALLIN, ['mt_metadata/transfer_functions/io/emtfxml/emtfxml.py:EMTFXML.station_metadata', 'mt_metadata/transfer_functions/core.py:TF.to_emtfxml', 'mt_metadata/transfer_functions/core.py:TF.from_emtfxml'])
p('C227', 'Magnetometers survive EMTF XML objects',
  'The sensor of each magnetic channel of a run is the same after to_emtfxml and from_emtfxml.',
  'for all lists of runs, whatever their channels, sensors and comments', ALLIN, ['mt_metadata/transfer_functions/io/emtfxml/emtfxml.py:EMTFXML.station_metadata', 'mt_metadata/transfer_functions/core.py:TF.to_emtfxml', 'mt_metadata/transfer_functions/core.py:TF.from_emtfxml'])
p('C228', 'Electrodes survive EMTF XML objects',
  'The electrodes and the dipole length of each electric channel of a run are the same after to_emtfxml and from_emtfxml.',
  'for all lists of runs, whatever their channels, sensors and comments', ALLIN, ['mt_metadata/transfer_functions/io/emtfxml/emtfxml.py:EMTFXML.station_metadata', 'mt_metadata/transfer_functions/core.py:TF.to_emtfxml', 'mt_metadata/transfer_functions/core.py:TF.from_emtfxml'])
p('C229', 'Places and orientations survive EMTF XML objects',
  'The place and the azimuth of each channel of a run that belongs to the transfer function are the same after to_emtfxml and from_emtfxml.',
  'for all lists of runs, whatever their channels, sensors and comments', ALLIN, ['mt_metadata/transfer_functions/io/emtfxml/emtfxml.py:EMTFXML.station_metadata', 'mt_metadata/transfer_functions/core.py:TF.to_emtfxml', 'mt_metadata/transfer_functions/core.py:TF.from_emtfxml'])
p('C230', 'Which runs can be converted to EMTF XML objects',
  'to_emtfxml followed by from_emtfxml succeeds for the runs of a station exactly if the electrodes have ids and types and every run with a sampling rate has every channel of the transfer function, where one magnetometer counts for all magnetic channels.',
  'for all lists of runs, whatever their channels, sensors and comments', ALLIN, ['mt_metadata/transfer_functions/io/emtfxml/emtfxml.py:EMTFXML.station_metadata', 'mt_metadata/transfer_functions/core.py:TF.to_emtfxml', 'mt_metadata/transfer_functions/core.py:TF.from_emtfxml'])
p('C231', 'Comments of runs survive EMTF XML objects',
  'The comments of a run are the same after to_emtfxml and from_emtfxml.',
  'for all lists of runs, whatever their channels, sensors and comments', ALLIN, ['mt_metadata/transfer_functions/io/emtfxml/emtfxml.py:EMTFXML.station_metadata', 'mt_metadata/transfer_functions/core.py:TF.to_emtfxml', 'mt_metadata/transfer_functions/core.py:TF.from_emtfxml'])
p('C232', 'Which stations can be converted to EMTF XML objects',
  'to_emtfxml followed by from_emtfxml succeeds for the metadata of a survey and a station exactly if the project has letters, digits, - and _ only, the id of the station letters and digits only, the data type is MT, BBMT or LPMT, and the geographic name of the survey is null or has letters, digits, _, - and blanks only.',
  'for all surveys and stations, whatever their attributes, comments and processing parameters', ALLIN, ['mt_metadata/transfer_functions/io/emtfxml/emtfxml.py:EMTFXML.survey_metadata', 'mt_metadata/transfer_functions/io/emtfxml/emtfxml.py:EMTFXML.station_metadata', 'mt_metadata/transfer_functions/io/emtfxml/emtfxml.py:EMTFXML._parse_comments', 'mt_metadata/transfer_functions/core.py:TF.to_emtfxml', 'mt_metadata/transfer_functions/core.py:TF.from_emtfxml'])
p('C233', 'Values of a station survive EMTF XML objects',
  'The names, the place, the provenance, the times, the processing and the data quality of a station are the same after to_emtfxml and from_emtfxml if they have a value.',
  'for all surveys and stations, whatever their attributes, comments and processing parameters', ALLIN, ['mt_metadata/transfer_functions/io/emtfxml/emtfxml.py:EMTFXML.survey_metadata', 'mt_metadata/transfer_functions/io/emtfxml/emtfxml.py:EMTFXML.station_metadata', 'mt_metadata/transfer_functions/io/emtfxml/emtfxml.py:EMTFXML._parse_comments', 'mt_metadata/transfer_functions/core.py:TF.to_emtfxml', 'mt_metadata/transfer_functions/core.py:TF.from_emtfxml'])
p('C234', 'Values of a survey survive EMTF XML objects',
  'The id, the project, the geographic name, the summary, the countries and the citation of a survey are the same after to_emtfxml and from_emtfxml if they have a value.',
  'for all surveys and stations, whatever their attributes, comments and processing parameters', ALLIN, ['mt_metadata/transfer_functions/io/emtfxml/emtfxml.py:EMTFXML.survey_metadata', 'mt_metadata/transfer_functions/io/emtfxml/emtfxml.py:EMTFXML.station_metadata', 'mt_metadata/transfer_functions/io/emtfxml/emtfxml.py:EMTFXML._parse_comments', 'mt_metadata/transfer_functions/core.py:TF.to_emtfxml', 'mt_metadata/transfer_functions/core.py:TF.from_emtfxml'])
p('C235', 'Comments of a station survive EMTF XML objects',
  'The comments of a station are the same after to_emtfxml and from_emtfxml.',
  'for all surveys and stations, whatever their attributes, comments and processing parameters', ALLIN, ['mt_metadata/transfer_functions/io/emtfxml/emtfxml.py:EMTFXML.survey_metadata', 'mt_metadata/transfer_functions/io/emtfxml/emtfxml.py:EMTFXML.station_metadata', 'mt_metadata/transfer_functions/io/emtfxml/emtfxml.py:EMTFXML._parse_comments', 'mt_metadata/transfer_functions/core.py:TF.to_emtfxml', 'mt_metadata/transfer_functions/core.py:TF.from_emtfxml'])
p('C236', 'Comments of a survey survive EMTF XML objects',
  'The comments of a survey are the same after to_emtfxml and from_emtfxml.',
  'for all surveys and stations, whatever their attributes, comments and processing parameters', ALLIN, ['mt_metadata/transfer_functions/io/emtfxml/emtfxml.py:EMTFXML.survey_metadata', 'mt_metadata/transfer_functions/io/emtfxml/emtfxml.py:EMTFXML.station_metadata', 'mt_metadata/transfer_functions/io/emtfxml/emtfxml.py:EMTFXML._parse_comments', 'mt_metadata/transfer_functions/core.py:TF.to_emtfxml', 'mt_metadata/transfer_functions/core.py:TF.from_emtfxml'])
p('C237', 'Remote references survive EMTF XML objects',
  'The remote references of a transfer function are the same after to_emtfxml and from_emtfxml.',
  'for all surveys and stations, whatever their attributes, comments and processing parameters', ALLIN, ['mt_metadata/transfer_functions/io/emtfxml/emtfxml.py:EMTFXML.survey_metadata', 'mt_metadata/transfer_functions/io/emtfxml/emtfxml.py:EMTFXML.station_metadata', 'mt_metadata/transfer_functions/io/emtfxml/emtfxml.py:EMTFXML._parse_comments', 'mt_metadata/transfer_functions/core.py:TF.to_emtfxml', 'mt_metadata/transfer_functions/core.py:TF.from_emtfxml'])
p('C238', 'Processing parameters survive EMTF XML objects',
  'The processing parameters of a transfer function are the same after to_emtfxml and from_emtfxml.',
  'for all surveys and stations, whatever their attributes, comments and processing parameters', ALLIN, ['mt_metadata/transfer_functions/io/emtfxml/emtfxml.py:EMTFXML.survey_metadata', 'mt_metadata/transfer_functions/io/emtfxml/emtfxml.py:EMTFXML.station_metadata', 'mt_metadata/transfer_functions/io/emtfxml/emtfxml.py:EMTFXML._parse_comments', 'mt_metadata/transfer_functions/core.py:TF.to_emtfxml', 'mt_metadata/transfer_functions/core.py:TF.from_emtfxml'])
p('C239', 'Product ids in EMTF XML objects',
  'The FDSN id of a station is its product id in an EMTF XML object and is the same afterwards; without one the product id is project.station.year.',
  'for all surveys and stations, whatever their attributes, comments and processing parameters', ALLIN, ['mt_metadata/transfer_functions/io/emtfxml/emtfxml.py:EMTFXML.survey_metadata', 'mt_metadata/transfer_functions/io/emtfxml/emtfxml.py:EMTFXML.station_metadata', 'mt_metadata/transfer_functions/io/emtfxml/emtfxml.py:EMTFXML._parse_comments', 'mt_metadata/transfer_functions/core.py:TF.to_emtfxml', 'mt_metadata/transfer_functions/core.py:TF.from_emtfxml'])
p('C240', 'Which field notes can be written to EMTF XML files',
  'EMTFXML.write succeeds for the field notes of the runs exactly if every run has a sampling rate and every dipole a name and a type.',
  'for all lists of field notes with any instruments, dipoles, electrodes and texts, for all printings of numbers and times that can be read again', ALLIN, ['mt_metadata/transfer_functions/io/emtfxml/metadata/field_notes.py:FieldNotes.to_xml', 'mt_metadata/transfer_functions/io/emtfxml/metadata/field_notes.py:FieldNotes.read_dict', 'mt_metadata/transfer_functions/io/emtfxml/metadata/run.py:Run.to_xml', 'mt_metadata/transfer_functions/io/emtfxml/metadata/run.py:Run.read_dict', 'mt_metadata/transfer_functions/io/emtfxml/emtfxml.py:EMTFXML.write', 'mt_metadata/transfer_functions/io/emtfxml/emtfxml.py:EMTFXML.read'])
p('C241', 'Field notes survive EMTF XML files',
  'The field notes read from an EMTF XML file are those it was written from, one for each run, with their instruments, magnetometers, dipoles, electrodes, times and comments.',
  'for all lists of field notes with any instruments, dipoles, electrodes and texts, for all printings of numbers and times that can be read again', ALLIN, ['mt_metadata/transfer_functions/io/emtfxml/metadata/field_notes.py:FieldNotes.to_xml', 'mt_metadata/transfer_functions/io/emtfxml/metadata/field_notes.py:FieldNotes.read_dict', 'mt_metadata/transfer_functions/io/emtfxml/metadata/run.py:Run.to_xml', 'mt_metadata/transfer_functions/io/emtfxml/metadata/run.py:Run.read_dict', 'mt_metadata/transfer_functions/io/emtfxml/emtfxml.py:EMTFXML.write', 'mt_metadata/transfer_functions/io/emtfxml/emtfxml.py:EMTFXML.read'])
p('C242', 'The site layout survives EMTF XML files',
  'The input and output channels read from an EMTF XML file are those it was written from, in the same order, with places and orientations to three decimals.',
  'for all lists of input and output channels', ALLIN, ['mt_metadata/transfer_functions/io/emtfxml/metadata/site_layout.py:SiteLayout.to_xml', 'mt_metadata/transfer_functions/io/emtfxml/metadata/site_layout.py:SiteLayout.read_dict', 'mt_metadata/transfer_functions/io/emtfxml/emtfxml.py:EMTFXML.write', 'mt_metadata/transfer_functions/io/emtfxml/emtfxml.py:EMTFXML.read'])
p('C243', 'Texts survive EMTF XML files',
  'A text that is not a word for nothing and has no blanks at its ends is read from an EMTF XML file as it was written to it.',
  'for all texts for the errors of a run and all field notes', ALLIN, ['mt_metadata/transfer_functions/io/emtfxml/emtfxml.py:EMTFXML.write', 'mt_metadata/transfer_functions/io/emtfxml/emtfxml.py:EMTFXML.read', 'mt_metadata/base/helpers.py:element_to_string'])
p('C244', 'The runs of a station are in its EMTF XML file',
  'TF.write to EMTF XML followed by TF.read gives the runs of the station that have a sampling rate, with their ids, data loggers, rates and times.',
  'for all stations with any number of runs and channels and all comments', ALLIN, ['mt_metadata/transfer_functions/core.py:TF.to_emtfxml', 'mt_metadata/transfer_functions/core.py:TF.from_emtfxml', 'mt_metadata/transfer_functions/io/emtfxml/emtfxml.py:EMTFXML.write', 'mt_metadata/transfer_functions/io/emtfxml/emtfxml.py:EMTFXML.read', 'mt_metadata/transfer_functions/io/emtfxml/emtfxml.py:EMTFXML.station_metadata'])
p('C245', 'Runs survive dictionaries',
  'A run made by any sequence of calls, read from its dictionary, has the same channels of the same classes in the same order, the same lists of recorded channels and the same time period.',
  'all call histories of a run, whatever becomes of the other attributes', HIST, ['mt_metadata/timeseries/run.py:Run.validate_channels', 'mt_metadata/timeseries/run.py:Run._empty_channels', 'mt_metadata/timeseries/station.py:Station.validate_runs'])
p('C246', 'Stations survive dictionaries',
  'A station made by any sequence of calls, read from its dictionary, has the same runs with the same channels.',
  'all call histories of a station, whatever becomes of the other attributes', HIST, ['mt_metadata/timeseries/survey.py:Survey.validate_stations', 'mt_metadata/timeseries/station.py:Station.validate_runs', 'mt_metadata/timeseries/station.py:Station.validate_run_list'])
p('C247', 'Experiments survive dictionaries',
  'A new experiment read from to_dict of another has the same surveys, stations, runs, channels and filters in the same order, if channels_recorded of every station is up to date. Read into an experiment with surveys, it adds those with new ids, and for known ids it updates the attributes and keeps stations and filters.',
  'all experiments kept by ids and names, with stations of any call history', HIST, ['mt_metadata/timeseries/experiment.py:Experiment.to_dict', 'mt_metadata/timeseries/experiment.py:Experiment.from_dict', 'mt_metadata/timeseries/survey.py:Survey.validate_stations', 'mt_metadata/timeseries/station.py:Station.validate_runs', 'mt_metadata/timeseries/run.py:Run.validate_channels'])
p('C248', 'Filters of a survey are found by the channels',
  'A channel to which the filters of its survey are applied by name has the response of all of them, when the survey was given them as a list or as a dictionary by name.',
  'all lists of filters with distinct names', ALLIN, ['mt_metadata/timeseries/survey.py:Survey.validate_filters', 'mt_metadata/timeseries/channel.py:Channel.channel_response', 'mt_metadata/timeseries/filtered.py:AppliedFilter.validate_name'])
p('C249', 'Sorting an experiment',
  'sort() orders surveys, stations, runs and channels by id, and everything is found under its id as before; sort(inplace=False) leaves the experiment alone and returns such a copy.',
  'all experiments kept by ids and names, with stations of any call history', HIST, ['mt_metadata/timeseries/experiment.py:Experiment.sort'])
p('C250', 'Experiments from JSON',
  'from_json reads the file whose name it is given.',
  'all files, names and texts', ALLIN, ['mt_metadata/timeseries/experiment.py:Experiment.from_json', 'mt_metadata/base/metadata.py:MetadataBase.from_json'])
p('C251', 'Lists of runs after sorting',
  'After sort() the run_list of every station has the ids of its runs in their order.',
  'all experiments kept by ids and names, with stations of any call history', HIST, ['mt_metadata/timeseries/experiment.py:Experiment.sort', 'mt_metadata/timeseries/station.py:Station.validate_run_list'])
p('C252', 'Renaming channels',
  'After channels of a run have been given other names, distinct ones, and update_channel_keys() was called, the run has these channels under their new names, whatever attribute of the run is assigned next.',
  'all call histories of a run and all distinct new names', HIST, ['mt_metadata/timeseries/run.py:Run.update_channel_keys', 'mt_metadata/common/list_dict.py:ListDict.update_keys', 'mt_metadata/timeseries/run.py:Run.validate_channels_recorded'])
p('C253', 'Renaming runs',
  'After runs of a station have been given other ids, distinct ones, and update_run_keys() was called, the station has these runs under their new ids in the same order; when the next attribute is assigned, the list of runs has the new ids and channels_recorded is what it was.',
  'all call histories of a station whose channels_recorded is up to date, and all distinct new ids', HIST, ['mt_metadata/timeseries/station.py:Station.update_run_keys', 'mt_metadata/common/list_dict.py:ListDict.update_keys', 'mt_metadata/timeseries/station.py:Station.validate_run_list'])
p('C254', 'A survey given to a new TF',
  'A new TF that is given a survey has its stations, each with the time period that covers its runs, in the same order and nothing else; station_metadata is the first one.',
  'all surveys made by calls, with stations of any call history, none of which is named 0', HIST, ['mt_metadata/transfer_functions/core.py:TF.survey_metadata', 'mt_metadata/transfer_functions/core.py:TF._initialize_metadata'])
p('C255', 'A survey given to any TF',
  'Whatever a TF had before, after it is given a survey its station_metadata is the first station of that survey.',
  'all sequences of assignments to a TF and all surveys made by calls', HIST, ['mt_metadata/transfer_functions/core.py:TF.survey_metadata', 'mt_metadata/transfer_functions/core.py:TF.station_metadata'])
p('C256', 'A station given to a TF',
  'After a TF is given a station, the runs of its station_metadata are those of the given station.',
  'all sequences of assignments to a TF and all stations of any call history', HIST, ['mt_metadata/transfer_functions/core.py:TF.station_metadata', 'mt_metadata/transfer_functions/core.py:TF._add_channels'])
p('C257', 'Metadata of files read by a new TF',
  "A new TF that reads a file has the station of the file with its runs: the stations of the file's survey for EDI, J and AVG files, the first one for EMTF XML files, the only one for Z files.",
  'all surveys and stations that files can give', HIST, ['mt_metadata/transfer_functions/core.py:TF.from_edi', 'mt_metadata/transfer_functions/core.py:TF.from_jfile', 'mt_metadata/transfer_functions/core.py:TF.from_avg', 'mt_metadata/transfer_functions/core.py:TF.from_emtfxml', 'mt_metadata/transfer_functions/core.py:TF.from_zmm'])
p('C258', 'Naming the station of a TF',
  'After tf.station = name the survey of the TF has a station of that name.',
  'all sequences of assignments to a TF and all names', HIST, ['mt_metadata/transfer_functions/core.py:TF.station', 'mt_metadata/timeseries/survey.py:Survey.has_station'])
p('C259', 'A run given to a TF',
  'After a TF is given a run, run_metadata is that run.',
  'all sequences of assignments to a TF and all runs of any call history', HIST, ['mt_metadata/transfer_functions/core.py:TF.run_metadata'])
p('C260', 'Lower and upper bounds of the bands of a level belong together',
  'Taking lower_bounds and upper_bounds of a decimation level side by side gives the index ranges of its bands, in some order.',
  'all lists of bands with indices', ALLIN, ['mt_metadata/processing/aurora/decimation_level.py:DecimationLevel.lower_bounds', 'mt_metadata/processing/aurora/decimation_level.py:DecimationLevel.upper_bounds'])
p('C261', 'The data frame of the bands of a level',
  'bands_dataframe has one row for each band, with the indices and frequencies of that band and its level counted from 1, by rising lower index, bands without index last; band_edges has the frequencies of the same rows. A band without decimation level gives a TypeError.',
  'all lists of bands and all ways of sorting equal rows', ALLIN, ['mt_metadata/processing/aurora/decimation_level.py:DecimationLevel.bands_dataframe', 'mt_metadata/processing/aurora/decimation_level.py:DecimationLevel.band_edges', 'mt_metadata/processing/aurora/decimation_level.py:_df_from_bands'])
p('C262', 'Harmonic indices of a level',
  'harmonic_indices is in rising order and lists each index once for every band that has it between its bounds, so once in all if the bands share none.',
  'all lists of bands', ALLIN, ['mt_metadata/processing/aurora/decimation_level.py:DecimationLevel.harmonic_indices'])
p('C263', 'Bands on the frequencies of a level',
  'fft_frequencies are the multiples of frequency_sample_interval below half the window length. If bands that do not overlap take their indices from increasing frequencies, band_edges rise, lower_bounds and upper_bounds belong together, and harmonic_indices are those of the frequencies inside bands, once each.',
  'all sample rates, window lengths, increasing frequencies and lists of bands that do not overlap', ALLIN, ['mt_metadata/processing/aurora/decimation_level.py:DecimationLevel.fft_frequencies', 'mt_metadata/processing/aurora/decimation_level.py:DecimationLevel.frequency_sample_interval', 'mt_metadata/processing/aurora/decimation_level.py:DecimationLevel.band_edges', 'mt_metadata/processing/aurora/decimation_level.py:DecimationLevel.harmonic_indices', 'mt_metadata/common/band.py:Band.set_indices_from_frequencies'])
p('C264', 'Giving bands to a level',
  'bands accepts a band, a dictionary of a band, or a list of these, keeps the order, and refuses everything else; adding the entries of a list one by one gives the same as assigning the list.',
  'all values', ALLIN, ['mt_metadata/processing/aurora/decimation_level.py:DecimationLevel.validate_bands', 'mt_metadata/processing/aurora/decimation_level.py:DecimationLevel.add_band', 'mt_metadata/helper_functions.py:validate_setter_input', 'mt_metadata/helper_functions.py:cast_to_class_if_dict'])
p('C265', 'Filters survive JSON',
  'A filter written with to_json and read with from_json into a new filter of its class has the same arrays (poles, zeros, coefficients, frequencies, amplitudes, phases).',
  'all filters and all arrays', ALLIN, ['mt_metadata/base/metadata.py:MetadataBase.to_json', 'mt_metadata/base/metadata.py:MetadataBase.from_json', 'mt_metadata/base/metadata.py:MetadataBase.update_attribute', 'mt_metadata/base/helpers.py:NumpyEncoder', 'mt_metadata/base/helpers.py:flatten_dict', 'mt_metadata/timeseries/filters/pole_zero_filter.py:PoleZeroFilter'])
p('C266', 'Filters can be written to XML',
  'to_xml of any filter succeeds and has an element for each written field.',
  'all filters', ALLIN, ['mt_metadata/base/metadata.py:MetadataBase.to_xml', 'mt_metadata/base/helpers.py:dict_to_xml', 'mt_metadata/base/helpers.py:recursive_split_xml'])
p('C267', 'Texts of number lists are read as those numbers',
  'extract_numbers finds exactly the numbers in a text of numbers with a fraction, an exponent, a sign or a bare point, in order, whatever other characters stand between them; object_to_array gives the array of those numbers, an empty array for an empty text, and a TypeError for a text without numbers.',
  'all numbers of any length, all separators without digits, signs, points and letters e', ALLIN, ['mt_metadata/base/helpers.py:extract_numbers', 'mt_metadata/base/helpers.py:object_to_array', 'mt_metadata/base/helpers.py:has_numbers', 'mt_metadata/base/helpers.py:is_numeric_string'])
p('C268', 'Texts of complex numbers are read as complex numbers',
  'Given the text of a complex number as poles or zeros, object_to_array gives that complex number.',
  'all real and imaginary parts', ALLIN, ['mt_metadata/base/helpers.py:object_to_array', 'mt_metadata/base/helpers.py:extract_numbers', 'mt_metadata/timeseries/filters/pole_zero_filter.py:PoleZeroFilter.validate_input_arrays'])
p('C269', 'Round numbers as numpy prints them are read as one number',
  'A number printed as digits, a bare point and an exponent is read as one number.',
  'all digits and exponents', ALLIN, ['mt_metadata/base/helpers.py:extract_numbers', 'mt_metadata/base/helpers.py:object_to_array'])
p('C270', 'A site survives an EMTF XML file',
  'Site metadata written to an EMTF XML file and read back have the same texts (up to escaping), position, declination, orientation, times, runs, data quality notes and comments.',
  'all sites their class admits', ALLIN, ['mt_metadata/transfer_functions/io/emtfxml/metadata/site.py:Site.to_xml', 'mt_metadata/transfer_functions/io/emtfxml/metadata/site.py:Site.read_dict', 'mt_metadata/transfer_functions/io/emtfxml/metadata/location.py:Location.to_xml', 'mt_metadata/transfer_functions/io/emtfxml/metadata/orientation.py:Orientation.to_xml', 'mt_metadata/transfer_functions/io/emtfxml/metadata/orientation.py:Orientation.read_dict', 'mt_metadata/transfer_functions/io/emtfxml/metadata/data_quality_notes.py:DataQualityNotes.read_dict', 'mt_metadata/transfer_functions/io/emtfxml/metadata/data_quality_warnings.py:DataQualityWarnings.read_dict', 'mt_metadata/transfer_functions/io/emtfxml/metadata/helpers.py:to_xml'])
p('C271', 'Run lists survive an EMTF XML file',
  'The list of runs of a site is the same after writing and reading.',
  'all lists of names of runs', ALLIN, ['mt_metadata/transfer_functions/io/emtfxml/metadata/site.py:Site.validate_run_list', 'mt_metadata/transfer_functions/io/emtfxml/metadata/helpers.py:to_xml', 'mt_metadata/transfer_functions/io/emtfxml/emtfxml.py:EMTFXML.read'])
p('C272', 'A site element may have further children',
  'A Site element with a child the library does not know, or with empty comments, can be read; what is known is read.',
  'all Site elements', ALLIN, ['mt_metadata/transfer_functions/io/emtfxml/metadata/site.py:Site.read_dict', 'mt_metadata/transfer_functions/io/emtfxml/metadata/data_quality_notes.py:DataQualityNotes.read_dict', 'mt_metadata/transfer_functions/io/emtfxml/emtfxml.py:EMTFXML.read'])
p('C273', 'Writing and reading a site again changes nothing more',
  'From the second writing and reading on, the site of an EMTF XML file is exactly the same.',
  'all sites their class admits whose runs have names without blanks, commas, brackets and escaped characters', ALLIN, ['mt_metadata/transfer_functions/io/emtfxml/metadata/site.py:Site.to_xml', 'mt_metadata/transfer_functions/io/emtfxml/metadata/site.py:Site.read_dict', 'mt_metadata/transfer_functions/io/emtfxml/metadata/helpers.py:_write_single', 'mt_metadata/transfer_functions/io/emtfxml/metadata/helpers.py:_remove_null_values', 'mt_metadata/transfer_functions/io/emtfxml/emtfxml.py:EMTFXML.write', 'mt_metadata/transfer_functions/io/emtfxml/emtfxml.py:EMTFXML.read'])
p('C274', 'Reading a second EMTF XML file gives its site',
  'After an EMTF XML object has read one file, reading another gives the site that a new object would read from it.',
  'all pairs of sites their class admits, and all sites that an object may hold', HIST, ['mt_metadata/transfer_functions/io/emtfxml/metadata/site.py:Site.read_dict', 'mt_metadata/transfer_functions/io/emtfxml/metadata/orientation.py:Orientation.read_dict', 'mt_metadata/transfer_functions/io/emtfxml/metadata/data_quality_notes.py:DataQualityNotes.read_dict', 'mt_metadata/transfer_functions/io/emtfxml/metadata/data_quality_warnings.py:DataQualityWarnings.read_dict', 'mt_metadata/transfer_functions/io/emtfxml/emtfxml.py:EMTFXML.read'])
p('C275', 'The attachments are those of the file read last',
  'After reading an EMTF XML file the object has the attachments of that file, and writes these, whatever files it has read before.',
  'all attachments and all sequences of files', HIST, ['mt_metadata/transfer_functions/io/emtfxml/metadata/attachment.py:Attachment.read_dict', 'mt_metadata/transfer_functions/io/emtfxml/metadata/attachment.py:Attachment.to_xml', 'mt_metadata/transfer_functions/io/emtfxml/emtfxml.py:EMTFXML.read'])
p('C276', 'What is written does not depend on earlier writes',
  'An EMTF XML file written from an object has the remote site if it has an identifier, and the remote field notes unless they are to be skipped, whatever has been written before.',
  'all sequences of writes with any changes in between', HIST, ['mt_metadata/transfer_functions/io/emtfxml/emtfxml.py:EMTFXML.write', 'mt_metadata/transfer_functions/io/emtfxml/metadata/remote_info.py:RemoteInfo.to_xml'])
p('C277', 'Processing information survives an EMTF XML file',
  'Processing information written to an EMTF XML file and read back has the same remote reference, remote site, remote field notes, software, people, date and tag.',
  'all processing information its classes admit, and all objects it is read into', ALLIN, ['mt_metadata/transfer_functions/io/emtfxml/metadata/processing_info.py:ProcessingInfo.to_xml', 'mt_metadata/transfer_functions/io/emtfxml/metadata/processing_info.py:ProcessingInfo.read_dict', 'mt_metadata/transfer_functions/io/emtfxml/metadata/remote_info.py:RemoteInfo.read_dict', 'mt_metadata/transfer_functions/io/emtfxml/metadata/remote_ref.py:RemoteRef.to_xml', 'mt_metadata/transfer_functions/io/emtfxml/metadata/software.py:ProcessingSoftware.to_xml', 'mt_metadata/transfer_functions/io/emtfxml/metadata/field_notes.py:FieldNotes.read_dict'])
p('C278', 'A directory of MT XML files is sorted completely',
  'sort_by_station puts every channel file of a directory below the run and station it is named after, runs in the order of their names, and nothing else.',
  'all lists of files and all selections of stations', ALLIN, ['mt_metadata/timeseries/tools/from_many_mt_files.py:MT2StationXML.sort_by_station', 'mt_metadata/timeseries/tools/from_many_mt_files.py:MT2StationXML._get_runs', 'mt_metadata/timeseries/tools/from_many_mt_files.py:MT2StationXML._get_channels', 'mt_metadata/timeseries/tools/from_many_mt_files.py:MT2StationXML.make_df'])
p('C279', 'An experiment can be made of a sorted directory',
  'make_experiment returns an experiment for every directory whose files sort_by_station can sort.',
  'all lists of files and all selections of stations', ALLIN, ['mt_metadata/timeseries/tools/from_many_mt_files.py:MT2StationXML.make_experiment', 'mt_metadata/timeseries/tools/from_many_mt_files.py:MT2StationXML._make_survey', 'mt_metadata/timeseries/tools/from_many_mt_files.py:MT2StationXML._make_station', 'mt_metadata/timeseries/tools/from_many_mt_files.py:MT2StationXML._make_run', 'mt_metadata/timeseries/tools/from_many_mt_files.py:MT2StationXML._make_channel', 'mt_metadata/timeseries/channel.py:Channel.from_dict'])
p('C280', 'Selected stations of a directory',
  'sort_by_station with a list of stations returns these stations in the order of the list with the files they have without a selection, raises an index error if one of them has no file, and treats an empty list as no selection.',
  'all lists of files and all selections of stations', ALLIN, ['mt_metadata/timeseries/tools/from_many_mt_files.py:MT2StationXML.sort_by_station', 'mt_metadata/timeseries/tools/from_many_mt_files.py:MT2StationXML.stations', 'mt_metadata/timeseries/tools/from_many_mt_files.py:MT2StationXML.is_a_station_xml'])
p('C281', 'Every station file of a directory is used once',
  'sort_by_station without a selection returns one station for every station file, from this file.',
  'all lists of different files in any directories', ALLIN, ['mt_metadata/timeseries/tools/from_many_mt_files.py:MT2StationXML.sort_by_station', 'mt_metadata/timeseries/tools/from_many_mt_files.py:MT2StationXML.stations'])
p('C282', 'A station survives StationXML',
  'A station translated to a StationXML station (mt_to_xml) and back (xml_to_mt) is the same station: names, place, comments, period, persons, orientation, declination, software and runs.',
  'all stations whose runs have distinct admitted names', ALLIN, ['mt_metadata/timeseries/stationxml/xml_station_mt_station.py:XMLStationMTStation.mt_to_xml', 'mt_metadata/timeseries/stationxml/xml_station_mt_station.py:XMLStationMTStation.xml_to_mt', 'mt_metadata/timeseries/stationxml/utils.py:BaseTranslator.make_mt_comments', 'mt_metadata/timeseries/stationxml/utils.py:BaseTranslator.read_xml_comment'])
p('C283', 'Translating a station to StationXML leaves it unchanged',
  'mt_to_xml does not change the station it is given.',
  'all stations', HIST, ['mt_metadata/timeseries/stationxml/xml_station_mt_station.py:XMLStationMTStation.mt_to_xml'])
p('C284', 'The runs of a station survive StationXML',
  'The runs of a station (names, times, what is in their equipment, and their order) and its list of runs come back from StationXML, for runs with distinct names of letters, digits and underscores that are not words for nothing; a station whose only run is called by such a word (none, null, ...) cannot be read.',
  'all stations with any number of such runs, whatever the period of the station and of the runs', ALLIN, ['mt_metadata/timeseries/stationxml/xml_station_mt_station.py:XMLStationMTStation._equipments_to_runs', 'mt_metadata/timeseries/stationxml/xml_station_mt_station.py:XMLStationMTStation.xml_to_mt', 'mt_metadata/timeseries/stationxml/xml_equipment_mt_run.py:XMLEquipmentMTRun.mt_to_xml', 'mt_metadata/timeseries/stationxml/xml_equipment_mt_run.py:XMLEquipmentMTRun.xml_to_mt', 'mt_metadata/timeseries/station.py:Station.add_run', 'mt_metadata/timeseries/station.py:Station.validate_runs_and_channels_recorded'])
p('C285', 'A survey survives StationXML',
  'A survey translated to a StationXML network (mt_to_xml) and back (xml_to_mt) is the same survey: names, comments, summary, places, dates, licence, citation and persons.',
  'all surveys whose texts have no colon', ALLIN, ['mt_metadata/timeseries/stationxml/xml_network_mt_survey.py:XMLNetworkMTSurvey.mt_to_xml', 'mt_metadata/timeseries/stationxml/xml_network_mt_survey.py:XMLNetworkMTSurvey.xml_to_mt', 'mt_metadata/timeseries/stationxml/utils.py:BaseTranslator.make_mt_comments'])
p('C286', 'The DOI of a dataset survives StationXML',
  'The DOI of the dataset of a survey (citation_dataset.doi) is the same after the survey was translated to a network and back, also if there is none.',
  'all surveys and any number of translations', HIST, ['mt_metadata/timeseries/stationxml/xml_network_mt_survey.py:XMLNetworkMTSurvey.mt_to_xml', 'mt_metadata/timeseries/stationxml/xml_network_mt_survey.py:XMLNetworkMTSurvey.xml_to_mt', 'mt_metadata/timeseries/stationxml/utils.py:BaseTranslator.read_xml_identifier', 'mt_metadata/utils/validators.py:validate_doi'])
p('C287', 'Networks made from surveys can be read',
  'xml_to_mt accepts every network that mt_to_xml has made from a survey.',
  'all surveys', ALLIN, ['mt_metadata/timeseries/stationxml/xml_network_mt_survey.py:XMLNetworkMTSurvey.mt_to_xml', 'mt_metadata/timeseries/stationxml/xml_network_mt_survey.py:XMLNetworkMTSurvey.xml_to_mt', 'mt_metadata/timeseries/stationxml/utils.py:BaseTranslator.read_xml_comment'])
p('C288', 'The code given to mt_to_xml is used',
  'mt_to_xml(survey, code) returns a network with the given code if the survey has no network code of its own.',
  'all surveys and codes', ALLIN, ['mt_metadata/timeseries/stationxml/xml_network_mt_survey.py:XMLNetworkMTSurvey.mt_to_xml'])
p('C289', 'Assigning a part of a time changes this part only',
  'Assigning year, month, day, hour, minutes, seconds, microseconds or nanoseconds of an MTime gives this part the value and leaves the other parts, the zone and gps_time as they are; it raises ValueError exactly if there is no such time.',
  'all times within 64 bits, all offsets below a day, all parts and integers', ALLIN, ['mt_metadata/common/mttime.py:MTime.year', 'mt_metadata/common/mttime.py:MTime.month', 'mt_metadata/common/mttime.py:MTime.day', 'mt_metadata/common/mttime.py:MTime.hour', 'mt_metadata/common/mttime.py:MTime.minutes', 'mt_metadata/common/mttime.py:MTime.seconds', 'mt_metadata/common/mttime.py:MTime.microseconds', 'mt_metadata/common/mttime.py:MTime.nanoseconds'])
p('C290', 'A date can be assigned part by part',
  'Assigning year, month and day of an existing date to an MTime, one after the other, gives this date at the same time of day.',
  'all UTC times and all dates of the years 1678 to 2261', ALLIN, ['mt_metadata/common/mttime.py:MTime.year', 'mt_metadata/common/mttime.py:MTime.month', 'mt_metadata/common/mttime.py:MTime.day'])
p('C291', 'Filters of a channel survive dictionaries',
  'A new channel read with from_dict from to_dict of another has the same applied filters, with names, order, stages and applied flags.',
  'all lists of applied filters with a name', ALLIN, ['mt_metadata/timeseries/channel.py:ChannelBase.from_dict', 'mt_metadata/timeseries/channel.py:ChannelBase.add_filter', 'mt_metadata/timeseries/filtered.py:AppliedFilter', 'mt_metadata/base/metadata.py:MetadataBase.to_dict'])
p('C292', 'from_dict adds to the filters of a channel',
  'Reading a dictionary into a channel that has filters keeps each of them unchanged.',
  'all channels and dictionaries, in the three formats', ALLIN, ['mt_metadata/timeseries/channel.py:ChannelBase.from_dict', 'mt_metadata/timeseries/channel.py:ChannelBase.add_filter', 'mt_metadata/timeseries/channel.py:ChannelBase.parse_filters_string'])
p('C293', 'Reading a dictionary of a channel again changes no filters',
  'from_dict of the dictionary just read leaves the filters of the channel as they are.',
  'all channels and dictionaries, in the three formats', HIST, ['mt_metadata/timeseries/channel.py:ChannelBase.from_dict', 'mt_metadata/timeseries/channel.py:ChannelBase.add_filter', 'mt_metadata/timeseries/channel.py:ChannelBase._validate_filtered_name'])
p('C294', 'The filters of a dictionary can be assigned',
  'The list filters of to_dict of a channel, assigned to filters of a channel or given to a new one, gives these filters ordered by stage; likewise as text.',
  'all lists of applied filters with a name', ALLIN, ['mt_metadata/timeseries/channel.py:ChannelBase.parse_filters_string', 'mt_metadata/timeseries/channel.py:ChannelBase.validate_filters'])
p('C295', 'Old names and values of filters are read',
  'filtered.name and filtered.applied (or filter.name and filter.applied), as lists or as texts, give a new channel filters with these names and values in this order, numbered from one.',
  'all lists of names and values with different names that are not blank', ALLIN, ['mt_metadata/timeseries/channel.py:ChannelBase.from_dict', 'mt_metadata/timeseries/channel.py:ChannelBase._validate_filtered_applied', 'mt_metadata/timeseries/channel.py:ChannelBase._validate_filtered_name', 'mt_metadata/timeseries/channel.py:ChannelBase.add_filter'])
p('C296', 'One value of applied is used for all names',
  'If filtered.applied has one entry it applies to all filters listed in filtered.name, as the standard says.',
  'all lists of names and both values', ALLIN, ['mt_metadata/timeseries/channel.py:ChannelBase.from_dict', 'mt_metadata/standards/timeseries/filtered.json'])
p('C297', 'Coherence of Fourier coefficients is a coherence',
  'FCCoherence.compute gives for each frequency |Σxȳ|²/(Σ|x|²Σ|y|²) over the windows, a number between 0 and 1, the same for exchanged channels and for channels multiplied by any complex factors, 1 for channels that are multiples of each other (so for any single window) and 0 exactly if the cross power is zero.',
  'all numbers of windows and frequencies and all complex coefficients, in exact arithmetic', 'The set of arrays is infinite and the bound is an inequality (Cauchy and Schwarz) that a test can only sample.', ['mt_metadata/features/fc_coherence.py:FCCoherence.compute'])
p('C298', 'Striding windows cover the series',
  'StridingWindowCoherence.compute on a series with at least one window gives one row for each window that fits, the k-th from the samples from k times the advance on, all windows full, no sample between them left out, and fewer samples than an advance left at the end.',
  'all series, windows with a smaller overlap, functions for the coherence, and both modes', ALLIN, ['mt_metadata/features/striding_window_coherence.py:StridingWindowCoherence.compute', 'mt_metadata/processing/window.py:Window.num_samples_advance'])
p('C299', 'Parallel and sequential computation agree',
  'StridingWindowCoherence.compute gives the same result for parallel=True and parallel=False.',
  'all series of equal length, windows, and functions for the coherence whose frequencies depend on the lengths only', ALLIN, ['mt_metadata/features/striding_window_coherence.py:StridingWindowCoherence.compute', 'mt_metadata/features/striding_window_coherence.py:_process_coherence_segment'])
p('C300', 'The sub-window is part of the window',
  'set_subwindow_from_window with a fraction up to one makes a sub-window with samples, no more than the window has, and a smaller overlap.',
  'all windows and fractions', ALLIN, ['mt_metadata/features/striding_window_coherence.py:StridingWindowCoherence.set_subwindow_from_window'])
p('C301', 'The channels of a coherence get stations that take part',
  'After validate_station_ids(local, remote) station_1 and station_2 are each the local or the remote station.',
  'all pairs of channels with or without stations, all local and remote ids', ALLIN, ['mt_metadata/features/coherence.py:Coherence.validate_station_ids'])
p('C302', 'Stations of a coherence are settled once',
  'validate_station_ids keeps a station that takes part, replaces any other by the remote one for a channel beginning with r and by the local one otherwise, keeps the channels, and changes nothing when called again.',
  'all pairs of channels with or without stations, all local and remote ids', HIST, ['mt_metadata/features/coherence.py:Coherence.validate_station_ids'])
p('C303', 'A described feature has the class of its name',
  'The feature of a FeatureWeightSpec given as a dictionary, wrapped in any number of dictionaries under feature, is of the class its name tells, a plain Feature for any other name.',
  'all depths of wrapping, with any names outside, and all names', ALLIN, ['mt_metadata/features/weights/feature_weight_spec.py:FeatureWeightSpec.pre_process_feature', 'mt_metadata/features/weights/feature_weight_spec.py:FeatureWeightSpec.validate_feature'])
p('C304', 'A feature object keeps its class',
  'A Feature object given to a FeatureWeightSpec, wrapped in any number of dictionaries under feature, keeps its class.',
  'all depths of wrapping and all classes', ALLIN, ['mt_metadata/features/weights/feature_weight_spec.py:FeatureWeightSpec.pre_process_feature', 'mt_metadata/features/weights/feature_weight_spec.py:FeatureWeightSpec.validate_feature'])
p('C305', 'Remote stations are marked',
  'Every station assigned to Stations.remote is marked as remote.',
  'all values assigned: lists, single stations, dictionaries, texts', ALLIN, ['mt_metadata/processing/aurora/stations.py:Stations.validate_remote'])
p('C306', 'No remote reference without a remote station',
  'After validate_processing without an error, if there is no remote station no decimation level uses RME_RR; the levels stay and only RME_RR is ever changed, to RME.',
  'all configurations and data frames', ALLIN, ['mt_metadata/processing/aurora/processing.py:Processing.validate_processing', 'mt_metadata/processing/aurora/stations.py:Stations.from_dataset_dataframe'])
p('C307', 'With a remote station the engines are kept',
  'If there is a remote station after validate_processing the engines of the levels are as before.',
  'all configurations and data frames', ALLIN, ['mt_metadata/processing/aurora/processing.py:Processing.validate_processing', 'mt_metadata/processing/aurora/stations.py:Stations.from_dataset_dataframe'])
p('C308', 'An updated attribute is read back',
  'update_attribute(name, value) with a dotted name succeeds exactly if the object that holds the attribute is there and the value is accepted, and then get_attr_from_name(name) gives what was stored; a value not accepted raises.',
  'all objects, dotted names of any depth, values and rules of validation', ALLIN, ['mt_metadata/base/metadata.py:DotNotationBaseModel.update_attribute', 'mt_metadata/base/metadata.py:MetadataBase.get_attr_from_name', 'mt_metadata/base/helpers.py:recursive_split_getattr'])
p('C309', 'Updating an attribute leaves the others',
  'After update_attribute(name, value) get_attr_from_name of any other name gives the same as before, unless one name is the beginning of the other.',
  'all objects, pairs of names and values', ALLIN, ['mt_metadata/base/metadata.py:DotNotationBaseModel.update_attribute', 'mt_metadata/base/metadata.py:MetadataBase.get_attr_from_name'])
p('C310', 'update_attribute raises for names that do not exist',
  'update_attribute raises AttributeError if the attribute path does not exist, as its description says.',
  'all objects and names', ALLIN, ['mt_metadata/base/metadata.py:DotNotationBaseModel.update_attribute'])
p('C311', 'get_attr_from_name raises for names that do not exist',
  'get_attr_from_name raises KeyError or AttributeError if the attribute is not found, as its description says.',
  'all objects and names', ALLIN, ['mt_metadata/base/metadata.py:MetadataBase.get_attr_from_name', 'mt_metadata/base/helpers.py:recursive_split_getattr'])
p('C312', 'set_attr_from_name sets',
  'set_attr_from_name(name, value) does what update_attribute(name, value) does.',
  'all objects, names and values', ALLIN, ['mt_metadata/base/metadata.py:MetadataBase.set_attr_from_name', 'mt_metadata/base/helpers.py:recursive_split_setattr'])
p('C313', 'Names may have other separators',
  'recursive_split_getattr(object, name, sep) finds the attribute whose parts are separated by sep.',
  'all objects, separators and names without dots', ALLIN, ['mt_metadata/base/helpers.py:recursive_split_getattr', 'mt_metadata/base/helpers.py:recursive_split_setattr'])
p('C314', 'Electrodes survive an EDI measurement',
  'The electric channel read from the EDI measurement made of a channel has its component, electrode coordinates and channel number, whatever the information section says about other attributes.',
  'all electric channels of which a measurement is made and all information sections', ALLIN, ['mt_metadata/transfer_functions/io/edi/metadata/define_measurement.py:DefineMeasurement.from_metadata', 'mt_metadata/transfer_functions/io/edi/edi.py:EDI._get_electric_metadata'])
p('C315', 'EDI dipoles have the length and direction of their electrodes',
  'An electric channel read from an EDI file without information about it has as dipole length the distance between its electrodes and as azimuth (in (-180, 180] degrees) the direction from the negative to the positive electrode.',
  'all electric channels of which a measurement is made', ALLIN, ['mt_metadata/transfer_functions/io/edi/metadata/emeasurement.py:EMeasurement.dipole_length', 'mt_metadata/transfer_functions/io/edi/metadata/emeasurement.py:EMeasurement.azimuth', 'mt_metadata/transfer_functions/io/edi/edi.py:EDI._get_electric_metadata'])
p('C316', 'Electric channels keep their azimuths in EDI files',
  'An electric channel read from the file written of it has the measured azimuth, translated azimuth, dipole length and number it had.',
  'all electric channels of which a measurement is made', ALLIN, ['mt_metadata/transfer_functions/io/edi/metadata/define_measurement.py:DefineMeasurement.from_metadata', 'mt_metadata/transfer_functions/io/edi/edi.py:EDI._get_electric_metadata'])
p('C317', 'Magnetic channels keep place, azimuth and tilt in EDI files',
  'A magnetic channel read from the file written of it has the location, measured azimuth and tilt it had.',
  'all magnetic channels of which a measurement is made', ALLIN, ['mt_metadata/transfer_functions/io/edi/metadata/define_measurement.py:DefineMeasurement.from_metadata', 'mt_metadata/transfer_functions/io/edi/edi.py:EDI._get_magnetic_metadata'])
p('C318', 'Making an EDI measurement leaves the channel alone',
  'DefineMeasurement.from_metadata(channel) does not change the channel.',
  'all channels', ALLIN, ['mt_metadata/transfer_functions/io/edi/metadata/define_measurement.py:DefineMeasurement.from_metadata'])
p('C319', 'EDI measurements are made of every channel',
  'DefineMeasurement.from_metadata accepts every channel, and makes a measurement of each electric or magnetic one.',
  'all channels', ALLIN, ['mt_metadata/transfer_functions/io/edi/metadata/define_measurement.py:DefineMeasurement.from_metadata'])
p('C320', 'Differences of dates are days',
  'For an MDate d, (d + n) - d is n days.',
  'all dates inside the range of times and all whole numbers of days', ALLIN, ['mt_metadata/common/mttime.py:MDate.__sub__', 'mt_metadata/common/mttime.py:MDate.__add__', 'mt_metadata/common/mttime.py:parse'])
p('C321', 'Adding days moves the calendar',
  'For an MDate d, d + n shows the date n days later on the calendar, keeps zone and time of day, and (d + n) - n is d.',
  'all dates inside the range of times, all zones and all whole numbers of days', ALLIN, ['mt_metadata/common/mttime.py:MDate.__add__', 'mt_metadata/common/mttime.py:MDate.__sub__', 'mt_metadata/common/mttime.py:MTime.isodate'])
p('C322', 'Dates survive their dictionaries',
  'MDate(time_stamp=d.to_dict()) equals d.',
  'all dates inside the range of times', ALLIN, ['mt_metadata/common/mttime.py:MDate.to_dict', 'mt_metadata/common/mttime.py:MTime.__eq__'])
p('C323', 'Comments about electrodes reach their dipole',
  'When the comments of an EMTF XML file tell the manufacturer or azimuth of an electrode, the dipole of that name in the first run has it afterwards.',
  'all field notes, names and values', ALLIN, ['mt_metadata/transfer_functions/io/emtfxml/emtfxml.py:EMTFXML._parse_comments_electric'])
p('C324', 'Comments about magnetometers reach their magnetometer',
  'When the comments tell the manufacturer, azimuth, type or channel number of a magnetometer, the magnetometer of that name in the first run has it afterwards.',
  'all field notes, names and values', ALLIN, ['mt_metadata/transfer_functions/io/emtfxml/emtfxml.py:EMTFXML._parse_comments_magnetic'])
p('C325', 'Comments place magnetometers',
  'When the comments tell a coordinate of hx, hy or hz, the channel of that name in the site layout has it afterwards.',
  'all site layouts and values', ALLIN, ['mt_metadata/transfer_functions/io/emtfxml/emtfxml.py:EMTFXML._parse_comments_magnetic'])
p('C326', 'Comments place electrodes',
  'When the comments tell a coordinate of an electrode, the channel of that name in the site layout has it afterwards.',
  'all site layouts, names and values', ALLIN, ['mt_metadata/transfer_functions/io/emtfxml/emtfxml.py:EMTFXML._parse_comments_electric'])
p('C327', 'Dipoles survive StationXML',
  'The length of a dipole and the id, manufacturer and model of both electrodes are the same after the sensor of the channel is written to StationXML and read.',
  'all lengths and all electrodes with clean ids', ALLIN, ['mt_metadata/timeseries/stationxml/xml_channel_mt_channel.py:XMLChannelMTChannel._mt_to_sensor', 'mt_metadata/timeseries/stationxml/xml_channel_mt_channel.py:XMLChannelMTChannel._sensor_to_mt', 'mt_metadata/timeseries/stationxml/xml_channel_mt_channel.py:XMLChannelMTChannel._parse_dipole_length'])
p('C328', 'Magnetometers can be read from StationXML',
  'A magnetic channel whose sensor has a type can be read after it was written to StationXML, and the sensor has the same id, manufacturer and type.',
  'all sensors', ALLIN, ['mt_metadata/timeseries/stationxml/xml_channel_mt_channel.py:XMLChannelMTChannel._mt_to_sensor', 'mt_metadata/timeseries/stationxml/xml_channel_mt_channel.py:XMLChannelMTChannel._sensor_to_mt', 'mt_metadata/timeseries/stationxml/xml_channel_mt_channel.py:XMLChannelMTChannel._deduce_sensor_type'])
p('C329', 'Auxiliary sensors survive StationXML',
  'The sensor of an auxiliary channel is the same after it was written to StationXML and read.',
  'all sensors that have a type', ALLIN, ['mt_metadata/timeseries/stationxml/xml_channel_mt_channel.py:XMLChannelMTChannel._mt_to_sensor', 'mt_metadata/timeseries/stationxml/xml_channel_mt_channel.py:XMLChannelMTChannel._sensor_to_mt'])
p('C330', 'Reading the same inventory again gives the same sensors',
  'Reading a channel may change the type of its sensor in the inventory, but reading it again gives the same channel.',
  'all sensors and channels', ALLIN, ['mt_metadata/timeseries/stationxml/xml_channel_mt_channel.py:XMLChannelMTChannel._sensor_to_mt', 'mt_metadata/timeseries/stationxml/xml_channel_mt_channel.py:XMLChannelMTChannel._deduce_sensor_type'])
p('C331', 'Dipoles without a length can be read',
  'A channel with a sensor of type dipole or electrode can be read from StationXML whatever the description of the sensor is.',
  'all sensors without serial number', ALLIN, ['mt_metadata/timeseries/stationxml/xml_channel_mt_channel.py:XMLChannelMTChannel._sensor_to_mt', 'mt_metadata/timeseries/stationxml/xml_channel_mt_channel.py:XMLChannelMTChannel._parse_dipole_length'])
p('C332', 'The normalisation frequency lies in the pass band',
  'The normalisation frequency a channel response finds for its filters and frequencies lies in their common pass band.',
  'all filters, frequencies and roundings to three decimals', ALLIN, ['mt_metadata/timeseries/filters/channel_response.py:ChannelResponse.validate_normalization_frequency', 'mt_metadata/timeseries/filters/channel_response.py:ChannelResponse.update_units_and_normalization_frequency_from_filters_list', 'mt_metadata/timeseries/filters/channel_response.py:ChannelResponse.pass_band'])
p('C333', 'The response of a channel has a normalisation frequency',
  'The response channel.channel_response makes from the filters of a survey has a positive normalisation frequency if the channel has filters.',
  'all dictionaries of filters and lists of names', ALLIN, ['mt_metadata/timeseries/channel.py:ChannelBase.channel_response', 'mt_metadata/timeseries/filters/channel_response.py:ChannelResponse.update_units_and_normalization_frequency_from_filters_list'])
p('C334', 'The normalisation frequency follows filters and frequencies',
  'After any assignments of filters and frequencies to a channel response its normalisation frequency is that of the pass band they have.',
  'all histories of assignments', HIST, ['mt_metadata/timeseries/filters/channel_response.py:ChannelResponse.update_units_and_normalization_frequency_from_filters_list', 'mt_metadata/timeseries/filters/channel_response.py:ChannelResponse.validate_normalization_frequency'])
p('C335', 'Validating descriptions twice',
  'validate_value_dict of a description that has been validated returns it unchanged.',
  'all dictionaries of nine parts, all values and all ways numbers are read', ALLIN, ['mt_metadata/utils/validators.py:validate_value_dict', 'mt_metadata/utils/validators.py:validate_default', 'mt_metadata/utils/validators.py:validate_value_type'])
p('C336', 'Required attributes get a default',
  'A required attribute described without a default is given one.',
  'all types, styles and options', ALLIN, ['mt_metadata/utils/validators.py:validate_default'])
p('C337', 'Defaults are kept',
  'A default that has the type of the attribute is kept by validate_value_dict.',
  'all descriptions and defaults', ALLIN, ['mt_metadata/utils/validators.py:validate_default', 'mt_metadata/utils/validators.py:validate_value_type'])
p('C338', 'Values get the type asked for',
  'validate_value_type returns a value of the type asked for, None, or a list of such values, or raises.',
  'all values, simple types and styles', ALLIN, ['mt_metadata/utils/validators.py:validate_value_type'])
p('C339', 'Options in a text are names',
  "validate_options and validate_alias of a text return names that are neither empty nor 'none', and find all names of a list that has been written with bars.",
  'all texts and lists of names', ALLIN, ['mt_metadata/utils/validators.py:validate_options', 'mt_metadata/utils/validators.py:validate_alias'])
p('C340', 'Attributes survive lines of CSV files',
  'An attribute written by BaseDict.to_csv and read by from_csv is the same.',
  'all descriptions and names', ALLIN, ['mt_metadata/base/schema.py:BaseDict.to_csv', 'mt_metadata/base/schema.py:BaseDict.from_csv'])
p('C341', 'Descriptions need nine parts in any order',
  'validate_value_dict accepts only dictionaries with exactly the nine keys, and the order of the keys does not matter.',
  'all dictionaries and their permutations', ALLIN, ['mt_metadata/utils/validators.py:validate_header', 'mt_metadata/utils/validators.py:validate_value_dict'])
p('C342', 'What a schema returns can be set',
  'b[k] = b[k] is accepted and changes nothing.',
  'all schemas and names, known and unknown', ALLIN, ['mt_metadata/base/schema.py:BaseDict.__getitem__', 'mt_metadata/base/schema.py:BaseDict.__setitem__'])
p('C343', 'Adding dictionaries',
  'add_dict adds every attribute asked for under the given name with a validated description, and changes no other attribute.',
  'all schemas, dictionaries, names and lists of keys', ALLIN, ['mt_metadata/base/schema.py:BaseDict.add_dict'])
p('C344', 'Schemas survive JSON files',
  'A schema written by to_json and read by from_json is the same.',
  'all schemas whose attributes were validated', ALLIN, ['mt_metadata/base/schema.py:BaseDict.to_json', 'mt_metadata/base/schema.py:BaseDict.from_json'])
p('C345', 'Hour 24 is midnight',
  "A time written with hour 24, MTime('YYYY-MM-DDT24:00:00'), is midnight of the next day.",
  'all dates, with and without a zone', ALLIN, ['mt_metadata/common/mttime.py:_parse_string', 'mt_metadata/common/mttime.py:_fix_out_of_bounds_time_stamp', 'mt_metadata/common/mttime.py:parse'])
p('C346', 'Hour 24 is only midnight',
  'Times written with hour 24 and minutes or seconds, like T24:30:00, are refused.',
  'all dates and times', ALLIN, ['mt_metadata/common/mttime.py:_parse_string', 'mt_metadata/common/mttime.py:parse'])
p('C347', 'Only dates are read as dates',
  'Texts YYYY-MM-DD whose numbers are no date of the calendar are refused.',
  'all numbers for year, month and day, all times and zones', ALLIN, ['mt_metadata/common/mttime.py:_parse_string', 'mt_metadata/common/mttime.py:parse'])
p('C348', 'Words for nothing',
  'The words documented as null values are read as 1980-01-01.',
  'all words', ALLIN, ['mt_metadata/common/mttime.py:_parse_string', 'mt_metadata/common/mttime.py:parse'])
p('C349', 'Times are as they are written',
  'A text YYYY-MM-DDThh:mm:ss with or without a zone is the instant that is written, in its zone, or the limit of times.',
  'all dates of the calendar, times of day and zones', ALLIN, ['mt_metadata/common/mttime.py:parse', 'mt_metadata/common/mttime.py:_check_timestamp'])
p('C350', 'Years of collection in EMTF XML files',
  'If the element YearCollected of a site has no text, the site read has no year; a range of years is its first year.',
  'all sites read from files, all texts', ALLIN, ['mt_metadata/transfer_functions/io/emtfxml/metadata/site.py:validate_year_collected', 'mt_metadata/transfer_functions/io/emtfxml/metadata/site.py:read_dict'])
p('C351', 'New objects have the standard names of channels',
  'TF() and ZMM() have the names ex, ey, hx, hy, hz whatever was done with other objects.',
  'all programs that make and use TF and ZMM objects and dictionaries of names', HIST, ['mt_metadata/transfer_functions/core.py:__init__', 'mt_metadata/transfer_functions/core.py:channel_nomenclature', 'mt_metadata/transfer_functions/io/zfiles/zmm.py:__init__', 'mt_metadata/transfer_functions/io/zfiles/zmm.py:channel_nomenclature'])
p('C352', 'Assigning names leaves the dictionary',
  'Assigning a dictionary to ZMM.channel_nomenclature does not change that dictionary.',
  'all programs, all dictionaries', HIST, ['mt_metadata/transfer_functions/io/zfiles/zmm.py:channel_nomenclature'])
p('C353', 'Names in use are those of the nomenclature',
  'The names that a TF or ZMM object uses for channels are those that its channel_nomenclature shows.',
  'all programs, all objects', HIST, ['mt_metadata/transfer_functions/core.py:channel_nomenclature', 'mt_metadata/transfer_functions/io/zfiles/zmm.py:channel_nomenclature'])
p('C354', 'Names that are refused change nothing',
  'Assigning an incomplete dictionary to TF.channel_nomenclature raises KeyError and leaves the object as it was.',
  'all programs, all dictionaries', HIST, ['mt_metadata/transfer_functions/core.py:channel_nomenclature'])
p('C355', 'New data sets have the names of the object',
  'The data set of a new TF has the names of the TF as coordinates, whatever templates other objects have left.',
  'all programs, all nomenclatures', HIST, ['mt_metadata/transfer_functions/core.py:__init__', 'mt_metadata/transfer_functions/core.py:_get_template_key', 'mt_metadata/transfer_functions/core.py:_initialize_transfer_function'])
p('C356', 'Data sets follow the names',
  'After names are assigned to a TF, its data set has them as coordinates.',
  'all programs without errors, all nomenclatures', HIST, ['mt_metadata/transfer_functions/core.py:channel_nomenclature', 'mt_metadata/transfer_functions/core.py:_initialize_transfer_function'])
p('C357', 'From names to components',
  'TF.inverse_channel_nomenclature gives for every name the component it stands for.',
  'all programs without errors, all nomenclatures of distinct names', HIST, ['mt_metadata/transfer_functions/core.py:inverse_channel_nomenclature'])
p('C358', 'Copies have their own names',
  'A copy of a TF has the same names and a dictionary of its own; names written to it are in no other object.',
  'all programs, all objects', HIST, ['mt_metadata/transfer_functions/core.py:copy', 'mt_metadata/transfer_functions/core.py:__deepcopy__', 'mt_metadata/transfer_functions/core.py:channel_nomenclature'])
p('C359', 'Forms of a DOI',
  'A DOI given alone (10.…), after doi: or as link https://doi.org/… is the same DOI.',
  'all texts that begin with 10.', ALLIN, ['mt_metadata/utils/validators.py:validate_doi'])
p('C360', 'Accepted DOIs are stable',
  'A DOI that is accepted is a link to doi.org or dx.doi.org, and is accepted again as it is; None and the empty text are no DOI, everything else raises ValueError.',
  'all texts and links', ALLIN, ['mt_metadata/utils/validators.py:validate_doi'])
p('C361', 'Written estimates can be read',
  'The list of statistical estimates in a file that has been written can be read, and is what was written.',
  'all lists of estimates, all data', ALLIN, ['mt_metadata/transfer_functions/io/emtfxml/metadata/statistical_estimates.py:read_dict', 'mt_metadata/transfer_functions/io/emtfxml/metadata/statistical_estimates.py:to_xml', 'mt_metadata/transfer_functions/io/emtfxml/metadata/estimate.py:to_xml', 'mt_metadata/transfer_functions/io/emtfxml/emtfxml.py:_get_statistical_estimates'])
p('C362', 'Written data types can be read',
  'The list of data types in a file that has been written can be read, and is what was written.',
  'all lists of data types, all data', ALLIN, ['mt_metadata/transfer_functions/io/emtfxml/metadata/data_types.py:read_dict', 'mt_metadata/transfer_functions/io/emtfxml/metadata/data_types.py:to_xml', 'mt_metadata/transfer_functions/io/emtfxml/metadata/data_type.py:to_xml', 'mt_metadata/transfer_functions/io/emtfxml/metadata/data_type.py:validate_units', 'mt_metadata/transfer_functions/io/emtfxml/emtfxml.py:_get_data_types'])
p('C363', 'Written copyrights can be read',
  'The copyright in a file that has been written can be read.',
  'all copyrights, all citations of surveys', ALLIN, ['mt_metadata/transfer_functions/io/emtfxml/metadata/copyright.py:read_dict', 'mt_metadata/transfer_functions/io/emtfxml/metadata/copyright.py:to_xml', 'mt_metadata/transfer_functions/io/emtfxml/metadata/citation.py:to_xml', 'mt_metadata/transfer_functions/io/emtfxml/emtfxml.py:survey_metadata'])
p('C364', 'Citations are read as they were written',
  'The citation read from a file is the one that was written.',
  'all copyrights', ALLIN, ['mt_metadata/transfer_functions/io/emtfxml/metadata/citation.py:to_xml', 'mt_metadata/transfer_functions/io/emtfxml/metadata/copyright.py:to_xml', 'mt_metadata/transfer_functions/io/emtfxml/metadata/copyright.py:read_dict'])
p('C365', 'Copyrights of files read one after another',
  'The copyright read from a file does not depend on what the object has read before.',
  'all copyrights, all earlier states', HIST, ['mt_metadata/transfer_functions/io/emtfxml/metadata/copyright.py:read_dict', 'mt_metadata/transfer_functions/io/emtfxml/metadata/helpers.py:_read_element'])
p('C366', 'Names of channels as texts, lists and arrays',
  'A list of channel names may be assigned to a run as a list, as a text with commas or as an array of numpy, with the same outcome.',
  'all lists of names without commas and blanks at their ends', ALLIN, ['mt_metadata/timeseries/run.py:Run.validate_list_of_strings'])
p('C367', 'Runs made with lists of names',
  'A run made with lists of electric, magnetic and auxiliary names has an (empty) channel for every name, of the class of its list.',
  'all lists of distinct names that the classes take', 'The existing tests give one of the three lists.', ['mt_metadata/timeseries/run.py:Run.validate_channels_recorded', 'mt_metadata/timeseries/run.py:Run._update_channels_recorded', 'mt_metadata/timeseries/run.py:Run.add_channel'])
p('C368', 'Lists of names after an assignment',
  'After names were assigned to channels_recorded_electric, _magnetic or _auxiliary of a run, the list has the names of the channels of its class.',
  'all call histories of a run, all lists of names that the class takes', HIST, ['mt_metadata/timeseries/run.py:Run.validate_channels_recorded', 'mt_metadata/timeseries/run.py:Run.validate_list_of_strings', 'mt_metadata/timeseries/run.py:Run._update_channels_recorded'])
p('C369', 'Names that are refused',
  'If an assignment to one of the lists of names of a run raises, the run is as it was.',
  'all call histories of a run, everything that may be assigned', HIST, ['mt_metadata/timeseries/run.py:Run.validate_channels_recorded', 'mt_metadata/timeseries/run.py:Run.validate_list_of_strings', 'mt_metadata/timeseries/electric.py:Electric', 'mt_metadata/timeseries/magnetic.py:Magnetic'])
p('C370', 'Positions of channels',
  'run.channels[run.channel_index(c)] is the channel c.',
  'all call histories of a run, all names', HIST, ['mt_metadata/timeseries/run.py:Run.channel_index', 'mt_metadata/common/list_dict.py:ListDict.__getitem__'])
p('C371', 'Ratings',
  'A rating is held if it is one of 0 to 5, as given (number or text); a number that is none of these is refused.',
  'all numbers and texts', ALLIN, ['mt_metadata/common/rating.py:Rating.validate_value'])
p('C372', 'Indices of BIRRP blocks',
  'The indices of a block given as the text of a list are those of the list.',
  'all lists of integers', ALLIN, ['mt_metadata/transfer_functions/io/jfiles/metadata/birrp_block.py:BirrpBlock.validate_indices'])
p('C373', 'Names of sources of money',
  'The name of a funding source, an organization or a grant given as a text is that one name.',
  'all texts', ALLIN, ['mt_metadata/common/funding_source.py:FundingSource.validate_input'])
p('C374', 'Descriptions of attributes after an update',
  'Whatever was asked for before on a computer, also by other versions of the package, the description of a class that get_all_fields_serializable gives is that of the package that runs.',
  'all histories of processes, versions of the package, questions and lost files', HIST, ['mt_metadata/base/pydantic_helpers.py:get_all_fields_serializable', 'mt_metadata/base/pydantic_helpers.py:_model_fingerprint', 'mt_metadata/base/pydantic_helpers.py:_disk_cache_path', 'mt_metadata/base/pydantic_helpers.py:_load_fields_from_disk', 'mt_metadata/base/pydantic_helpers.py:_save_fields_to_disk'])
p('C375', 'Descriptions do not depend on the order of questions',
  'The description of a class does not depend on which classes were asked for before.',
  'all packages of classes, all histories of questions', HIST, ['mt_metadata/base/pydantic_helpers.py:get_all_fields_serializable', 'mt_metadata/base/pydantic_helpers.py:_compute_fields_tree'])
p('C376', 'Dotted names of attributes',
  'The flat dictionary of a class has one entry for each attribute of it and of its parts, below the dotted name, and nothing else.',
  'all trees of descriptions, all paths of names', ALLIN, ['mt_metadata/base/pydantic_helpers.py:flatten_field_tree_map'])
p('C377', 'The remote site in EMTF XML files',
  'An EMTF XML file has the remote site if it has a name, and the field notes of the remote site unless they are skipped, whatever the object has written before.',
  'all histories of reading, writing and assignments', HIST, ['mt_metadata/transfer_functions/io/emtfxml/emtfxml.py:EMTFXML.write', 'mt_metadata/transfer_functions/io/emtfxml/metadata/remote_info.py:RemoteInfo.to_xml'])
p('C378', 'Elements of EMTF XML files',
  'Which elements an EMTF XML file has depends on the external link and the option skip_field_notes of this call alone.',
  'all histories of reading, writing and assignments', HIST, ['mt_metadata/transfer_functions/io/emtfxml/emtfxml.py:EMTFXML.write'])
p('C379', 'The period range has the periods',
  'The period range in an EMTF XML file of a transfer function has all periods of the file.',
  'all lists of positive periods', ALLIN, ['mt_metadata/transfer_functions/io/emtfxml/metadata/period_range.py:PeriodRange.to_xml', 'mt_metadata/transfer_functions/io/emtfxml/metadata/data.py:TransferFunction.write_block', 'mt_metadata/transfer_functions/core.py:TF.to_emtfxml'])
p('C380', 'The period range is that of the periods',
  'The period range in an EMTF XML file is that of the periods of the object, rounded.',
  'all histories of reading, writing and assignments', HIST, ['mt_metadata/transfer_functions/io/emtfxml/emtfxml.py:EMTFXML.read', 'mt_metadata/transfer_functions/io/emtfxml/emtfxml.py:EMTFXML.write', 'mt_metadata/transfer_functions/io/emtfxml/metadata/period_range.py:PeriodRange.to_xml'])
p('C381', 'Channels of Z-files read one after another',
  'The recorded channels of a ZMM object after reading a file are those of this file, whatever the object has read before.',
  'all histories of reading files with one object', HIST, ['mt_metadata/transfer_functions/io/zfiles/zmm.py:ZMM.read_header', 'mt_metadata/transfer_functions/io/zfiles/zmm.py:ZMM.channels_recorded', 'mt_metadata/transfer_functions/io/zfiles/zmm.py:ZMM.has_impedance', 'mt_metadata/transfer_functions/io/zfiles/zmm.py:ZMM.has_tipper'])
p('C382', 'Sample rates of Z-files read one after another',
  'The sample rate of the run of a ZMM object after reading a file is the median of the sampling frequencies of the periods of this file.',
  'all histories of reading files with one object', HIST, ['mt_metadata/transfer_functions/io/zfiles/zmm.py:ZMM.read', 'mt_metadata/transfer_functions/io/zfiles/zmm.py:ZMM._read_period_block'])
p('C383', 'Decimation levels of Z-files read one after another',
  'What a ZMM object writes of the decimation level of a period of the file it read last is what this file says of it; of periods never read only the sample rate is known.',
  'all histories of reading files with one object', HIST, ['mt_metadata/transfer_functions/io/zfiles/zmm.py:ZMM.write', 'mt_metadata/transfer_functions/io/zfiles/zmm.py:ZMM._read_period_block'])
p('C384', 'Copies are independent',
  'obj.copy() looks the same as obj; whatever is assigned to attributes of obj and of the copy afterwards, at any depth and in any order, each has just what was assigned to itself.',
  'all objects without HDF5 references, all histories of assignments to both', HIST, ['mt_metadata/base/metadata.py:MetadataBase.copy', 'mt_metadata/common/list_dict.py:ListDict.__deepcopy__'])
p('C385', 'Copies have the values of the update',
  'obj.copy(update=u) has the values of u for all names of u.',
  'all objects and updates', ALLIN, ['mt_metadata/base/metadata.py:MetadataBase.copy'])
p('C386', 'Copies that are not deep leave the object alone',
  'Assignments to attributes of obj.copy(deep=False) do not change obj.',
  'all objects and assignments', ALLIN, ['mt_metadata/base/metadata.py:MetadataBase.copy'])
p('C387', 'Merged objects have their own items',
  'After a.merge(b) assignments to a leave b alone.',
  'all objects and assignments', ALLIN, ['mt_metadata/common/list_dict.py:ListDict.extend', 'mt_metadata/timeseries/run.py:Run.merge', 'mt_metadata/timeseries/station.py:Station.merge', 'mt_metadata/timeseries/survey.py:Survey.merge'])
p('C388', 'Channels of EDI files read one after another',
  'The measurements of an EDI object after reading a file are those of this file, whatever the object has read before.',
  'all histories of reading files with one object', HIST, ['mt_metadata/transfer_functions/io/edi/edi.py:EDI.read', 'mt_metadata/transfer_functions/io/edi/metadata/define_measurement.py:DefineMeasurement.read_measurement'])
p('C389', 'Positions of EDI files read one after another',
  'The position of an EDI object after reading a file is that of the header of this file, or that of its reference where the header has none.',
  'all histories of reading files with one object', HIST, ['mt_metadata/transfer_functions/io/edi/edi.py:EDI.read', 'mt_metadata/transfer_functions/io/edi/metadata/header.py:Header.read_header', 'mt_metadata/transfer_functions/io/edi/metadata/define_measurement.py:DefineMeasurement.read_measurement'])
p('C390', 'Phoenix format of EDI files read one after another',
  'phoenix_edi of an EDI object after reading a file says whether this file is in the Phoenix format.',
  'all histories of reading files with one object', HIST, ['mt_metadata/transfer_functions/io/edi/edi.py:EDI.read', 'mt_metadata/transfer_functions/io/edi/metadata/header.py:Header.read_header'])
p('C391', 'Channels of AVG files read one after another',
  'What the channels of the run and the instrument of a ZongeMTAvg object are taken from after reading a file does not depend on the files the object has read before.',
  'all histories of reading files with one object', HIST, ['mt_metadata/transfer_functions/io/zonge/metadata/header.py:Header.read_header', 'mt_metadata/transfer_functions/io/zonge/metadata/header.py:Header._has_channel', 'mt_metadata/transfer_functions/io/zonge/zonge.py:ZongeMTAvg.run_metadata'])
p('C392', 'Every AVG file has a run',
  'run_metadata of a ZongeMTAvg object that has read a file can be made, whichever components the file has.',
  'all files, all histories of reading files with one object', HIST, ['mt_metadata/transfer_functions/io/zonge/metadata/header.py:Header._has_channel', 'mt_metadata/transfer_functions/io/zonge/zonge.py:ZongeMTAvg.run_metadata'])
p('C393', 'Values of magnetic channels in AVG files',
  'Of two values in a line of a component (azimuth, inclination, number) the second is that of the magnetic channel: hy for zxy, hx for zyx, hz for tzx.',
  'all texts of lines', ALLIN, ['mt_metadata/transfer_functions/io/zonge/metadata/ch.py:CH.validate_comma_separated_fields', 'mt_metadata/transfer_functions/io/zonge/zonge.py:ZongeMTAvg.hz_metadata', 'mt_metadata/transfer_functions/io/zonge/zonge.py:ZongeMTAvg.hx_metadata'])
p('C394', 'Parameters of J files read one after another',
  'The BIRRP parameters of a JFile object (such as the time step the sample rate is made of) after reading a file are those of this file, whatever the object has read before.',
  'all histories of reading files with one object', HIST, ['mt_metadata/transfer_functions/io/jfiles/jfile.py:JFile.read', 'mt_metadata/transfer_functions/io/jfiles/metadata/header.py:Header.read_header'])
p('C395', 'J files that cannot be read',
  'A J file that cannot be read leaves a JFile object as it was before.',
  'all objects, all files, all histories of reading files with one object', HIST, ['mt_metadata/transfer_functions/io/jfiles/jfile.py:JFile.read', 'mt_metadata/transfer_functions/io/jfiles/metadata/header.py:Header.read_header', 'mt_metadata/transfer_functions/io/jfiles/metadata/header.py:Header.read_metadata'])
p('C396', 'LaTeX tables have all attributes',
  'The tables BaseDict.to_latex makes have a line for each attribute, for any length of the first table and of the others.',
  'all dictionaries, all lengths of tables', ALLIN, ['mt_metadata/base/schema.py:BaseDict.to_latex'])
p('C397', 'Making LaTeX tables changes nothing',
  'BaseDict.to_latex leaves the dictionary as it is, so that it can be called again.',
  'all dictionaries, any number of calls', HIST, ['mt_metadata/base/schema.py:BaseDict.to_latex'])
p('C398', 'Summaries of standards are complete',
  'The array of a summary has a row for each attribute, in order, with its name and all its values.',
  'all summaries', ALLIN, ['mt_metadata/utils/summarize.py:summary_to_array', 'mt_metadata/utils/summarize.py:summary_to_dataframe'])
p('C399', 'Summaries have all classes',
  'The summary of standards has every field of every class whose description is valid.',
  'all lists of classes', ALLIN, ['mt_metadata/utils/summarize.py:summarize_pydantic_standards', 'mt_metadata/base/schema.py:BaseDict.add_dict', 'mt_metadata/utils/summarize.py:collect_basemodel_objects'])
p('C400', 'Forms of summaries',
  'summarize_standards writes a file if its name is given and returns the form asked for.',
  'all forms and file names', ALLIN, ['mt_metadata/utils/summarize.py:summarize_standards'])
p('C401', 'Options in summaries of standards',
  'Each option a summary of standards shows for a field that is an enumeration is taken by the field.',
  'all enumerations', ALLIN, ['mt_metadata/utils/summarize.py:_get_field_options', 'mt_metadata/common/enumerations.py:StrEnumerationBase'])
p('C402', 'Types in summaries of standards',
  'The type a summary of standards shows for a field does not depend on whether the field may be None; a union is shown as its first type, an enumeration as a text.',
  'all annotations', ALLIN, ['mt_metadata/utils/summarize.py:_get_field_type'])
p('C403', 'Data of an EDI object that reads several files',
  'After an EDI object read a file with a data section, its arrays, covariances and rotation angles are those that a new object reads from this file.',
  'all sequences of files, also such that cannot be read', HIST, ['mt_metadata/transfer_functions/io/edi/edi.py:EDI.read', 'mt_metadata/transfer_functions/io/edi/edi.py:EDI._read_data', 'mt_metadata/transfer_functions/io/edi/metadata/data_section.py:DataSection.get_data'])
p('C404', 'EDI files without a known data section',
  'The arrays that an EDI object reads from a file do not depend on files it read before, also if the file has no data section or one of another kind.',
  'all sequences of files', HIST, ['mt_metadata/transfer_functions/io/edi/edi.py:EDI.read', 'mt_metadata/transfer_functions/io/edi/edi.py:EDI._read_data', 'mt_metadata/transfer_functions/io/edi/metadata/data_section.py:DataSection.get_data'])
p('C405', 'Columns of spectra in EDI files',
  'Each component of spectra is taken from the column where the data section lists the identifier of its channel.',
  'all sections of four to seven channels in any order', ALLIN, ['mt_metadata/transfer_functions/io/edi/edi.py:EDI._read_data', 'mt_metadata/transfer_functions/io/edi/edi.py:EDI._read_spectra'])
p('C406', 'Conversion to Z file objects leaves the runs',
  'TF.to_zmm leaves the runs of the transfer function as they are.',
  'all transfer functions, runs and names of channels', ALLIN, ['mt_metadata/transfer_functions/core.py:TF.to_zmm', 'mt_metadata/transfer_functions/core.py:TF.make_zmm_run'])
p('C407', 'Conversion to Z file objects again',
  'What TF.to_zmm gives does not depend on conversions made before.',
  'all sequences of assignments of data and names and of conversions', HIST, ['mt_metadata/transfer_functions/core.py:TF.to_zmm', 'mt_metadata/transfer_functions/core.py:TF.make_zmm_run', 'mt_metadata/transfer_functions/core.py:TF.inverse_channel_nomenclature'])
p('C408', 'Station metadata of time series into a transfer function',
  'After TF.from_ts_station_metadata the station of the transfer function has every value of the station given.',
  'all stations, whatever the transfer function had before', ALLIN, ['mt_metadata/transfer_functions/core.py:TF.from_ts_station_metadata', 'mt_metadata/base/metadata.py:MetadataBase.to_dict'])
p('C409', 'Station metadata of a transfer function for time series',
  'TF.to_ts_station_metadata has every value of the station that says something, and nothing of the transfer function; the values are there again after the way back.',
  'all stations', ALLIN, ['mt_metadata/transfer_functions/core.py:TF.to_ts_station_metadata', 'mt_metadata/transfer_functions/core.py:TF.from_ts_station_metadata'])
p('C410', 'Units of a channel response over assignments',
  'At all times the units in and out of a channel response are those of its first and last filter, and each filter takes the units the one before gives.',
  'all histories of assignments and changes in place of the list of filters', HIST, ['mt_metadata/timeseries/filters/channel_response.py:ChannelResponse.update_units_and_normalization_frequency_from_filters_list', 'mt_metadata/timeseries/filters/channel_response.py:ChannelResponse._check_consistency_of_units', 'mt_metadata/timeseries/filters/channel_response.py:ChannelResponse.validate_filters_list'])
p('C411', 'Fields of one object and of others',
  'Whatever is done with what get_all_fields of other objects gives, the names of the fields of an object, and which of them are required (and so written by to_dict), stay as they are.',
  'all classes and all histories of changes of the fields of other objects', HIST, ['mt_metadata/base/metadata.py:MetadataBase.get_all_fields', 'mt_metadata/base/metadata.py:MetadataBase._required_fields', 'mt_metadata/base/pydantic_helpers.py:flatten_field_tree_map'])
p('C412', 'The link of an EMTF XML file cannot be emptied',
  'After a link was assigned to ExternalUrl.url, an empty value is refused.',
  'all links and histories of assignments', HIST, ['mt_metadata/transfer_functions/io/emtfxml/metadata/external_url.py:ExternalUrl.validate_url'])
p('C413', 'The link of a person',
  'The url of a Person is the link that was assigned, or nothing if the value says so; other values are errors.',
  'all values', ALLIN, ['mt_metadata/common/person.py:GenericPerson.validate_url'])
p('C414', 'The normalisation frequency of a pole zero filter lies in its pass band',
  'PoleZeroFilter.normalization_frequency gives a number exactly for frequencies that are not empty and the estimates mean, median, min and max; min and max are given frequencies, mean and median are halfway between them; the band is the one of the flat windows.',
  'all frequencies, amplitudes, window lengths, tolerances and names of estimates', ALLIN, ['mt_metadata/timeseries/filters/pole_zero_filter.py:PoleZeroFilter.normalization_frequency', 'mt_metadata/timeseries/filters/filter_base.py:FilterBase.pass_band'])
pathlib.Path("/verif/properties.jsonl").write_text("".join(json.dumps(x) + "\n" for x in P))
print(len(P))
