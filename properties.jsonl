{"id": "C01", "title": "ListDict views stay coherent", "statement": "After any sequence of ListDict calls (item assignment, append, remove, extend, update, update_keys, sort, pop, clear), keys are pairwise distinct; len(ld) equals len(ld.keys()), len(ld.values()) and len(ld.items()); ld[i] equals ld[ld.keys()[i]] for 0<=i<len(ld); indexes that are negative or >= len(ld) and absent keys raise KeyError.", "quantifier": "all finite call histories starting from an empty ListDict, all keys, indexes and stored objects", "why_tests_cant": "A test runs a handful of call sequences; the claim is about every sequence of every length.", "anchors": ["mt_metadata/common/list_dict.py:ListDict.__getitem__", "mt_metadata/common/list_dict.py:ListDict.__setitem__", "mt_metadata/common/list_dict.py:ListDict._get_key_from_index", "mt_metadata/common/list_dict.py:ListDict.append", "mt_metadata/common/list_dict.py:ListDict.remove"]}
{"id": "C02", "title": "Appending makes the object retrievable and touches nothing else", "statement": "ld.append(obj) with an object carrying an id or component k makes ld[k] is obj; every other key keeps its value and position; the length grows by one exactly when k was absent, otherwise the previous object under k is replaced in place. An object with neither attribute is stored too.", "quantifier": "all ListDict contents and all objects", "why_tests_cant": "A test samples inputs; the claim is about every input, of any size.", "anchors": ["mt_metadata/common/list_dict.py:ListDict.append", "mt_metadata/common/list_dict.py:ListDict._get_key_from_object"]}
{"id": "C03", "title": "Appending a keyless object never destroys an existing entry", "statement": "Appending an object that has neither id nor component always adds an entry: no entry present before the call is lost or replaced.", "quantifier": "all call histories, including those that removed entries", "why_tests_cant": "Only histories that mix appends with removals can break it; a test picks one history.", "anchors": ["mt_metadata/common/list_dict.py:ListDict.append", "mt_metadata/common/list_dict.py:ListDict.remove"]}
{"id": "C04", "title": "remove deletes exactly one entry or raises", "statement": "ld.remove(k) for a present key or in-range index deletes exactly that entry and preserves the order and values of the rest; for an absent key or out-of-range index it raises KeyError and changes nothing.", "quantifier": "all contents, all keys and indexes", "why_tests_cant": "A test samples inputs; the claim is about every input, of any size.", "anchors": ["mt_metadata/common/list_dict.py:ListDict.remove"]}
{"id": "C05", "title": "pop(key) removes and returns the entry of that key", "statement": "ld.pop(k) for a present key k returns exactly {k: ld[k]} and removes only that entry; for an absent key it raises KeyError and changes nothing.", "quantifier": "all contents and keys", "why_tests_cant": "The existing test pops the last key, where the wrong entry and the right entry coincide.", "anchors": ["mt_metadata/common/list_dict.py:ListDict.pop"]}
{"id": "C06", "title": "extend is a right-biased merge honouring skip_keys", "statement": "After a.extend(b, skip_keys): a key k of b not in skip_keys maps to b's value; all other keys of a keep their value and their order; no other key appears; extending by a non-dict raises TypeError and changes nothing.", "quantifier": "all pairs of ListDicts and all skip lists", "why_tests_cant": "A test samples inputs; the claim is about every input, of any size.", "anchors": ["mt_metadata/common/list_dict.py:ListDict.extend", "mt_metadata/common/list_dict.py:ListDict.update"]}
{"id": "C07", "title": "sort only reorders", "statement": "ld.sort() leaves a permutation of the same items ordered by key, with every lookup by key unchanged, and is idempotent; sort(inplace=False) returns that ordering and leaves ld unchanged.", "quantifier": "all contents", "why_tests_cant": "A test samples inputs; the claim is about every input, of any size.", "anchors": ["mt_metadata/common/list_dict.py:ListDict.sort"]}
{"id": "C08", "title": "update_keys follows renamed objects without losing any", "statement": "If the objects' current identifiers are pairwise distinct, update_keys() keeps every object, in the same order, reachable under its current identifier, and returns exactly the old->new map of the keys that changed; calling it twice changes nothing further.", "quantifier": "all contents and all in-place renamings of stored objects", "why_tests_cant": "A test runs a handful of call sequences; the claim is about every sequence of every length.", "anchors": ["mt_metadata/common/list_dict.py:ListDict.update_keys"]}
{"id": "C09", "title": "Slices are the contiguous sub-collections they name", "statement": "ld[a:b] with keys or integers as bounds is the ListDict of the entries at positions index(a) <= p < index(b), in order; a missing bound means the end; a bound of another type raises TypeError; an absent key raises KeyError.", "quantifier": "all contents and bounds", "why_tests_cant": "A test samples inputs; the claim is about every input, of any size.", "anchors": ["mt_metadata/common/list_dict.py:ListDict._get_index_slice_from_slice", "mt_metadata/common/list_dict.py:ListDict.__getitem__"]}
{"id": "C10", "title": "copy returns an equal collection", "statement": "ld.copy() compares equal to ld, for any ld the API can build.", "quantifier": "all call histories", "why_tests_cant": "A test runs a handful of call sequences; the claim is about every sequence of every length.", "anchors": ["mt_metadata/common/list_dict.py:ListDict.copy", "mt_metadata/common/list_dict.py:ListDict.__deepcopy__", "mt_metadata/common/list_dict.py:ListDict.__setitem__"]}
{"id": "C11", "title": "structure after flatten is the identity", "statement": "For every nested dict whose keys are non-empty, contain no separator, are distinct per level, and whose inner dicts are non-empty, structure_dict(flatten_dict(d)) == d, including key order.", "quantifier": "all nested dicts of any depth and width", "why_tests_cant": "Depth and width are unbounded.", "anchors": ["mt_metadata/base/helpers.py:flatten_dict", "mt_metadata/base/helpers.py:structure_dict", "mt_metadata/base/helpers.py:recursive_split_dict"]}
{"id": "C12", "title": "structure_dict works for every separator", "statement": "structure_dict(flatten_dict(d, sep=s), sep=s) == d for every single-character separator s not occurring in the keys.", "quantifier": "all separators, all nested dicts", "why_tests_cant": "A test would use one separator and a shallow dict.", "anchors": ["mt_metadata/base/helpers.py:structure_dict", "mt_metadata/base/helpers.py:recursive_split_dict"]}
{"id": "C13", "title": "Structuring a flat dict loses no value", "statement": "For a flat dict whose dotted keys are pairwise prefix-free, structure_dict never raises and every value is found by walking its key's parts; flattening the result gives back the same key/value pairs.", "quantifier": "all prefix-free flat dicts", "why_tests_cant": "A test samples inputs; the claim is about every input, of any size.", "anchors": ["mt_metadata/base/helpers.py:structure_dict", "mt_metadata/base/helpers.py:recursive_split_dict"]}
{"id": "C14", "title": "Dictionary -> XML -> dictionary round trip", "statement": "element_to_dict(dict_to_xml(d)) == d for every tree of dicts, lists and strings.", "quantifier": "all trees", "why_tests_cant": "Lists of length 0 and 1, empty strings and keys called 'item' are the interesting inputs and trees are unbounded.", "anchors": ["mt_metadata/base/helpers.py:dict_to_xml", "mt_metadata/base/helpers.py:recursive_split_xml", "mt_metadata/base/helpers.py:element_to_dict"]}
{"id": "C15", "title": "Leap seconds are defined and monotone over the supported range", "statement": "calculate_leap_seconds(y,m,d) returns a value for every calendar date from 1980-01-01 up to the end of its table, and never decreases with the date.", "quantifier": "all dates in the supported range (and all dates outside, where it must raise)", "why_tests_cant": "Gap days at the table's row boundaries are single dates in 46 years.", "anchors": ["mt_metadata/common/mttime.py:calculate_leap_seconds", "mt_metadata/common/mttime.py:leap_second_dict"]}
{"id": "C16", "title": "MTime comparisons form a total order", "statement": "For any two time stamps exactly one of a < b, a == b, a > b holds; <= and >= are the corresponding weak orders; < is transitive.", "quantifier": "all pairs (triples) of time stamps", "why_tests_cant": "A test samples inputs; the claim is about every input, of any size.", "anchors": ["mt_metadata/common/mttime.py:MTime.__lt__", "mt_metadata/common/mttime.py:MTime.__gt__", "mt_metadata/common/mttime.py:MTime.__le__", "mt_metadata/common/mttime.py:MTime.__ge__", "mt_metadata/common/mttime.py:MTime.__eq__"]}
{"id": "C17", "title": "Out-of-range times are clamped, in-range times kept", "statement": "Parsing a stamp at or below the minimum gives the minimum, at or above the maximum gives the maximum, otherwise the stamp itself (up to sub-microsecond rounding); the result is always inside [min,max]; parsing the result again changes nothing; parsing preserves order.", "quantifier": "all stamps", "why_tests_cant": "A test samples inputs; the claim is about every input, of any size.", "anchors": ["mt_metadata/common/mttime.py:_check_timestamp", "mt_metadata/common/mttime.py:_fix_out_of_bounds_time_stamp", "mt_metadata/common/mttime.py:parse"]}
{"id": "C18", "title": "Sub-microsecond rounding is small, idempotent and order preserving", "statement": "Parsing moves an in-range time stamp by less than half a microsecond, and two stamps in order stay in order; once parsed, a stamp is a fixed point.", "quantifier": "all nanosecond stamps", "why_tests_cant": "A test samples inputs; the claim is about every input, of any size.", "anchors": ["mt_metadata/common/mttime.py:parse"]}
{"id": "C19", "title": "GPS to UTC conversion preserves order", "statement": "If GPS time a is before GPS time b, the parsed UTC stamps satisfy utc(a) <= utc(b).", "quantifier": "all pairs of GPS times in the supported range", "why_tests_cant": "The failing pairs sit within one second of a leap second.", "anchors": ["mt_metadata/common/mttime.py:parse", "mt_metadata/common/mttime.py:calculate_leap_seconds"]}
{"id": "C20", "title": "Equal instants give equal time stamps", "statement": "Two stamps denoting the same UTC instant compare equal and hash equal, whatever time zone offset they were written with (stored stamps are always UTC).", "quantifier": "all instants and offsets", "why_tests_cant": "A test samples inputs; the claim is about every input, of any size.", "anchors": ["mt_metadata/common/mttime.py:_localize_utc", "mt_metadata/common/mttime.py:MTime.__eq__", "mt_metadata/common/mttime.py:MTime.__hash__"]}
{"id": "C21", "title": "Integer epochs are read in the right unit", "statement": "An integer given as epoch seconds and the same instant given as epoch nanoseconds parse to the same time stamp.", "quantifier": "all instants in the representable range", "why_tests_cant": "A test samples inputs; the claim is about every input, of any size.", "anchors": ["mt_metadata/common/mttime.py:parse"]}
{"id": "C22", "title": "update never erases information", "statement": "a.update(b) leaves a field of a unchanged whenever b's value for it is null-like (None, '', 0.0, [], default time, null strings); otherwise the field takes b's value; with match=[...] and differing values it raises ValueError before changing anything.", "quantifier": "all pairs of metadata objects and match lists", "why_tests_cant": "A test samples inputs; the claim is about every input, of any size.", "anchors": ["mt_metadata/base/metadata.py:MetadataBase.update"]}
{"id": "C23", "title": "Metadata equality is an equivalence", "statement": "== on metadata objects of one class is reflexive, symmetric and transitive.", "quantifier": "all pairs/triples of objects", "why_tests_cant": "A test samples inputs; the claim is about every input, of any size.", "anchors": ["mt_metadata/base/metadata.py:MetadataBase.__eq__"]}
{"id": "C24", "title": "An object equals its own dictionary", "statement": "obj == obj.to_dict() (dictionary, JSON string and pandas Series are documented as comparable) is True.", "quantifier": "all objects", "why_tests_cant": "A test samples inputs; the claim is about every input, of any size.", "anchors": ["mt_metadata/base/metadata.py:MetadataBase.__eq__", "mt_metadata/base/metadata.py:MetadataBase.load"]}
{"id": "C25", "title": "Dotted keyword arguments build the same nested structure as nested dicts", "statement": "Dotted keyword input expands to a nested dict in which every dotted key resolves to its value when the keys are prefix-free, independently of their order; a flat name passed together with dotted children of the same name is replaced by the nested value.", "quantifier": "all sets of dotted names", "why_tests_cant": "A test samples inputs; the claim is about every input, of any size.", "anchors": ["mt_metadata/base/metadata.py:DotNotationBaseModel.__init__", "mt_metadata/base/metadata.py:DotNotationBaseModel._set_nested_attribute"]}
{"id": "C26", "title": "Band indices are exactly the in-band frequencies", "statement": "The indices a Band reports for a frequency axis are exactly those i with frequencies[i] inside the interval under its closed setting, increasing; set_indices_from_frequencies stores the first and last; on a sorted axis harmonic_indices equals exactly the in-band indices; an empty selection raises.", "quantifier": "all bands, closed settings and frequency axes", "why_tests_cant": "A test samples inputs; the claim is about every input, of any size.", "anchors": ["mt_metadata/common/band.py:Band._indices_from_frequencies", "mt_metadata/common/band.py:Band.set_indices_from_frequencies", "mt_metadata/common/band.py:Band.harmonic_indices"]}
{"id": "C27", "title": "Band containment agrees with interval containment", "statement": "band.contains(other) holds iff every frequency of the other band lies in band; in particular every band contains itself and containment is transitive.", "quantifier": "all pairs of bands and closed settings", "why_tests_cant": "A test samples inputs; the claim is about every input, of any size.", "anchors": ["mt_metadata/common/band.py:Band.contains"]}
{"id": "C28", "title": "Band overlap is symmetric and means a shared frequency", "statement": "a.overlaps(b) == b.overlaps(a), and for non-degenerate bands it holds iff some frequency lies in both.", "quantifier": "all pairs of bands and closed settings", "why_tests_cant": "A test samples inputs; the claim is about every input, of any size.", "anchors": ["mt_metadata/common/band.py:Band.overlaps"]}
{"id": "C29", "title": "Center frequency lies in the band", "statement": "For 0 < frequency_min <= frequency_max the center frequency (both averaging types) lies between the bounds, geometric <= arithmetic.", "quantifier": "all real bounds", "why_tests_cant": "A test samples inputs; the claim is about every input, of any size.", "anchors": ["mt_metadata/common/band.py:Band.center_frequency"]}
{"id": "C30", "title": "Recorded-channel lists always mirror the channels", "statement": "After any sequence of add_channel/remove_channel/merge/update on a Run whose channel names are not the reserved defaults, channels_recorded_electric/_magnetic/_auxiliary are exactly the sorted component names of the stored channels of that type, and has_channel(c) iff c is one of them.", "quantifier": "all call histories", "why_tests_cant": "A test runs a handful of call sequences; the claim is about every sequence of every length.", "anchors": ["mt_metadata/timeseries/run.py:Run._update_channels_recorded", "mt_metadata/timeseries/run.py:Run.validate_channels_recorded", "mt_metadata/timeseries/run.py:Run.add_channel", "mt_metadata/timeseries/run.py:Run.remove_channel", "mt_metadata/timeseries/run.py:Run.has_channel"]}
{"id": "C31", "title": "add_channel/get_channel/remove_channel behave like a map", "statement": "After add_channel(ch) get_channel(ch.component) returns a channel carrying ch's non-null metadata; other channels are untouched; remove_channel(c) removes exactly c and is a no-op for unknown c.", "quantifier": "all runs and channels", "why_tests_cant": "A test runs a handful of call sequences; the claim is about every sequence of every length.", "anchors": ["mt_metadata/timeseries/run.py:Run.add_channel", "mt_metadata/timeseries/run.py:Run.get_channel", "mt_metadata/timeseries/run.py:Run.remove_channel"]}
{"id": "C32", "title": "Channel type inferred from name and from dict agree", "statement": "A channel described by a name, by {'component': name, 'type': t} or by an object gets the same type: e* electric, h*/b*/magnetic magnetic, otherwise auxiliary.", "quantifier": "all names and descriptions", "why_tests_cant": "A test samples inputs; the claim is about every input, of any size.", "anchors": ["mt_metadata/timeseries/run.py:Run._get_correct_channel_type"]}
{"id": "C33", "title": "Run time period covers its channels and never shrinks", "statement": "After update_time_period the run starts no later than, and ends no earlier than, every channel with a non-default time; if the run already had non-default times the new period contains the old one; the call is idempotent.", "quantifier": "all runs with any number of channels", "why_tests_cant": "A test samples inputs; the claim is about every input, of any size.", "anchors": ["mt_metadata/timeseries/run.py:Run.update_time_period"]}
{"id": "C34", "title": "merge(inplace=False) leaves the receiver unchanged", "statement": "run.merge(other, inplace=False) returns the merged run and does not modify run.", "quantifier": "all pairs of runs", "why_tests_cant": "A test samples inputs; the claim is about every input, of any size.", "anchors": ["mt_metadata/timeseries/run.py:Run.merge"]}
{"id": "C35", "title": "Station.run_list mirrors the runs", "statement": "After any sequence of add_run/remove_run calls (any update flag), run_list equals the keys of runs and has_run(id) iff get_run(id) succeeds.", "quantifier": "all call histories", "why_tests_cant": "A test runs a handful of call sequences; the claim is about every sequence of every length.", "anchors": ["mt_metadata/timeseries/station.py:Station.add_run", "mt_metadata/timeseries/station.py:Station.remove_run", "mt_metadata/timeseries/station.py:Station.has_run", "mt_metadata/timeseries/station.py:Station.get_run", "mt_metadata/timeseries/station.py:Station.update_run_list"]}
{"id": "C36", "title": "remove_run does not alter the remaining runs", "statement": "station.remove_run(id) removes that run and leaves every other run exactly as it was, and channels_recorded becomes the channels of the remaining runs.", "quantifier": "all stations and run ids", "why_tests_cant": "The existing tests remove a run whose channels also occur in another run.", "anchors": ["mt_metadata/timeseries/station.py:Station.remove_run", "mt_metadata/timeseries/station.py:Station.validate_runs_and_channels_recorded", "mt_metadata/timeseries/station.py:Station.update_run_list"]}
{"id": "C37", "title": "Runs can be sorted by start time", "statement": "sort_runs_by_time reorders runs by start time, losing none.", "quantifier": "all stations", "why_tests_cant": "A test samples inputs; the claim is about every input, of any size.", "anchors": ["mt_metadata/timeseries/station.py:Station.sort_runs_by_time"]}
{"id": "C38", "title": "Station time period covers its runs", "statement": "After update_time_period the station period contains the period of every run with non-default times, and it only grows.", "quantifier": "all stations with any number of runs", "why_tests_cant": "A test samples inputs; the claim is about every input, of any size.", "anchors": ["mt_metadata/timeseries/station.py:Station.update_time_period"]}
{"id": "C39", "title": "Survey bounding box is tight", "statement": "After update_bounding_box with at least one station, every station lies within the box and each side touches a station; it does not depend on the order of the stations; with no station it is unchanged.", "quantifier": "all surveys", "why_tests_cant": "A test samples inputs; the claim is about every input, of any size.", "anchors": ["mt_metadata/timeseries/survey.py:Survey.update_bounding_box"]}
{"id": "C40", "title": "Stations of a survey behave like a map", "statement": "After any history of add_station/remove_station, has_station(id) iff the last operation on id was an add, get_station returns that station, unknown ids raise/warn without change, and station ids are distinct.", "quantifier": "all call histories", "why_tests_cant": "A test runs a handful of call sequences; the claim is about every sequence of every length.", "anchors": ["mt_metadata/timeseries/survey.py:Survey.add_station", "mt_metadata/timeseries/survey.py:Survey.remove_station", "mt_metadata/timeseries/survey.py:Survey.has_station", "mt_metadata/timeseries/survey.py:Survey.get_station"]}
{"id": "C41", "title": "Merging experiments unions their surveys", "statement": "Adding/merging experiments keeps every survey of both sides under its id; on a clash the right-hand side wins; nothing else changes.", "quantifier": "all pairs of experiments", "why_tests_cant": "A test samples inputs; the claim is about every input, of any size.", "anchors": ["mt_metadata/timeseries/experiment.py:Experiment.merge", "mt_metadata/timeseries/experiment.py:Experiment.add_survey"]}
{"id": "C42", "title": "A single filter read back from XML is accepted", "statement": "Reading an experiment whose XML holds exactly one filter yields that filter, as reading two filters yields both.", "quantifier": "all filter dictionaries", "why_tests_cant": "The failing branch is taken only by files with one filter.", "anchors": ["mt_metadata/timeseries/experiment.py:Experiment._read_filter_dict"]}
{"id": "C43", "title": "Degree-minute-second strings round trip", "statement": "convert_position_str2float(convert_position_float2str(x)) recovers x to within the printed precision, including the sign, for every x in [-180,180].", "quantifier": "all positions", "why_tests_cant": "Only the band -1 < x < 0 loses the sign.", "anchors": ["mt_metadata/utils/location_helpers.py:convert_position_float2str", "mt_metadata/utils/location_helpers.py:convert_position_str2float"]}
{"id": "C44", "title": "Accepted positions are in range", "statement": "validate_position returns a value only if |latitude| <= 90 or |longitude| <= 180 respectively, returns in-range numbers unchanged, and raises ValueError otherwise.", "quantifier": "all numbers and strings", "why_tests_cant": "A test samples inputs; the claim is about every input, of any size.", "anchors": ["mt_metadata/utils/location_helpers.py:validate_position"]}
{"id": "C45", "title": "Unit strings are split and recombined losslessly", "statement": "Parsing a unit expression built from known units with '/', ' per ' or space separators yields those units with the right separators, and the combined long name is the units' names joined by them.", "quantifier": "all unit expressions of any length", "why_tests_cant": "Expressions are unbounded.", "anchors": ["mt_metadata/common/units.py:parse_unit_string", "mt_metadata/common/units.py:find_separator", "mt_metadata/common/units.py:Unit.combine", "mt_metadata/common/units.py:get_unit_object"]}
{"id": "C46", "title": "Every positive sample rate gets exactly the right period code", "statement": "get_period_code is defined for every positive sample rate, codes partition the rates into intervals, and faster sampling never gets a slower code.", "quantifier": "all positive sample rates", "why_tests_cant": "A test samples inputs; the claim is about every input, of any size.", "anchors": ["mt_metadata/timeseries/stationxml/fdsn_tools.py:get_period_code"]}
{"id": "C47", "title": "FDSN channel codes decode to what was encoded", "statement": "read_channel_code(make_channel_code(rate, type, azimuth)) yields a period range containing the rate, the measurement type and an orientation consistent with the azimuth.", "quantifier": "all rates, measurement types and azimuths", "why_tests_cant": "A test samples inputs; the claim is about every input, of any size.", "anchors": ["mt_metadata/timeseries/stationxml/fdsn_tools.py:make_channel_code", "mt_metadata/timeseries/stationxml/fdsn_tools.py:read_channel_code", "mt_metadata/timeseries/stationxml/fdsn_tools.py:get_orientation_code"]}
{"id": "C48", "title": "Applied filters stay ordered by stage with distinct names", "statement": "After any history of add_filter/remove_filter on a channel the filters are ordered by stage and no name occurs twice.", "quantifier": "all call histories", "why_tests_cant": "A test runs a handful of call sequences; the claim is about every sequence of every length.", "anchors": ["mt_metadata/timeseries/channel.py:Channel.add_filter", "mt_metadata/timeseries/channel.py:Channel.remove_filter", "mt_metadata/timeseries/channel.py:Channel.validate_filters"]}
{"id": "C49", "title": "A filter list is accepted iff its unit chain matches", "statement": "A ChannelResponse accepts a filter list iff the output units of every stage equal the input units of the next; its input/output units are then those of the first and last stage.", "quantifier": "all filter lists", "why_tests_cant": "A test samples inputs; the claim is about every input, of any size.", "anchors": ["mt_metadata/timeseries/filters/channel_response.py:ChannelResponse._check_consistency_of_units"]}
{"id": "C50", "title": "The channel response is the product of its filters' responses", "statement": "complex_response over the full list equals the pointwise product of the filter responses, is multiplicative under concatenation and independent of order; excluding delays divides out exactly the delay filters; total_delay is additive.", "quantifier": "all filter lists and frequencies", "why_tests_cant": "A test samples inputs; the claim is about every input, of any size.", "anchors": ["mt_metadata/timeseries/filters/channel_response.py:ChannelResponse.complex_response", "mt_metadata/timeseries/filters/channel_response.py:ChannelResponse.total_delay"]}
{"id": "C51", "title": "The channel pass band is the intersection of the filters' pass bands", "statement": "pass_band is contained in each filter's pass band and is the largest such interval.", "quantifier": "all filter lists", "why_tests_cant": "A test samples inputs; the claim is about every input, of any size.", "anchors": ["mt_metadata/timeseries/filters/channel_response.py:ChannelResponse.pass_band"]}
{"id": "C52", "title": "FIR symmetry expansion yields symmetric coefficients", "statement": "symmetry_corrected_coefficients of an EVEN (ODD) filter with n stored coefficients has 2n (2n-1) entries, starts with the stored ones and is a palindrome; NONE returns them unchanged.", "quantifier": "all coefficient lists", "why_tests_cant": "A test samples inputs; the claim is about every input, of any size.", "anchors": ["mt_metadata/timeseries/filters/fir_filter.py:FIRFilter.symmetry_corrected_coefficients"]}
{"id": "C53", "title": "Response-table phases end up in radians", "statement": "Phases supplied in milliradians, degrees or radians within one turn are converted to the same radians, and converting an already converted table changes nothing.", "quantifier": "all phase tables", "why_tests_cant": "A test samples inputs; the claim is about every input, of any size.", "anchors": ["mt_metadata/timeseries/filters/frequency_response_table_filter.py:FrequencyResponseTableFilter.validate_phases"]}
{"id": "C54", "title": "Decimation levels have cumulative sample rates", "statement": "Level i of the Fourier-coefficient decimations created from an initial rate r and factors f0,f1,... has sample rate r/(f1*...*fi) and level number i, for every number of levels.", "quantifier": "all rates, factor lists and level counts", "why_tests_cant": "A test samples inputs; the claim is about every input, of any size.", "anchors": ["mt_metadata/processing/fourier_coefficients/decimation.py:fc_decimations_creator"]}
{"id": "C55", "title": "Processing.assign_bands uses the level's true sample rate", "statement": "The decimation sample rate assigned to level k is the base rate divided by the product of all decimation factors up to k.", "quantifier": "all decimation schemes", "why_tests_cant": "With one constant factor the wrong and right formula agree.", "anchors": ["mt_metadata/processing/aurora/processing.py:Processing.assign_bands"]}
{"id": "C56", "title": "Decimation lists are stored as given", "statement": "Assigning a list of decimation levels to a Processing object stores exactly those levels, once each, in order.", "quantifier": "all lists of levels, given as dicts or objects", "why_tests_cant": "A test samples inputs; the claim is about every input, of any size.", "anchors": ["mt_metadata/processing/aurora/processing.py:Processing.validate_decimations"]}
{"id": "C57", "title": "A decimation level is consistent with the archived parameters it generates", "statement": "level.is_consistent_with_archived_fc_parameters(level.to_fc_decimation()) holds for every level, and a differing parameter makes it fail.", "quantifier": "all decimation levels", "why_tests_cant": "A test samples inputs; the claim is about every input, of any size.", "anchors": ["mt_metadata/processing/aurora/decimation_level.py:DecimationLevel.is_consistent_with_archived_fc_parameters", "mt_metadata/processing/aurora/decimation_level.py:DecimationLevel.to_fc_decimation"]}
{"id": "C58", "title": "Fourier harmonics are increasing, below Nyquist, and evenly spaced", "statement": "get_fft_harmonics(n, sr) has floor(n/2) entries k*sr/n, all in [0, sr/2), strictly increasing.", "quantifier": "all window lengths and rates", "why_tests_cant": "A test samples inputs; the claim is about every input, of any size.", "anchors": ["mt_metadata/processing/window.py:get_fft_harmonics"]}
{"id": "C59", "title": "A window's taper reflects its current settings", "statement": "window.taper() has num_samples entries computed from the current settings after any history of setting changes and taper() calls.", "quantifier": "all call histories", "why_tests_cant": "A test runs a handful of call sequences; the claim is about every sequence of every length.", "anchors": ["mt_metadata/processing/window.py:Window.taper"]}
{"id": "C60", "title": "Enough samples means at least the required windows fit", "statement": "is_valid_for_time_series_length(n) holds iff min_num_stft_windows windows of num_samples with the given overlap fit in n samples.", "quantifier": "all lengths and window parameters", "why_tests_cant": "A test samples inputs; the claim is about every input, of any size.", "anchors": ["mt_metadata/processing/fourier_coefficients/decimation.py:Decimation.is_valid_for_time_series_length"]}
{"id": "C61", "title": "FC decimation: channels_estimated mirrors channels", "statement": "After any history of add_channel/remove_channel on a Fourier-coefficient Decimation, has_channel(c) iff c is stored.", "quantifier": "all call histories", "why_tests_cant": "A test runs a handful of call sequences; the claim is about every sequence of every length.", "anchors": ["mt_metadata/processing/fourier_coefficients/decimation.py:Decimation.add_channel", "mt_metadata/processing/fourier_coefficients/decimation.py:Decimation.has_channel"]}
{"id": "C62", "title": "FC time period ends no earlier than any of its channels", "statement": "After update_time_period the start/end of a Decimation (FC) cover all its channels (levels) with non-default times.", "quantifier": "all decimations and FC objects", "why_tests_cant": "A test samples inputs; the claim is about every input, of any size.", "anchors": ["mt_metadata/processing/fourier_coefficients/decimation.py:Decimation.update_time_period", "mt_metadata/processing/fourier_coefficients/fc.py:FC.update_time_period"]}
{"id": "C63", "title": "FC decimation levels stay in sync", "statement": "After any history of add_decimation_level/remove_decimation_level, decimation_levels lists exactly the stored levels, and has_decimation_level(l) iff get_decimation_level(l) succeeds.", "quantifier": "all call histories", "why_tests_cant": "A test runs a handful of call sequences; the claim is about every sequence of every length.", "anchors": ["mt_metadata/processing/fourier_coefficients/fc.py:FC.add_decimation_level", "mt_metadata/processing/fourier_coefficients/fc.py:FC.remove_decimation_level"]}
{"id": "C64", "title": "Band edges of a frequency-band table stay sorted and aligned", "statement": "FrequencyBands accepts an edge array iff it is n x 2, keeps row pairing when sorting by any key, and bands() yields one band per row in the requested order; validate() re-establishes increasing centers.", "quantifier": "all edge tables", "why_tests_cant": "A test samples inputs; the claim is about every input, of any size.", "anchors": ["mt_metadata/processing/aurora/frequency_bands.py:FrequencyBands.sort", "mt_metadata/processing/aurora/frequency_bands.py:FrequencyBands.bands", "mt_metadata/processing/aurora/frequency_bands.py:FrequencyBands.validate"]}
{"id": "C65", "title": "Station data frame round trip", "statement": "from_dataset_dataframe(to_dataset_dataframe(station)) reproduces the station's runs, time periods, channels and flags.", "quantifier": "all processing stations", "why_tests_cant": "A test samples inputs; the claim is about every input, of any size.", "anchors": ["mt_metadata/processing/aurora/station.py:Station.to_dataset_dataframe", "mt_metadata/processing/aurora/station.py:Station.from_dataset_dataframe"]}
{"id": "C66", "title": "Channel nomenclature is a faithful renaming", "statement": "For every supported keyword the five channel names are pairwise distinct and changing the keyword replaces all names by that keyword's map; explicitly chosen names are kept.", "quantifier": "all keywords and histories of keyword changes", "why_tests_cant": "A test runs a handful of call sequences; the claim is about every sequence of every length.", "anchors": ["mt_metadata/processing/aurora/channel_nomenclature.py:ChannelNomenclature.update"]}
{"id": "C67", "title": "Monotonic kernels map into [0,1] and are monotone", "statement": "For lower < upper bound, a low-cut (high-cut) taper kernel is non-decreasing (non-increasing) in the feature value, stays in [0,1], and equals 0/1 outside the transition region.", "quantifier": "all feature values, bounds and half-window styles", "why_tests_cant": "A test samples inputs; the claim is about every input, of any size.", "anchors": ["mt_metadata/features/weights/taper_monotonic_weight_kernel.py:TaperMonotonicWeightKernel.evaluate"]}
{"id": "C68", "title": "Combined weights stay in [0,1]", "statement": "If every kernel weight lies in [0,1] then feature and channel weights lie in [0,1] for every combination style; min <= product-style bounds hold; no features gives weight 1; a missing feature raises KeyError.", "quantifier": "all weight specs", "why_tests_cant": "A test samples inputs; the claim is about every input, of any size.", "anchors": ["mt_metadata/features/weights/channel_weight_spec.py:ChannelWeightSpec.evaluate", "mt_metadata/features/weights/feature_weight_spec.py:FeatureWeightSpec.evaluate"]}
{"id": "C69", "title": "A threshold kernel separates values at its threshold", "statement": "ThresholdWeightKernel.evaluate returns 1 on the kept side of the threshold and 0 on the other.", "quantifier": "all values and thresholds", "why_tests_cant": "A test samples inputs; the claim is about every input, of any size.", "anchors": ["mt_metadata/features/weights/threshold_weight_kernel.py:ThresholdWeightKernel.evaluate"]}
{"id": "C70", "title": "Comments survive their string form", "statement": "from_dict/as_string of a Comment round trips time stamp, author and text whenever author and text contain no separator.", "quantifier": "all comments", "why_tests_cant": "A test samples inputs; the claim is about every input, of any size.", "anchors": ["mt_metadata/common/comment.py:Comment.as_string", "mt_metadata/common/comment.py:Comment.from_dict"]}
{"id": "C71", "title": "Enumeration values are matched regardless of case", "statement": "An enumeration derived from StrEnumerationBase accepts a string iff it equals some member up to case, and returns that member; accepting is idempotent.", "quantifier": "all strings and all enumerations derived from StrEnumerationBase", "why_tests_cant": "A test samples inputs; the claim is about every input, of any size.", "anchors": ["mt_metadata/common/enumerations.py:StrEnumerationBase._normalize_case"]}
{"id": "C72", "title": "EDI key=value lines keep their pairing under any spacing", "statement": "_validate_str_with_equals splits a line into key=value items independent of blanks around '=', losing no key and no value.", "quantifier": "all lines", "why_tests_cant": "A test samples inputs; the claim is about every input, of any size.", "anchors": ["mt_metadata/transfer_functions/io/tools.py:_validate_str_with_equals"]}
{"id": "C73", "title": "Channel indexing of a transfer function names only recorded channels", "statement": "index_locator's input/output channels are channels that occur in the given list and its flags agree with their presence.", "quantifier": "all channel lists", "why_tests_cant": "A test samples inputs; the claim is about every input, of any size.", "anchors": ["mt_metadata/transfer_functions/io/tools.py:index_locator"]}
{"id": "C74", "title": "StationXML channel epochs are merged only if identical", "statement": "Adding a channel epoch to a run either extends an existing channel with identical metadata or creates a new one; comparison is reflexive and symmetric; no epoch is lost.", "quantifier": "all sequences of epochs", "why_tests_cant": "A test runs a handful of call sequences; the claim is about every sequence of every length.", "anchors": ["mt_metadata/timeseries/stationxml/xml_inventory_mt_experiment.py:XMLInventoryMTExperiment.add_run", "mt_metadata/timeseries/stationxml/xml_inventory_mt_experiment.py:XMLInventoryMTExperiment.compare_xml_channel"]}
{"id": "C75", "title": "A serialised time stamp reads back unchanged", "statement": "MTime(**t.model_dump()) equals t for every constructed t (the stored stamp is already UTC).", "quantifier": "all stamps, gps flag set or not", "why_tests_cant": "A test samples inputs; the claim is about every input, of any size.", "anchors": ["mt_metadata/common/mttime.py:MTime._serialize_model", "mt_metadata/common/mttime.py:MTime.validate_time_stamp", "mt_metadata/common/mttime.py:parse"]}
{"id": "C76", "title": "Adding and subtracting a duration are inverse", "statement": "(t + d) - d == t and (t + d) - t == d.", "quantifier": "all stamps and durations that stay in range", "why_tests_cant": "A test samples inputs; the claim is about every input, of any size.", "anchors": ["mt_metadata/common/mttime.py:MTime.__add__", "mt_metadata/common/mttime.py:MTime.__sub__"]}
{"id": "C77", "title": "MDate equality is equality of the printed date", "statement": "Two MDate values compare equal (and hash equal) exactly when they print the same date; printed dates order as the instants do.", "quantifier": "all pairs of stamps", "why_tests_cant": "A test samples inputs; the claim is about every input, of any size.", "anchors": ["mt_metadata/common/mttime.py:MDate", "mt_metadata/common/mttime.py:MTime.__eq__", "mt_metadata/common/mttime.py:MDate.__hash__"]}
{"id": "C78", "title": "MTime.from_dict leaves a usable time stamp", "statement": "After t.from_dict(value) with a value the constructor accepts, t.isoformat() works.", "quantifier": "all values", "why_tests_cant": "A test samples inputs; the claim is about every input, of any size.", "anchors": ["mt_metadata/common/mttime.py:MTime.from_dict", "mt_metadata/common/mttime.py:MTime.isoformat"]}
{"id": "C79", "title": "An automatic band name follows the frequencies", "statement": "A Band that was never given a name is named after its current frequency bounds.", "quantifier": "all frequency assignments", "why_tests_cant": "A test runs a handful of call sequences; the claim is about every sequence of every length.", "anchors": ["mt_metadata/common/band.py:Band.check_name", "mt_metadata/common/band.py:Band.validate_name"]}
{"id": "C80", "title": "to_dict() only leaves out empty fields", "statement": "obj.to_dict() (required only) contains every field whose value is not null-like, and every required field.", "quantifier": "all objects", "why_tests_cant": "A test samples inputs; the claim is about every input, of any size.", "anchors": ["mt_metadata/base/metadata.py:MetadataBase.to_dict"]}
{"id": "C81", "title": "Dictionaries read back into the object they came from", "statement": "new.from_dict(obj.to_dict(required=False)) makes new equal obj field by field; the default to_dict() restores every field it contains and leaves the others alone; skip_none never erases.", "quantifier": "all objects of one class", "why_tests_cant": "A test samples inputs; the claim is about every input, of any size.", "anchors": ["mt_metadata/base/metadata.py:MetadataBase.to_dict", "mt_metadata/base/metadata.py:MetadataBase.from_dict"]}
{"id": "C82", "title": "A constructor accepts the class-wrapped dictionary", "statement": "Cls(**obj.to_dict()) hands every entry of the wrapped dictionary to pydantic under its nested path, for dotted and nested keys alike.", "quantifier": "all wrapped dictionaries", "why_tests_cant": "A test samples inputs; the claim is about every input, of any size.", "anchors": ["mt_metadata/base/metadata.py:DotNotationBaseModel.__init__"]}
{"id": "C83", "title": "A removed run stays removed", "statement": "After remove_run(id) no later assignment of an unrelated station attribute brings a run with that id back.", "quantifier": "all stations, ids and update flags", "why_tests_cant": "A test runs a handful of call sequences; the claim is about every sequence of every length.", "anchors": ["mt_metadata/timeseries/station.py:Station.remove_run", "mt_metadata/timeseries/station.py:Station.validate_runs_and_channels_recorded"]}
{"id": "C84", "title": "Adding a station under a known id loses no runs", "statement": "After add_station with a station whose id the survey already has, every run of the old and of the added station can be found in the survey's station.", "quantifier": "all surveys, all stations", "why_tests_cant": "A test runs a handful of call sequences; the claim is about every sequence of every length.", "anchors": ["mt_metadata/timeseries/survey.py:Survey.add_station"]}
{"id": "C85", "title": "Adding a survey under a known id loses no stations", "statement": "After add_survey with a survey whose id the experiment already has, every station of either is in the experiment's survey.", "quantifier": "all experiments, all surveys", "why_tests_cant": "A test runs a handful of call sequences; the claim is about every sequence of every length.", "anchors": ["mt_metadata/timeseries/experiment.py:Experiment.add_survey"]}
{"id": "C86", "title": "The survey period covers its stations and only grows", "statement": "After updating, the start day of the survey is not after the start day of any station it counts and the end day not before; repeated updating never shrinks it.", "quantifier": "all surveys", "why_tests_cant": "A test samples inputs; the claim is about every input, of any size.", "anchors": ["mt_metadata/timeseries/survey.py:Survey.update_time_period"]}
{"id": "C87", "title": "Every experiment written to XML can be read", "statement": "from_xml(to_xml()) raises for no experiment.", "quantifier": "all experiments", "why_tests_cant": "A test samples inputs; the claim is about every input, of any size.", "anchors": ["mt_metadata/timeseries/experiment.py:Experiment.to_xml", "mt_metadata/timeseries/experiment.py:Experiment.from_xml"]}
{"id": "C88", "title": "Every filter written to XML is read back", "statement": "When reading succeeds, each filter of the survey is in the survey read back, under its lower-case name.", "quantifier": "all lists of filters", "why_tests_cant": "A test samples inputs; the claim is about every input, of any size.", "anchors": ["mt_metadata/timeseries/experiment.py:Experiment._read_filter_dict"]}
{"id": "C89", "title": "Validated names are normal and stable", "statement": "validate_name fails only on names starting with a digit; its result has no capitals and no slash, and validating it again changes nothing.", "quantifier": "all strings", "why_tests_cant": "A test samples inputs; the claim is about every input, of any size.", "anchors": ["mt_metadata/utils/validators.py:validate_name", "mt_metadata/utils/validators.py:validate_attribute"]}
{"id": "C90", "title": "Validated station names are words and stable", "statement": "validate_station_name returns only nonempty strings of letters, digits and underscores, returns those unchanged, and is idempotent.", "quantifier": "all strings", "why_tests_cant": "A test samples inputs; the claim is about every input, of any size.", "anchors": ["mt_metadata/utils/validators.py:validate_station_name"]}
{"id": "C91", "title": "A minus sign makes a position string negative", "statement": "The value read from a position string that begins with a minus sign is not positive.", "quantifier": "all position strings", "why_tests_cant": "A test samples inputs; the claim is about every input, of any size.", "anchors": ["mt_metadata/utils/location_helpers.py:convert_position_str2float"]}
{"id": "C92", "title": "Every known unit is found by its symbol and by its name", "statement": "Looking up the symbol of any unit in the table gives that unit; looking up its name in any mixture of upper and lower case does too.", "quantifier": "all units with all prefixes, all case variants", "why_tests_cant": "A test samples inputs; the claim is about every input, of any size.", "anchors": ["mt_metadata/common/units.py:get_unit_from_df"]}
{"id": "C93", "title": "Normalised unit names are stable", "statement": "The name of the unit found for a string, looked up again, gives a unit of the same name.", "quantifier": "all strings", "why_tests_cant": "A test samples inputs; the claim is about every input, of any size.", "anchors": ["mt_metadata/common/units.py:get_unit_object", "mt_metadata/timeseries/filters/filter_base.py:FilterBase.units_in_object"]}
{"id": "C94", "title": "Direction letters survive the channel code", "statement": "create_mt_component(make_channel_code(rate, type, letter)) is e or h followed by the letter for electric and magnetic channels and letters x, y, z.", "quantifier": "all sample rates", "why_tests_cant": "A test samples inputs; the claim is about every input, of any size.", "anchors": ["mt_metadata/timeseries/stationxml/fdsn_tools.py:create_mt_component", "mt_metadata/timeseries/stationxml/fdsn_tools.py:make_channel_code"]}
{"id": "C95", "title": "Removing a filter removes only it and renumbers the rest", "statement": "remove_filter(name) leaves exactly the other filters; with reset_stages they are numbered 1, 2, ... in stored order, without it an ordered channel keeps them as they are; get_filter(name) then finds nothing.", "quantifier": "all filter lists and names", "why_tests_cant": "A test samples inputs; the claim is about every input, of any size.", "anchors": ["mt_metadata/timeseries/channel.py:Channel.remove_filter", "mt_metadata/timeseries/channel.py:Channel.get_filter"]}
{"id": "C96", "title": "Pass bands lie in the given range and a flat filter passes everything", "statement": "FilterBase.pass_band returns frequencies from the given array with lower <= upper for increasing frequencies; a filter with frequency-independent amplitude passes the whole range.", "quantifier": "all frequency arrays and amplitudes", "why_tests_cant": "A test samples inputs; the claim is about every input, of any size.", "anchors": ["mt_metadata/timeseries/filters/filter_base.py:FilterBase.pass_band"]}
{"id": "C97", "title": "A FIR filter has its stated gain at the reference frequency", "statement": "abs(complex_response(gain_frequency)) equals abs(gain) for every FIR filter whose taps do not cancel there.", "quantifier": "all taps, symmetries, rates and gains", "why_tests_cant": "A test samples inputs; the claim is about every input, of any size.", "anchors": ["mt_metadata/timeseries/filters/fir_filter.py:FIRFilter.complex_response", "mt_metadata/timeseries/filters/fir_filter.py:FIRFilter.corrective_scalar"]}
{"id": "C98", "title": "A response table reproduces its entries", "statement": "complex_response at a tabulated frequency is gain times the tabulated amplitude with the tabulated phase.", "quantifier": "all increasing tables with two or more rows", "why_tests_cant": "A test samples inputs; the claim is about every input, of any size.", "anchors": ["mt_metadata/timeseries/filters/frequency_response_table_filter.py:FrequencyResponseTableFilter.complex_response"]}
{"id": "C99", "title": "Responses to real signals are Hermitian", "statement": "For coefficient, delay, FIR filters and pole-zero filters with conjugate pairs the channel response at -f is the complex conjugate of the response at f.", "quantifier": "all filter lists and frequencies", "why_tests_cant": "A test samples inputs; the claim is about every input, of any size.", "anchors": ["mt_metadata/timeseries/filters/channel_response.py:ChannelResponse.complex_response", "mt_metadata/timeseries/filters/pole_zero_filter.py:PoleZeroFilter.complex_response"]}
{"id": "C101", "title": "EMTF decimation data follow the level number", "statement": "Processing.assign_decimation_level_data_emtf(r) gives every level factor 1 (level 0) or 4 and the sample rate r/4^level, and changes nothing else.", "quantifier": "all lists of levels", "why_tests_cant": "A test samples inputs; the claim is about every input, of any size.", "anchors": ["mt_metadata/processing/aurora/processing.py:Processing.assign_decimation_level_data_emtf"]}
{"id": "C100", "title": "Stations data frame round trip", "statement": "Stations.from_dataset_dataframe(to_dataset_dataframe(stations)) reproduces the local and all remote stations; a data frame with only remote rows is refused.", "quantifier": "all stations objects, read into any stations object", "why_tests_cant": "A test samples inputs; the claim is about every input, of any size.", "anchors": ["mt_metadata/processing/aurora/stations.py:Stations.to_dataset_dataframe", "mt_metadata/processing/aurora/stations.py:Stations.from_dataset_dataframe"]}
{"id": "C102", "title": "Geomagnetic model names keep their version", "statement": "A geomagnetic model is accepted iff the part before the first dash is a known model in any case, and it is stored exactly as given.", "quantifier": "all strings", "why_tests_cant": "A test samples inputs; the claim is about every input, of any size.", "anchors": ["mt_metadata/common/enumerations.py:GeomagneticModelEnum._validate_lowercase"]}
{"id": "C103", "title": "Station lookup by id", "statement": "Stations.get_station returns the local station if it has the id, else the last added remote station with it, else raises KeyError.", "quantifier": "all stations objects and ids", "why_tests_cant": "A test samples inputs; the claim is about every input, of any size.", "anchors": ["mt_metadata/processing/aurora/stations.py:Stations.get_station"]}
{"id": "C104", "title": "Inactive kernels are skipped", "statement": "A kernel whose active flag is false does not take part in a feature weight.", "quantifier": "all feature weight specs and values", "why_tests_cant": "A test samples inputs; the claim is about every input, of any size.", "anchors": ["mt_metadata/features/weights/base.py:Base.active", "mt_metadata/features/weights/feature_weight_spec.py:FeatureWeightSpec.evaluate"]}
{"id": "C105", "title": "Every given weight kernel is used", "statement": "FeatureWeightSpec keeps every kernel it is given, in order.", "quantifier": "all lists of kernels and kernel dictionaries", "why_tests_cant": "A test samples inputs; the claim is about every input, of any size.", "anchors": ["mt_metadata/features/weights/feature_weight_spec.py:FeatureWeightSpec.validate_weight_kernels"]}
{"id": "C106", "title": "Activation kernels map into [0,1] and are monotone", "statement": "For lower < upper bound and steepness >= 0 an activation kernel is monotone in the direction of its threshold, stays in [0,1], and cuts what lies on the cut side of its bounds.", "quantifier": "all values, bounds, styles and steepnesses", "why_tests_cant": "A test samples inputs; the claim is about every input, of any size.", "anchors": ["mt_metadata/features/weights/activation_monotonic_weight_kernel.py:ActivationMonotonicWeightKernel.evaluate"]}
{"id": "C107", "title": "The composite taper is a band pass", "statement": "TaperWeightKernel.evaluate is in [0,1], 0 outside the two cuts and 1 between the transitions.", "quantifier": "all values, cuts and styles", "why_tests_cant": "A test samples inputs; the claim is about every input, of any size.", "anchors": ["mt_metadata/features/weights/taper_weight_kernel.py:TaperWeightKernel.evaluate"]}
{"id": "C108", "title": "Weights of a band come from the closest frequency", "statement": "get_weights_for_band returns the weights at the frequency closest to the band center (the first of several).", "quantifier": "all weights, frequencies and bands", "why_tests_cant": "A test samples inputs; the claim is about every input, of any size.", "anchors": ["mt_metadata/features/weights/channel_weight_spec.py:ChannelWeightSpec.get_weights_for_band"]}
{"id": "C109", "title": "Comment equality is comparison of contents", "statement": "A comment equals another comment (or string, dictionary) exactly when time stamp, author and text agree, and never equals None.", "quantifier": "all comments and right-hand sides", "why_tests_cant": "A test samples inputs; the claim is about every input, of any size.", "anchors": ["mt_metadata/common/comment.py:Comment.__eq__"]}
{"id": "C110", "title": "Comments survive their dictionary form", "statement": "Reading to_dict of a comment built through the API back with from_dict restores time stamp, author and text.", "quantifier": "all comments reachable by construction and assignment", "why_tests_cant": "A test runs a handful of call sequences; the claim is about every sequence of every length.", "anchors": ["mt_metadata/common/comment.py:Comment.from_dict", "mt_metadata/common/comment.py:Comment.set_variables"]}
{"id": "C111", "title": "Writing a comment as XML leaves the comment unchanged", "statement": "Comment.to_xml does not modify the comment it writes.", "quantifier": "all comments", "why_tests_cant": "A test samples inputs; the claim is about every input, of any size.", "anchors": ["mt_metadata/common/comment.py:Comment.to_xml"]}
{"id": "C112", "title": "EDI files on one line are split into the lines of the same file", "statement": "_validate_edi_lines returns lines without line ends, and a file stored on a single line is cut at its carriage returns.", "quantifier": "all files", "why_tests_cant": "A test samples inputs; the claim is about every input, of any size.", "anchors": ["mt_metadata/transfer_functions/io/tools.py:_validate_edi_lines"]}
{"id": "C113", "title": "Run ids of a channel survive StationXML", "statement": "The run ids written into the comments of a StationXML channel are the run ids read back, in order.", "quantifier": "all lists of run ids", "why_tests_cant": "A test samples inputs; the claim is about every input, of any size.", "anchors": ["mt_metadata/timeseries/stationxml/xml_channel_mt_channel.py:XMLChannelMTChannel._make_xml_comments", "mt_metadata/timeseries/stationxml/xml_channel_mt_channel.py:XMLChannelMTChannel._parse_xml_comments"]}
{"id": "C114", "title": "The comment of a channel survives StationXML", "statement": "The text of a channel comment written to StationXML is the text read back.", "quantifier": "all texts", "why_tests_cant": "A test samples inputs; the claim is about every input, of any size.", "anchors": ["mt_metadata/timeseries/stationxml/xml_channel_mt_channel.py:XMLChannelMTChannel._make_xml_comments", "mt_metadata/timeseries/stationxml/xml_channel_mt_channel.py:XMLChannelMTChannel._parse_xml_comments"]}
{"id": "C115", "title": "Dictionary-like StationXML comments are read completely", "statement": "read_xml_comment reads a comment 'k: v, k: v, ...' into the dictionary of its pairs.", "quantifier": "all comments of any number of pairs", "why_tests_cant": "A test samples inputs; the claim is about every input, of any size.", "anchors": ["mt_metadata/timeseries/stationxml/utils.py:read_xml_comment"]}
{"id": "C116", "title": "Author and comments of a StationXML comment are separated", "statement": "'author: a, comments: c' is read as author a and comments c, in either order and with either missing.", "quantifier": "all authors and texts", "why_tests_cant": "A test samples inputs; the claim is about every input, of any size.", "anchors": ["mt_metadata/timeseries/stationxml/utils.py:read_xml_comment"]}
{"id": "C117", "title": "The comment of a run survives StationXML", "statement": "The comment of a run, written as station comment mt.run:<id>.comments, is read back into the same run.", "quantifier": "all run ids and texts", "why_tests_cant": "A test samples inputs; the claim is about every input, of any size.", "anchors": ["mt_metadata/timeseries/stationxml/xml_station_mt_station.py:XMLStationMTStation._add_run_comments", "mt_metadata/timeseries/stationxml/utils.py:create_comment"]}
{"id": "C118", "title": "The data logger description survives StationXML", "statement": "The description written for a run's data logger is parsed back into the same fields.", "quantifier": "all fields and values", "why_tests_cant": "A test samples inputs; the claim is about every input, of any size.", "anchors": ["mt_metadata/timeseries/stationxml/xml_equipment_mt_run.py:XMLEquipmentMTRun._make_description", "mt_metadata/timeseries/stationxml/xml_equipment_mt_run.py:XMLEquipmentMTRun._parse_description"]}
{"id": "C119", "title": "Electrode ids survive StationXML", "statement": "The ids of the positive and negative electrode are read back as written.", "quantifier": "all ids", "why_tests_cant": "A test samples inputs; the claim is about every input, of any size.", "anchors": ["mt_metadata/timeseries/stationxml/xml_channel_mt_channel.py:XMLChannelMTChannel._parse_electrode_ids"]}
{"id": "C120", "title": "The reversed translator inverts the translator", "statement": "flip_dict maps every name of an entry back to the key of that entry.", "quantifier": "all translator dictionaries", "why_tests_cant": "A test samples inputs; the claim is about every input, of any size.", "anchors": ["mt_metadata/timeseries/stationxml/utils.py:BaseTranslator.flip_dict"]}
{"id": "C121", "title": "The DOI of a survey survives StationXML", "statement": "The DOI written as network identifier is the DOI read back.", "quantifier": "all DOIs", "why_tests_cant": "A test samples inputs; the claim is about every input, of any size.", "anchors": ["mt_metadata/timeseries/stationxml/xml_network_mt_survey.py:XMLNetworkMTSurvey.xml_to_mt", "mt_metadata/timeseries/stationxml/xml_network_mt_survey.py:XMLNetworkMTSurvey.mt_to_xml"]}
{"id": "C122", "title": "The model of a magnetic sensor survives StationXML", "statement": "Model and name of a magnetometer are read back as written.", "quantifier": "all models and names", "why_tests_cant": "A test samples inputs; the claim is about every input, of any size.", "anchors": ["mt_metadata/timeseries/stationxml/xml_channel_mt_channel.py:XMLChannelMTChannel._mt_to_sensor", "mt_metadata/timeseries/stationxml/xml_channel_mt_channel.py:XMLChannelMTChannel._sensor_to_mt"]}
{"id": "C123", "title": "The id of a run survives its resource id", "statement": "The run id written in the equipment's resource id is the id read back.", "quantifier": "all run ids", "why_tests_cant": "A test samples inputs; the claim is about every input, of any size.", "anchors": ["mt_metadata/timeseries/stationxml/xml_equipment_mt_run.py:XMLEquipmentMTRun.xml_to_mt", "mt_metadata/timeseries/stationxml/xml_equipment_mt_run.py:XMLEquipmentMTRun.mt_to_xml"]}
{"id": "C124", "title": "The licence of a survey survives StationXML", "statement": "The release licence of a survey written as the restricted status of a network is the licence read back.", "quantifier": "all licences a survey accepts", "why_tests_cant": "A test samples inputs; the claim is about every input, of any size.", "anchors": ["mt_metadata/common/enumerations.py:LicenseEnum", "mt_metadata/common/copyright.py:Copyright", "mt_metadata/timeseries/stationxml/fdsn_tools.py:release_dict", "mt_metadata/timeseries/stationxml/xml_network_mt_survey.py:XMLNetworkMTSurvey"]}
{"id": "C125", "title": "An accepted licence is accepted again", "statement": "A licence that was accepted is stored under a value that is itself accepted and unchanged; spellings that differ only in separators name the same licence.", "quantifier": "all texts given as licence", "why_tests_cant": "A test samples inputs; the claim is about every input, of any size.", "anchors": ["mt_metadata/common/enumerations.py:LicenseEnum", "mt_metadata/common/copyright.py:Copyright", "mt_metadata/timeseries/survey.py:Survey.validate_release_license"]}
{"id": "C126", "title": "Runs get their channels back from StationXML", "statement": "A station written as channel epochs and read back gives every run exactly the channels it had, and no others.", "quantifier": "all stations, any number of runs and channels", "why_tests_cant": "A test runs a handful of call sequences; the claim is about every sequence of every length.", "anchors": ["mt_metadata/timeseries/stationxml/xml_inventory_mt_experiment.py:XMLInventoryMTExperiment.add_run", "mt_metadata/timeseries/stationxml/xml_inventory_mt_experiment.py:XMLInventoryMTExperiment.xml_to_mt"]}
{"id": "C127", "title": "Channels that list no run are kept", "statement": "Reading StationXML from another source, every channel ends up in a run of the station.", "quantifier": "all stations whose channels list no runs", "why_tests_cant": "A test samples inputs; the claim is about every input, of any size.", "anchors": ["mt_metadata/timeseries/stationxml/xml_inventory_mt_experiment.py:XMLInventoryMTExperiment.xml_to_mt"]}
{"id": "C128", "title": "Impedance and tipper of a Z file in geographic coordinates", "statement": "ZMM.calculate_impedance and calculate_tippers return the tensor that, for every magnetic field, gives the electric (vertical magnetic) field in north and east components, whatever the azimuths and the order of the channels in the file; the angle argument turns the tensor by that angle and leaves determinant, trace and Zxy - Zyx unchanged.", "quantifier": "for all files, azimuths, channel orders, numbers of predicted channels, angles and fields", "why_tests_cant": "A test samples inputs; the claim is about every input, of any size.", "anchors": ["mt_metadata/transfer_functions/io/zfiles/zmm.py:ZMM.calculate_impedance", "mt_metadata/transfer_functions/io/zfiles/zmm.py:ZMM.calculate_tippers"]}
{"id": "C129", "title": "Errors of impedances and tippers of a Z file", "statement": "If the matrices of the file are covariances (inverse signal power of the magnetic channels and residual covariance), every error returned is a real number, and it is the root of the residual variance of the geographic component times the inverse power of the geographic magnetic component.", "quantifier": "for all files, azimuths, angles and all sets of samples from which the matrices were made", "why_tests_cant": "A test samples inputs; the claim is about every input, of any size.", "anchors": ["mt_metadata/transfer_functions/io/zfiles/zmm.py:ZMM.calculate_impedance", "mt_metadata/transfer_functions/io/zfiles/zmm.py:ZMM.calculate_tippers"]}
{"id": "C130", "title": "Reading, writing and reading a Z file keeps the impedance", "statement": "A Z file that is read with the defaults, written and read again has the impedance of the first file.", "quantifier": "for all files and azimuths", "why_tests_cant": "A test runs a handful of call sequences; the claim is about every sequence of every length.", "anchors": ["mt_metadata/transfer_functions/io/zfiles/zmm.py:ZMM.write", "mt_metadata/transfer_functions/io/zfiles/zmm.py:ZMM._fill_dataset", "mt_metadata/transfer_functions/io/zfiles/zmm.py:ZMM.calculate_impedance"]}
{"id": "C131", "title": "Transfer functions from the spectra of an EDI file", "statement": "For spectra made of any samples of the channels, EDI._read_spectra returns the impedance (and tipper) whose residuals are uncorrelated with the reference channels; if the samples obey an impedance and a tipper, these are returned. Files have four to seven channels, with or without a vertical magnetic field, with or without remote reference.", "quantifier": "for all numbers of samples, samples, orders of channels and reference channels for which the reference spectra can be inverted", "why_tests_cant": "A test samples inputs; the claim is about every input, of any size.", "anchors": ["mt_metadata/transfer_functions/io/edi/edi.py:EDI._read_spectra"]}
{"id": "C132", "title": "Errors from the spectra of an EDI file", "statement": "The errors EDI._read_spectra returns are the roots of residual variance times inverse reference power, and never zero.", "quantifier": "for all samples and numbers of averages", "why_tests_cant": "A test samples inputs; the claim is about every input, of any size.", "anchors": ["mt_metadata/transfer_functions/io/edi/edi.py:EDI._read_spectra"]}
{"id": "C133", "title": "Impedance from apparent resistivity and phase in EDI files", "statement": "An element of the impedance given as apparent resistivity and phase has modulus sqrt(5 f rho) and that phase, and its error is the phase error times the modulus; elements given as real and imaginary part are not changed.", "quantifier": "for all frequencies, resistivities and phases", "why_tests_cant": "A test samples inputs; the claim is about every input, of any size.", "anchors": ["mt_metadata/transfer_functions/io/edi/edi.py:EDI._read_mt"]}
{"id": "C134", "title": "Data written to an EDI file are read back", "statement": "For arrays of frequencies, rotation angles, impedances, tippers and variances EDI.write followed by EDI._read_mt returns the same arrays, with every number as the format prints it and zeros as zeros, or all of them turned around when the frequencies ascend.", "quantifier": "for all numbers of frequencies, arrays, empty values and number formats that leave a blank before numbers", "why_tests_cant": "A test samples inputs; the claim is about every input, of any size.", "anchors": ["mt_metadata/transfer_functions/io/edi/edi.py:EDI.write", "mt_metadata/transfer_functions/io/edi/edi.py:EDI._write_data_block", "mt_metadata/transfer_functions/io/edi/edi.py:EDI._read_mt", "mt_metadata/transfer_functions/io/edi/edi.py:EDI._assert_descending_frequency"]}
{"id": "C135", "title": "Arrays assigned to a transfer function are returned", "statement": "After any sequence of assignments of NumPy arrays, None and periods to a TF object, with exceptions in between, every property (transfer_function, impedance, tipper, their errors and model errors, inverse_signal_power, residual_covariance) returns the numbers last assigned to it, directly or as part of transfer_function, and None if the data are all zero; arrays of a wrong shape or number of periods are refused and change nothing.", "quantifier": "for all distinct channel names, periods, sequences of assignments and arrays with or without nan", "why_tests_cant": "A test runs a handful of call sequences; the claim is about every sequence of every length.", "anchors": ["mt_metadata/transfer_functions/core.py:TF._set_data_array", "mt_metadata/transfer_functions/core.py:TF._validate_input_ndarray", "mt_metadata/transfer_functions/core.py:TF.impedance", "mt_metadata/transfer_functions/core.py:TF.tipper", "mt_metadata/transfer_functions/core.py:TF.transfer_function"]}
{"id": "C136", "title": "Assigning periods keeps the arrays", "statement": "Assigning as many periods as a TF object has replaces them and keeps all arrays; another number of periods is refused once periods were given.", "quantifier": "for all states that assignments lead to and all lists of periods", "why_tests_cant": "A test runs a handful of call sequences; the claim is about every sequence of every length.", "anchors": ["mt_metadata/transfer_functions/core.py:TF.period"]}
{"id": "C137", "title": "Errors from covariances", "statement": "When inverse_signal_power and residual_covariance have both been assigned, in either order and whatever was assigned before, the error of an element of impedance or tipper is the square root of the modulus of residual variance of the output times inverse signal power of the input.", "quantifier": "for all states that assignments lead to and all covariances that are not zero", "why_tests_cant": "A test runs a handful of call sequences; the claim is about every sequence of every length.", "anchors": ["mt_metadata/transfer_functions/core.py:TF._compute_error_from_covariance", "mt_metadata/transfer_functions/core.py:TF.inverse_signal_power", "mt_metadata/transfer_functions/core.py:TF.residual_covariance"]}
{"id": "C138", "title": "Labelled arrays are assigned by label", "statement": "A DataArray is assigned by its channel labels, whatever their order, and changes no other array; wrong labels and other periods are refused and change nothing.", "quantifier": "for all states that assignments lead to and all labelled arrays", "why_tests_cant": "A test runs a handful of call sequences; the claim is about every sequence of every length.", "anchors": ["mt_metadata/transfer_functions/core.py:TF._validate_input_dataarray", "mt_metadata/transfer_functions/core.py:TF._set_data_array"]}
{"id": "C139", "title": "Renaming channels", "statement": "The arrays of a TF object are kept when channel_nomenclature is given other names.", "quantifier": "for all states that assignments lead to and all names", "why_tests_cant": "A test runs a handful of call sequences; the claim is about every sequence of every length.", "anchors": ["mt_metadata/transfer_functions/core.py:TF.channel_nomenclature", "mt_metadata/transfer_functions/core.py:TF.has_impedance"]}
{"id": "C140", "title": "Blocks of EDI files are read by their names", "statement": "In an EDI file of blocks in any order EDI._read_mt takes each part of each element, the frequencies and the angles from the last block with the name the EDI standard gives it, in upper or lower case and with anything else in its line; blocks of other names have no effect; numbers that cannot be read and the empty value are zero; a missing tipper is zero.", "quantifier": "for all lists of blocks, names, lines and numbers", "why_tests_cant": "A test samples inputs; the claim is about every input, of any size.", "anchors": ["mt_metadata/transfer_functions/io/edi/edi.py:EDI._read_mt", "mt_metadata/transfer_functions/io/edi/edi.py:EDI._assert_descending_frequency"]}
{"id": "C141", "title": "A Z file written and read again", "statement": "The text ZMM.write writes, read by ZMM.read without rotation, gives back the processing type, the station, the coordinates rounded to three decimals, the declination, number, azimuth and tilt of each channel, and for each period its value, decimation level, band, number of points and sampling rate, the transfer functions between the two channels of the lowest numbers (inputs) and the others (outputs), and the Hermitian inverse signal power and residual covariance matrices, all rounded to the digits written; all other elements are zero.", "quantifier": "for all headers, channel numbers, numbers of channels and periods, and values; any printing and reading of numbers that agree", "why_tests_cant": "A test samples inputs; the claim is about every input, of any size.", "anchors": ["mt_metadata/transfer_functions/io/zfiles/zmm.py:ZMM.write", "mt_metadata/transfer_functions/io/zfiles/zmm.py:ZMM.read", "mt_metadata/transfer_functions/io/zfiles/zmm.py:ZMMHeader.read_header", "mt_metadata/transfer_functions/io/zfiles/zmm.py:ZMMHeader.write_header", "mt_metadata/transfer_functions/io/zfiles/zmm.py:ZMM._get_period_blocks", "mt_metadata/transfer_functions/io/zfiles/zmm.py:ZMM._read_period_block"]}
{"id": "C142", "title": "Names and unnumbered channels in Z files", "statement": "A station name of one line comes back from a Z file, and so do the transfer functions of channels that had no number when the file was written.", "quantifier": "for all names", "why_tests_cant": "A test samples inputs; the claim is about every input, of any size.", "anchors": ["mt_metadata/transfer_functions/io/zfiles/zmm.py:ZMMHeader.read_header", "mt_metadata/transfer_functions/io/zfiles/zmm.py:ZMMHeader.write_header"]}
{"id": "C143", "title": "Values of a J file are found at their periods", "statement": "After JFile.read the periods are exactly the unmasked numbers in the first column of the impedance rows (and of the tipper rows, if there are any of the first tipper), none twice; at each period every component has the value and the error of its last row with that period, and zero where it has no row; masked and unreadable numbers are zero, infinite errors a million.", "quantifier": "for all files of a header, a station, blocks of components in any order and number with any rows, and resistivities behind; any floats whose text is read as what it was", "why_tests_cant": "A test samples inputs; the claim is about every input, of any size.", "anchors": ["mt_metadata/transfer_functions/io/jfiles/jfile.py:JFile.read"]}
{"id": "C144", "title": "The header of a J file is read", "statement": "The names and values in the comment lines of a J file are read whatever the number of blanks: the descriptions of data files in groups that begin with nfil, the angles in groups that begin with theta1, all others as parameters, numbers as numbers; the title is the first line; the file is read without error.", "quantifier": "for all headers of words without equals signs and commas, in any number of lines and in any order of groups and parameters", "why_tests_cant": "A test samples inputs; the claim is about every input, of any size.", "anchors": ["mt_metadata/transfer_functions/io/jfiles/metadata/header.py:Header.read_header", "mt_metadata/transfer_functions/io/jfiles/metadata/header.py:Header._read_header_line", "mt_metadata/transfer_functions/io/jfiles/jfile.py:JFile.read"]}
{"id": "C145", "title": "The position in a J file is read", "statement": "Latitude, longitude, elevation and azimuth given in the information lines of a J file are those of the header after reading.", "quantifier": "for all positions", "why_tests_cant": "A test samples inputs; the claim is about every input, of any size.", "anchors": ["mt_metadata/transfer_functions/io/jfiles/metadata/header.py:Header.read_metadata", "mt_metadata/transfer_functions/io/jfiles/jfile.py:JFile._validate_j_file"]}
{"id": "C146", "title": "The periods of a J file increase", "statement": "The periods read from a J file are in increasing order.", "quantifier": "for all files", "why_tests_cant": "A test samples inputs; the claim is about every input, of any size.", "anchors": ["mt_metadata/transfer_functions/io/jfiles/jfile.py:JFile.read"]}
{"id": "C147", "title": "Lists in the header of a J file", "statement": "A name followed by several values in the header of a J file (such as indices) gets all of them.", "quantifier": "for all lists of values", "why_tests_cant": "A test samples inputs; the claim is about every input, of any size.", "anchors": ["mt_metadata/transfer_functions/io/jfiles/metadata/header.py:Header._read_header_line"]}
{"id": "C148", "title": "Making positions readable leaves the rest of a J file", "statement": "Before a J file is read only its latitude, longitude and elevation lines are rewritten; the other lines are kept, and files without these lines are read as well.", "quantifier": "for all files", "why_tests_cant": "A test samples inputs; the claim is about every input, of any size.", "anchors": ["mt_metadata/transfer_functions/io/jfiles/jfile.py:JFile._validate_j_file"]}
{"id": "C149", "title": "A J file gives a transfer function", "statement": "A J file that can be read gives a transfer function, with a run whose sample rate is the inverse of the time step (or its absolute value, if negative).", "quantifier": "for all files", "why_tests_cant": "A test samples inputs; the claim is about every input, of any size.", "anchors": ["mt_metadata/transfer_functions/io/jfiles/jfile.py:JFile.station_metadata", "mt_metadata/transfer_functions/core.py:TF.from_jfile"]}
{"id": "C150", "title": "All blocks of a J file are read", "statement": "Every row of a component in a J file is read, wherever blocks of resistivities and empty lines are.", "quantifier": "for all files", "why_tests_cant": "A test samples inputs; the claim is about every input, of any size.", "anchors": ["mt_metadata/transfer_functions/io/jfiles/jfile.py:JFile.read"]}
{"id": "C151", "title": "Values of an AVG table are at their frequencies and elements", "statement": "Each row of an AVG table gives, in the impedance at its frequency and component, its magnitude times exp(i phase/1000); the last row counts if a component repeats a frequency; elements without a row are zero with error one; the frequencies are those of the rows, each once, ascending. Components are placed by their letters, x being north if z is positive down and east if it is positive up.", "quantifier": "for all tables with known components of the impedance, both directions of z", "why_tests_cant": "A test samples inputs; the claim is about every input, of any size.", "anchors": ["mt_metadata/transfer_functions/io/zonge/zonge.py:ZongeMTAvg._fill_z", "mt_metadata/transfer_functions/io/zonge/zonge.py:ZongeMTAvg._get_comp_index", "mt_metadata/transfer_functions/io/zonge/zonge.py:ZongeMTAvg.read"]}
{"id": "C152", "title": "Magnitudes and phases of AVG files are inverse to complex values", "statement": "to_complex undoes to_amp_phase for every complex number, and to_amp_phase undoes to_complex for positive magnitudes and phases within half a turn.", "quantifier": "for all complex numbers, all positive magnitudes and phases in the principal range", "why_tests_cant": "A test samples inputs; the claim is about every input, of any size.", "anchors": ["mt_metadata/transfer_functions/io/zonge/zonge.py:ZongeMTAvg.to_complex", "mt_metadata/transfer_functions/io/zonge/zonge.py:ZongeMTAvg.to_amp_phase"]}
{"id": "C153", "title": "Errors of the impedance in AVG files", "statement": "An error of p percent of the apparent resistivity, in a row whose magnitude and resistivity agree, is an error of p/2 percent of the impedance.", "quantifier": "for all rows", "why_tests_cant": "A test samples inputs; the claim is about every input, of any size.", "anchors": ["mt_metadata/transfer_functions/io/zonge/zonge.py:ZongeMTAvg._fill_z"]}
{"id": "C154", "title": "Errors of the tipper in AVG files", "statement": "The error of the tipper is zero if the errors in the file are zero.", "quantifier": "for all tables with tipper", "why_tests_cant": "A test samples inputs; the claim is about every input, of any size.", "anchors": ["mt_metadata/transfer_functions/io/zonge/zonge.py:ZongeMTAvg._fill_t"]}
{"id": "C155", "title": "The lines that start a component are read", "statement": "The line $Rx.Cmp=... is read for all components of impedance and tipper, with and without blanks at the equals sign.", "quantifier": "for all components and all states of reading", "why_tests_cant": "A test samples inputs; the claim is about every input, of any size.", "anchors": ["mt_metadata/transfer_functions/io/zonge/metadata/header.py:Header.read_header"]}
{"id": "C156", "title": "Impedances go through the AVG table", "statement": "The table made from the arrays, read as a table, gives the impedance of the arrays at every frequency.", "quantifier": "for all arrays, all lists of different frequencies in any order, both directions of z", "why_tests_cant": "A test samples inputs; the claim is about every input, of any size.", "anchors": ["mt_metadata/transfer_functions/io/zonge/zonge.py:ZongeMTAvg._create_dataframe_from_arrays", "mt_metadata/transfer_functions/io/zonge/zonge.py:ZongeMTAvg._fill_z"]}
{"id": "C157", "title": "Errors go through the AVG table", "statement": "The table made from the arrays, read as a table, gives the errors of the arrays.", "quantifier": "for all arrays with errors that are not negative and positive frequencies", "why_tests_cant": "A test samples inputs; the claim is about every input, of any size.", "anchors": ["mt_metadata/transfer_functions/io/zonge/zonge.py:ZongeMTAvg._create_dataframe_from_arrays", "mt_metadata/transfer_functions/io/zonge/zonge.py:ZongeMTAvg._fill_z"]}
{"id": "C158", "title": "Tippers go through the AVG table", "statement": "The table made from the arrays, read as a table, gives the tipper of the arrays.", "quantifier": "for all arrays, both directions of z", "why_tests_cant": "A test samples inputs; the claim is about every input, of any size.", "anchors": ["mt_metadata/transfer_functions/io/zonge/zonge.py:ZongeMTAvg._create_dataframe_from_arrays", "mt_metadata/transfer_functions/io/zonge/zonge.py:ZongeMTAvg._fill_t"]}
{"id": "C159", "title": "An AVG table is written and read", "statement": "Reading the file written from a table gives all its rows with numbers as rounded in the text, the rounded frequencies ascending and the impedances of the rounded magnitudes and phases; without a table the same holds of the arrays.", "quantifier": "for all tables of any components and order, all readable headers, any way of printing numbers that can be read", "why_tests_cant": "A test samples inputs; the claim is about every input, of any size.", "anchors": ["mt_metadata/transfer_functions/io/zonge/zonge.py:ZongeMTAvg.write", "mt_metadata/transfer_functions/io/zonge/zonge.py:ZongeMTAvg.read", "mt_metadata/transfer_functions/io/zonge/metadata/header.py:Header.write_header", "mt_metadata/transfer_functions/io/zonge/metadata/header.py:Header.read_header"]}
{"id": "C160", "title": "A file written with a valid header can be read", "statement": "If the values of the header are valid, the AVG file written with it can be read.", "quantifier": "for all headers and tables", "why_tests_cant": "A test samples inputs; the claim is about every input, of any size.", "anchors": ["mt_metadata/transfer_functions/io/zonge/metadata/header.py:Header.write_header", "mt_metadata/transfer_functions/io/zonge/metadata/header.py:Header.read_header"]}
{"id": "C161", "title": "A transfer function written as AVG file can be read", "statement": "TF.write to an AVG file followed by TF.read succeeds.", "quantifier": "for all transfer functions with impedance", "why_tests_cant": "A test samples inputs; the claim is about every input, of any size.", "anchors": ["mt_metadata/transfer_functions/core.py:TF.to_avg", "mt_metadata/transfer_functions/core.py:TF.from_avg", "mt_metadata/transfer_functions/io/zonge/zonge.py:ZongeMTAvg.write", "mt_metadata/transfer_functions/io/zonge/zonge.py:ZongeMTAvg.read"]}
{"id": "C162", "title": "Arrays of an AVG object are what is written", "statement": "Reading the file written from an object gives the impedance array of the object, rounded as in the text.", "quantifier": "for all objects, with or without a table", "why_tests_cant": "A test samples inputs; the claim is about every input, of any size.", "anchors": ["mt_metadata/transfer_functions/io/zonge/zonge.py:ZongeMTAvg.write", "mt_metadata/transfer_functions/io/zonge/zonge.py:ZongeMTAvg._create_dataframe_from_arrays"]}
{"id": "C163", "title": "Names of stations go through AVG files", "statement": "The name of the station in a written file is read as it was.", "quantifier": "for all names without blanks at the ends", "why_tests_cant": "A test samples inputs; the claim is about every input, of any size.", "anchors": ["mt_metadata/transfer_functions/io/zonge/metadata/header.py:Header.read_header", "mt_metadata/transfer_functions/io/zonge/metadata/header.py:Header.write_header"]}
{"id": "C164", "title": "The option toZmag of AVG files is read", "statement": "The option PhaseSlope.toZmag of a file is the attribute that is written as PhaseSlope.ToZMag.", "quantifier": "for all values and states of reading", "why_tests_cant": "A test samples inputs; the claim is about every input, of any size.", "anchors": ["mt_metadata/transfer_functions/io/zonge/metadata/header.py:Header.read_header"]}
{"id": "C165", "title": "Azimuths of channels from AVG files", "statement": "The azimuth of a channel is that in the lines of its component, if there are any, else it is from the heading of the array.", "quantifier": "for all headers", "why_tests_cant": "A test samples inputs; the claim is about every input, of any size.", "anchors": ["mt_metadata/transfer_functions/io/zonge/zonge.py:ZongeMTAvg.run_metadata", "mt_metadata/transfer_functions/io/zonge/metadata/header.py:Header._has_channel"]}
{"id": "C166", "title": "Bounds of merge", "statement": "Every merged period is within the inclusive bounds of the transfer function it comes from, with the numbers it has there.", "quantifier": "for all transfer functions with periods in any order, all lists of items, all bounds", "why_tests_cant": "A test samples inputs; the claim is about every input, of any size.", "anchors": ["mt_metadata/transfer_functions/core.py:TF.merge"]}
{"id": "C167", "title": "Merge loses no period", "statement": "Every period within the bounds of a merged transfer function is in the result with its numbers, unless merge raises.", "quantifier": "for all transfer functions, all lists of items, all bounds", "why_tests_cant": "A test samples inputs; the claim is about every input, of any size.", "anchors": ["mt_metadata/transfer_functions/core.py:TF.merge"]}
{"id": "C168", "title": "Transfer functions that do not overlap can be merged", "statement": "Merging transfer functions whose periods within bounds do not overlap succeeds.", "quantifier": "for all transfer functions with periods in any order, all lists of items, all bounds", "why_tests_cant": "A test samples inputs; the claim is about every input, of any size.", "anchors": ["mt_metadata/transfer_functions/core.py:TF.merge"]}
{"id": "C169", "title": "Merge does not depend on the order of the items", "statement": "The result of merge is the same for any order of the list of transfer functions.", "quantifier": "for all transfer functions and all permutations of all lists of items", "why_tests_cant": "A test samples inputs; the claim is about every input, of any size.", "anchors": ["mt_metadata/transfer_functions/core.py:TF.merge"]}
{"id": "C170", "title": "Merge leaves the merged transfer functions unchanged", "statement": "The transfer functions given to merge are as they were afterwards, also if it raises.", "quantifier": "for all transfer functions, all lists of items, all bounds", "why_tests_cant": "A test samples inputs; the claim is about every input, of any size.", "anchors": ["mt_metadata/transfer_functions/core.py:TF.merge"]}
{"id": "C171", "title": "Merged periods ascend", "statement": "The periods of the result ascend and no period is there twice, if none is twice in one of the parts.", "quantifier": "for all transfer functions, all lists of items, all bounds", "why_tests_cant": "A test samples inputs; the claim is about every input, of any size.", "anchors": ["mt_metadata/transfer_functions/core.py:TF.merge"]}
{"id": "C172", "title": "Merge in place", "statement": "Merge in place changes the object to what merge would return; otherwise, and if it raises, the object is unchanged.", "quantifier": "for all transfer functions, all lists of items, all bounds", "why_tests_cant": "A test samples inputs; the claim is about every input, of any size.", "anchors": ["mt_metadata/transfer_functions/core.py:TF.merge"]}
{"id": "C173", "title": "Equal transfer functions", "statement": "Objects that compare as equal have equal metadata, periods, transfer functions and errors.", "quantifier": "for all pairs of objects", "why_tests_cant": "A test samples inputs; the claim is about every input, of any size.", "anchors": ["mt_metadata/transfer_functions/core.py:TF.__eq__"]}
{"id": "C174", "title": "Files are read in the format in which they are written", "statement": "TF.read, given the name of a file that TF.write made, chooses the format in which it was written.", "quantifier": "for all names, directories, types and stations", "why_tests_cant": "A test samples inputs; the claim is about every input, of any size.", "anchors": ["mt_metadata/transfer_functions/core.py:TF.write", "mt_metadata/transfer_functions/core.py:TF.read"]}
{"id": "C175", "title": "File types of the documentation", "statement": "TF.write writes each of the file types in its signature under the name of the station, and a full path decides on type, name and directory.", "quantifier": "for all stations, directories and arguments", "why_tests_cant": "A test samples inputs; the claim is about every input, of any size.", "anchors": ["mt_metadata/transfer_functions/core.py:TF.write"]}
{"id": "C176", "title": "EMTF XML data are read back", "statement": "The data written to an EMTF XML file are read back: all periods to thirteen digits and every number that is neither zero nor missing to seven.", "quantifier": "for all numbers of periods, all arrays given or not, all entries", "why_tests_cant": "A test samples inputs; the claim is about every input, of any size.", "anchors": ["mt_metadata/transfer_functions/io/emtfxml/metadata/data.py:TransferFunction.write_block", "mt_metadata/transfer_functions/io/emtfxml/metadata/data.py:TransferFunction.read_data", "mt_metadata/transfer_functions/io/emtfxml/metadata/data.py:TransferFunction.read_dict", "mt_metadata/transfer_functions/io/emtfxml/emtfxml.py:EMTFXML.write", "mt_metadata/transfer_functions/io/emtfxml/emtfxml.py:EMTFXML.read"]}
{"id": "C177", "title": "Zeros in EMTF XML", "statement": "An entry that is zero or missing is read back as zero.", "quantifier": "for all arrays and entries", "why_tests_cant": "A test samples inputs; the claim is about every input, of any size.", "anchors": ["mt_metadata/transfer_functions/io/emtfxml/metadata/data.py:TransferFunction.write_block", "mt_metadata/transfer_functions/io/emtfxml/metadata/data.py:TransferFunction.read_block"]}
{"id": "C178", "title": "Data types of EMTF XML files", "statement": "Data written to a file and read again have the same data types (impedance, tipper).", "quantifier": "for all arrays given or not", "why_tests_cant": "A test samples inputs; the claim is about every input, of any size.", "anchors": ["mt_metadata/transfer_functions/io/emtfxml/metadata/data.py:TransferFunction.write_block", "mt_metadata/transfer_functions/io/emtfxml/emtfxml.py:EMTFXML._get_data_types"]}
{"id": "C179", "title": "Statistical estimates", "statement": "A statistical estimate is listed if and only if the impedances or the tippers have one that is not zero.", "quantifier": "for all arrays given or not", "why_tests_cant": "A test samples inputs; the claim is about every input, of any size.", "anchors": ["mt_metadata/transfer_functions/io/emtfxml/emtfxml.py:EMTFXML._get_statistical_estimates"]}
{"id": "C180", "title": "Data types", "statement": "A data type is listed, once and impedances first, if and only if its array has a number that is not zero.", "quantifier": "for all arrays given or not", "why_tests_cant": "A test samples inputs; the claim is about every input, of any size.", "anchors": ["mt_metadata/transfer_functions/io/emtfxml/emtfxml.py:EMTFXML._get_data_types"]}
{"id": "C181", "title": "Site layout follows the data", "statement": "After the update the site layout has hx and hy if there are impedances or tippers, ex and ey if there are impedances, hz if there are tippers, and no others; channels given before are kept, and only missing ones are made.", "quantifier": "for all data and all previous layouts, in any spelling of names", "why_tests_cant": "A test samples inputs; the claim is about every input, of any size.", "anchors": ["mt_metadata/transfer_functions/io/emtfxml/emtfxml.py:EMTFXML._update_site_layout"]}
{"id": "C182", "title": "Texts of repeated elements", "statement": "No text of an XML element is lost when the keys of its dictionary are made lower case.", "quantifier": "for all element trees", "why_tests_cant": "A test samples inputs; the claim is about every input, of any size.", "anchors": ["mt_metadata/transfer_functions/io/emtfxml/metadata/helpers.py:_convert_keys_to_lower_case", "mt_metadata/base/helpers.py:element_to_dict"]}
{"id": "C183", "title": "EMTF XML objects keep the transfer function", "statement": "A transfer function converted to an EMTF XML object and back has its periods, transfer function, errors, inverse signal power and residual covariance.", "quantifier": "for all histories of assignments, all periods and arrays", "why_tests_cant": "A test runs a handful of call sequences; the claim is about every sequence of every length.", "anchors": ["mt_metadata/transfer_functions/core.py:TF.to_emtfxml", "mt_metadata/transfer_functions/core.py:TF.from_emtfxml"]}
{"id": "C184", "title": "Data of EMTF XML files reach the transfer function", "statement": "The data of a file of impedances without tippers, with the inverse signal power of the impedances, are all in the transfer function that is made from it.", "quantifier": "for all numbers of periods and all entries", "why_tests_cant": "A test samples inputs; the claim is about every input, of any size.", "anchors": ["mt_metadata/transfer_functions/core.py:TF.from_emtfxml"]}
{"id": "C185", "title": "Names of channels and EMTF XML", "statement": "EMTF XML data can be read into an object with any names of channels.", "quantifier": "for all distinct names and all data", "why_tests_cant": "A test samples inputs; the claim is about every input, of any size.", "anchors": ["mt_metadata/transfer_functions/core.py:TF.from_emtfxml", "mt_metadata/transfer_functions/core.py:TF.channel_nomenclature"]}
{"id": "C186", "title": "EDI objects keep the transfer function", "statement": "A transfer function converted to an EDI object and back has its periods, impedances, tippers, the errors of both and its angles, whatever its channels are called and whether or not it has all of these.", "quantifier": "for all histories of assignments, names, periods and arrays", "why_tests_cant": "A test runs a handful of call sequences; the claim is about every sequence of every length.", "anchors": ["mt_metadata/transfer_functions/core.py:TF.to_edi", "mt_metadata/transfer_functions/core.py:TF.from_edi"]}
{"id": "C187", "title": "Reading EDI data into an object in use", "statement": "The impedances, tippers and errors of a transfer function after reading an EDI file do not depend on what it had before.", "quantifier": "for all histories of assignments and all EDI data", "why_tests_cant": "A test runs a handful of call sequences; the claim is about every sequence of every length.", "anchors": ["mt_metadata/transfer_functions/core.py:TF.from_edi"]}
{"id": "C188", "title": "Spectra keep their covariances", "statement": "Reading an EDI file of spectra gives the transfer function with its errors and covariances, with and without vertical magnetic field.", "quantifier": "for all numbers of frequencies, names of channels and arrays", "why_tests_cant": "A test samples inputs; the claim is about every input, of any size.", "anchors": ["mt_metadata/transfer_functions/core.py:TF.from_edi"]}
{"id": "C189", "title": "Channels of Z file objects", "statement": "Converting a transfer function with data to a Z file object gives two inputs and the outputs there are data of, whatever channels the first run has.", "quantifier": "for all histories of assignments and all lists of channels", "why_tests_cant": "A test runs a handful of call sequences; the claim is about every sequence of every length.", "anchors": ["mt_metadata/transfer_functions/core.py:TF.to_zmm", "mt_metadata/transfer_functions/core.py:TF.make_zmm_run"]}
{"id": "C190", "title": "Data of Z files reach the transfer function", "statement": "The data of every Z file can be read: the entries of its channels are kept, the errors are those of the covariances.", "quantifier": "for all names of channels, outputs, periods and entries", "why_tests_cant": "A test samples inputs; the claim is about every input, of any size.", "anchors": ["mt_metadata/transfer_functions/core.py:TF.from_zmm", "mt_metadata/transfer_functions/core.py:TF._compute_error_from_covariance"]}
{"id": "C191", "title": "Z file objects keep the transfer function", "statement": "A transfer function with impedances, tippers and covariances converted to a Z file object and back has its periods and these arrays.", "quantifier": "for all histories of assignments", "why_tests_cant": "A test runs a handful of call sequences; the claim is about every sequence of every length.", "anchors": ["mt_metadata/transfer_functions/core.py:TF.to_zmm", "mt_metadata/transfer_functions/core.py:TF.from_zmm"]}
{"id": "C192", "title": "Header section of EDI files", "statement": "Reading the header section that was written gives every attribute that has a value, whatever stands before and after the section.", "quantifier": "for all names, values and other lines", "why_tests_cant": "A test samples inputs; the claim is about every input, of any size.", "anchors": ["mt_metadata/transfer_functions/io/edi/metadata/header.py:Header.read_header", "mt_metadata/transfer_functions/io/edi/metadata/header.py:Header.write_header", "mt_metadata/transfer_functions/io/edi/metadata/header.py:Header.get_header_list"]}
{"id": "C193", "title": "Lines of measurements", "statement": "A measurement is read back from the line that is written for it, its numbers as they are printed.", "quantifier": "for all measurements of electric and magnetic channels", "why_tests_cant": "A test samples inputs; the claim is about every input, of any size.", "anchors": ["mt_metadata/transfer_functions/io/edi/metadata/define_measurement.py:DefineMeasurement.read_measurement", "mt_metadata/transfer_functions/io/edi/metadata/emeasurement.py:EMeasurement.write_meas_line", "mt_metadata/transfer_functions/io/edi/metadata/hmeasurement.py:HMeasurement.write_meas_line"]}
{"id": "C194", "title": "Define-measurement section of EDI files", "statement": "Reading the define-measurement section that was written gives its settings and its measurements of different types, whatever stands before and after.", "quantifier": "for all settings, measurements and other lines", "why_tests_cant": "A test samples inputs; the claim is about every input, of any size.", "anchors": ["mt_metadata/transfer_functions/io/edi/metadata/define_measurement.py:DefineMeasurement.write_measurement", "mt_metadata/transfer_functions/io/edi/metadata/define_measurement.py:DefineMeasurement.read_measurement", "mt_metadata/transfer_functions/io/edi/metadata/define_measurement.py:DefineMeasurement.get_measurement_lists"]}
{"id": "C195", "title": "Measurements of the same type", "statement": "Every different measurement line of the section is kept, also if several are of the same type.", "quantifier": "for all lists of measurements", "why_tests_cant": "A test samples inputs; the claim is about every input, of any size.", "anchors": ["mt_metadata/transfer_functions/io/edi/metadata/define_measurement.py:DefineMeasurement.read_measurement"]}
{"id": "C196", "title": "Identifiers of measurements", "statement": "Measurements are written in the order of their identifiers, none is lost, and measurements with different identifiers or none are written with different identifiers.", "quantifier": "for all dictionaries of measurements", "why_tests_cant": "A test samples inputs; the claim is about every input, of any size.", "anchors": ["mt_metadata/transfer_functions/io/edi/metadata/define_measurement.py:DefineMeasurement._sort_measurements", "mt_metadata/transfer_functions/io/edi/metadata/define_measurement.py:DefineMeasurement.write_measurement"]}
{"id": "C197", "title": "Data section of EDI files", "statement": "Reading the data section that was written gives its numbers, its station and the identifiers of its channels.", "quantifier": "for all sections, of impedances and of spectra, and other lines", "why_tests_cant": "A test samples inputs; the claim is about every input, of any size.", "anchors": ["mt_metadata/transfer_functions/io/edi/metadata/data_section.py:DataSection.read_data", "mt_metadata/transfer_functions/io/edi/metadata/data_section.py:DataSection.write_data", "mt_metadata/transfer_functions/io/edi/metadata/data_section.py:DataSection.get_data"]}
{"id": "C198", "title": "Identifiers of channels in the data section", "statement": "Matching gives every component whose measurement has one of the identifiers of the section that identifier, and leaves the other components as they are.", "quantifier": "for all identifiers", "why_tests_cant": "A test samples inputs; the claim is about every input, of any size.", "anchors": ["mt_metadata/transfer_functions/io/edi/metadata/data_section.py:DataSection.match_channels"]}
{"id": "C199", "title": "Blanks in the settings of the section", "statement": "Blanks around the name and the value of a setting do not matter, nor does the case of the name.", "quantifier": "for all settings, values and numbers of blanks", "why_tests_cant": "A test samples inputs; the claim is about every input, of any size.", "anchors": ["mt_metadata/transfer_functions/io/edi/metadata/define_measurement.py:DefineMeasurement.read_measurement"]}
{"id": "C200", "title": "Information section of EDI files", "statement": "The names and values of the information section that was written are read back, whatever stands before and after the section.", "quantifier": "for all dictionaries of names and values and all other lines", "why_tests_cant": "A test samples inputs; the claim is about every input, of any size.", "anchors": ["mt_metadata/transfer_functions/io/edi/metadata/information.py:Information.write_info", "mt_metadata/transfer_functions/io/edi/metadata/information.py:Information.read_info", "mt_metadata/transfer_functions/io/edi/metadata/information.py:Information._parse_standard_info"]}
{"id": "C201", "title": "Information that was read is stable", "statement": "What was read from an information section can be written into any file and is read again as it was.", "quantifier": "for all sections and files", "why_tests_cant": "A test runs a handful of call sequences; the claim is about every sequence of every length.", "anchors": ["mt_metadata/transfer_functions/io/edi/metadata/information.py:Information.read_info", "mt_metadata/transfer_functions/io/edi/metadata/information.py:Information.write_info"]}
{"id": "C202", "title": "Standard names and processing parameters", "statement": "All processing parameters of the information section are kept in the order of the file, and every other value under its standard name, the last one if there are several.", "quantifier": "for all lists of names and values", "why_tests_cant": "A test samples inputs; the claim is about every input, of any size.", "anchors": ["mt_metadata/transfer_functions/io/edi/metadata/information.py:Information._parse_standard_info"]}
{"id": "C203", "title": "Two columns on a line of Phoenix files", "statement": "Two names with their values on one line, more than three blanks apart, are read as if they stood on two lines.", "quantifier": "for all columns, distances and other lines", "why_tests_cant": "A test samples inputs; the claim is about every input, of any size.", "anchors": ["mt_metadata/transfer_functions/io/edi/metadata/information.py:Information._split_phoenix_columns", "mt_metadata/transfer_functions/io/edi/metadata/information.py:Information._parse_phoenix_info"]}
{"id": "C204", "title": "Names in Phoenix files", "statement": "Every value of the information section of a Phoenix file is kept under its standard name, voltages and resistances without their units, and the maker of each coil is noted.", "quantifier": "for all lists of names and values", "why_tests_cant": "A test samples inputs; the claim is about every input, of any size.", "anchors": ["mt_metadata/transfer_functions/io/edi/metadata/information.py:Information._parse_phoenix_info", "mt_metadata/transfer_functions/io/edi/metadata/information.py:Information._apply_phoenix_translation"]}
{"id": "C205", "title": "Channels in Empower files", "statement": "What an Empower file says of a channel is kept under the name of that channel and not of another one.", "quantifier": "for all sequences of section headers, channel headers and values", "why_tests_cant": "A test runs a handful of call sequences; the claim is about every sequence of every length.", "anchors": ["mt_metadata/transfer_functions/io/edi/metadata/information.py:Information._parse_empower_info", "mt_metadata/transfer_functions/io/edi/metadata/information.py:Information._get_empower_std_key"]}
{"id": "C206", "title": "Units in Empower files", "statement": "Numbers are read from an Empower file without their unit.", "quantifier": "for all numbers and units", "why_tests_cant": "A test samples inputs; the claim is about every input, of any size.", "anchors": ["mt_metadata/transfer_functions/io/edi/metadata/information.py:Information._parse_empower_info"]}
{"id": "C207", "title": "The response of a channel survives StationXML", "statement": "The filters read from the stages of a StationXML response have together the response of the filters written, at every frequency, with or without delays and decimation.", "quantifier": "for all lists of filters of all classes and all frequencies", "why_tests_cant": "A test samples inputs; the claim is about every input, of any size.", "anchors": ["mt_metadata/timeseries/filters/channel_response.py:ChannelResponse.to_obspy", "mt_metadata/timeseries/filters/obspy_stages.py:create_filter_from_stage", "mt_metadata/timeseries/stationxml/xml_channel_mt_channel.py:XMLChannelMTChannel._xml_response_to_mt"]}
{"id": "C208", "title": "Filters in StationXML", "statement": "Names, units, gains and order of the filters of a channel survive StationXML, and they are applied to the channel under their names, numbered from one.", "quantifier": "for all lists of filters", "why_tests_cant": "A test samples inputs; the claim is about every input, of any size.", "anchors": ["mt_metadata/timeseries/filters/channel_response.py:ChannelResponse.to_obspy", "mt_metadata/timeseries/stationxml/xml_channel_mt_channel.py:XMLChannelMTChannel._xml_response_to_mt", "mt_metadata/timeseries/filters/filter_base.py:FilterBase.from_obspy_stage"]}
{"id": "C209", "title": "Classes of filters in StationXML", "statement": "A filter read from StationXML is of the class of the filter written and described by the same poles, zeros, coefficients, tables and delays.", "quantifier": "for all lists of filters", "why_tests_cant": "A test samples inputs; the claim is about every input, of any size.", "anchors": ["mt_metadata/timeseries/filters/obspy_stages.py:create_filter_from_stage", "mt_metadata/timeseries/filters/obspy_stages.py:check_if_coefficient_filter_is_delay_only"]}
{"id": "C210", "title": "The sensitivity written to StationXML", "statement": "The instrument sensitivity written for a channel is the amplitude of its response at the normalisation frequency.", "quantifier": "for all lists of filters, frequencies and roundings", "why_tests_cant": "A test samples inputs; the claim is about every input, of any size.", "anchors": ["mt_metadata/timeseries/filters/channel_response.py:ChannelResponse.to_obspy", "mt_metadata/timeseries/filters/channel_response.py:ChannelResponse.compute_total_gain"]}
{"id": "C211", "title": "The sensitivity of an instrument", "statement": "compute_instrument_sensitivity is the amplitude of the channel response at the normalisation frequency to six digits, and one if the amplitude is zero.", "quantifier": "for all lists of filters, frequencies and roundings", "why_tests_cant": "A test samples inputs; the claim is about every input, of any size.", "anchors": ["mt_metadata/timeseries/filters/channel_response.py:ChannelResponse.compute_instrument_sensitivity"]}
{"id": "C212", "title": "One filter for each stage", "statement": "Every stage of a response becomes a filter of the channel.", "quantifier": "for all lists of filters with different names", "why_tests_cant": "A test samples inputs; the claim is about every input, of any size.", "anchors": ["mt_metadata/timeseries/stationxml/xml_channel_mt_channel.py:XMLChannelMTChannel._xml_response_to_mt"]}
{"id": "C213", "title": "Names for filters without a name", "statement": "A filter without a name gets a name that no other filter of the survey has, or that of a filter with the same response.", "quantifier": "for all filters and all filters of the survey", "why_tests_cant": "A test samples inputs; the claim is about every input, of any size.", "anchors": ["mt_metadata/timeseries/stationxml/xml_channel_mt_channel.py:XMLChannelMTChannel._add_filter_number"]}
{"id": "C214", "title": "Units of a channel in StationXML", "statement": "The units of a channel survive StationXML.", "quantifier": "for all units and lists of filters", "why_tests_cant": "A test samples inputs; the claim is about every input, of any size.", "anchors": ["mt_metadata/timeseries/stationxml/xml_channel_mt_channel.py:XMLChannelMTChannel._get_mt_units", "mt_metadata/timeseries/stationxml/xml_channel_mt_channel.py:XMLChannelMTChannel.xml_to_mt"]}
{"id": "C215", "title": "Orientation of a channel in StationXML", "statement": "Azimuth and tilt of a channel survive StationXML.", "quantifier": "for all angles", "why_tests_cant": "A test samples inputs; the claim is about every input, of any size.", "anchors": ["mt_metadata/timeseries/stationxml/xml_channel_mt_channel.py:XMLChannelMTChannel.mt_to_xml", "mt_metadata/timeseries/stationxml/xml_channel_mt_channel.py:XMLChannelMTChannel.xml_to_mt"]}
{"id": "C216", "title": "Position of a channel in StationXML", "statement": "The positions of a channel, of both electrodes for an electric one, survive StationXML.", "quantifier": "for all positions", "why_tests_cant": "A test samples inputs; the claim is about every input, of any size.", "anchors": ["mt_metadata/timeseries/stationxml/xml_channel_mt_channel.py:XMLChannelMTChannel.mt_to_xml", "mt_metadata/timeseries/stationxml/xml_channel_mt_channel.py:XMLChannelMTChannel._get_mt_position"]}
{"id": "C217", "title": "The transfer function's metadata survive EDI", "statement": "Attributes of the transfer function of a station that have a value are the same after to_edi and from_edi.", "quantifier": "for all surveys and stations", "why_tests_cant": "A test samples inputs; the claim is about every input, of any size.", "anchors": ["mt_metadata/transfer_functions/io/edi/edi.py:EDI.station_metadata", "mt_metadata/transfer_functions/core.py:TF.to_edi", "mt_metadata/transfer_functions/core.py:TF.from_edi"]}
{"id": "C218", "title": "Processing parameters and remote references survive EDI", "statement": "The processing parameters and the remote references of a station are the same after to_edi and from_edi.", "quantifier": "for all surveys and stations", "why_tests_cant": "A test samples inputs; the claim is about every input, of any size.", "anchors": ["mt_metadata/transfer_functions/io/edi/edi.py:EDI.station_metadata", "mt_metadata/transfer_functions/core.py:TF.to_edi", "mt_metadata/transfer_functions/core.py:TF.from_edi"]}
{"id": "C219", "title": "Runs survive EDI", "statement": "The runs of a station and the list of processed runs are the same after to_edi and from_edi.", "quantifier": "for all surveys and stations", "why_tests_cant": "A test samples inputs; the claim is about every input, of any size.", "anchors": ["mt_metadata/transfer_functions/io/edi/edi.py:EDI.station_metadata", "mt_metadata/transfer_functions/core.py:TF.to_edi", "mt_metadata/transfer_functions/core.py:TF.from_edi"]}
{"id": "C220", "title": "Name, place, times and authors survive EDI", "statement": "The name, location, declination, reference frame, times, authors and geographic name of a station are the same after to_edi and from_edi.", "quantifier": "for all surveys and stations", "why_tests_cant": "A test samples inputs; the claim is about every input, of any size.", "anchors": ["mt_metadata/transfer_functions/io/edi/edi.py:EDI.station_metadata", "mt_metadata/transfer_functions/core.py:TF.to_edi", "mt_metadata/transfer_functions/core.py:TF.from_edi"]}
{"id": "C221", "title": "Provenance survives EDI", "statement": "The provenance of a station is the same after to_edi and from_edi.", "quantifier": "for all surveys and stations", "why_tests_cant": "A test samples inputs; the claim is about every input, of any size.", "anchors": ["mt_metadata/transfer_functions/io/edi/edi.py:EDI.station_metadata", "mt_metadata/transfer_functions/core.py:TF.to_edi", "mt_metadata/transfer_functions/core.py:TF.from_edi"]}
{"id": "C222", "title": "Every station can be converted to EDI", "statement": "The survey and station metadata of any transfer function can be put into an EDI object and be read from it.", "quantifier": "for all surveys and stations", "why_tests_cant": "A test samples inputs; the claim is about every input, of any size.", "anchors": ["mt_metadata/transfer_functions/io/edi/edi.py:EDI.station_metadata", "mt_metadata/transfer_functions/core.py:TF.to_edi", "mt_metadata/transfer_functions/core.py:TF.from_edi"]}
{"id": "C223", "title": "Electric channels in EDI", "statement": "The attributes of an electric channel that are written to the information section are read.", "quantifier": "for all stations with distinct names", "why_tests_cant": "A test samples inputs; the claim is about every input, of any size.", "anchors": ["mt_metadata/transfer_functions/io/edi/edi.py:EDI._get_electric_metadata", "mt_metadata/transfer_functions/io/edi/edi.py:EDI.station_metadata"]}
{"id": "C224", "title": "Magnetic channels in EDI", "statement": "The attributes of a magnetic channel, or at least of its sensor, that are written to the information section are read.", "quantifier": "for all stations with distinct names", "why_tests_cant": "A test samples inputs; the claim is about every input, of any size.", "anchors": ["mt_metadata/transfer_functions/io/edi/edi.py:EDI._get_magnetic_metadata", "mt_metadata/transfer_functions/io/edi/edi.py:EDI.station_metadata"]}
{"id": "C225", "title": "The survey survives EDI", "statement": "The attributes of a survey, apart from those computed from its stations, are the same after to_edi and from_edi.", "quantifier": "for all surveys and stations", "why_tests_cant": "A test samples inputs; the claim is about every input, of any size.", "anchors": ["mt_metadata/transfer_functions/io/edi/edi.py:EDI.survey_metadata", "mt_metadata/transfer_functions/core.py:TF.to_edi", "mt_metadata/transfer_functions/core.py:TF.from_edi"]}
{"id": "C226", "title": "Runs survive EMTF XML objects", "statement": "The runs of a station are the same after to_emtfxml and from_emtfxml: their ids, data loggers, sampling rates and times, in their order.", "quantifier": "for all lists of runs, whatever their channels, sensors and comments", "why_tests_cant": "A test samples inputs; the claim is about every input, of any size.", "anchors": ["mt_metadata/transfer_functions/io/emtfxml/emtfxml.py:EMTFXML.station_metadata", "mt_metadata/transfer_functions/core.py:TF.to_emtfxml", "mt_metadata/transfer_functions/core.py:TF.from_emtfxml"]}
{"id": "C227", "title": "Magnetometers survive EMTF XML objects", "statement": "The sensor of each magnetic channel of a run is the same after to_emtfxml and from_emtfxml.", "quantifier": "for all lists of runs, whatever their channels, sensors and comments", "why_tests_cant": "A test samples inputs; the claim is about every input, of any size.", "anchors": ["mt_metadata/transfer_functions/io/emtfxml/emtfxml.py:EMTFXML.station_metadata", "mt_metadata/transfer_functions/core.py:TF.to_emtfxml", "mt_metadata/transfer_functions/core.py:TF.from_emtfxml"]}
{"id": "C228", "title": "Electrodes survive EMTF XML objects", "statement": "The electrodes and the dipole length of each electric channel of a run are the same after to_emtfxml and from_emtfxml.", "quantifier": "for all lists of runs, whatever their channels, sensors and comments", "why_tests_cant": "A test samples inputs; the claim is about every input, of any size.", "anchors": ["mt_metadata/transfer_functions/io/emtfxml/emtfxml.py:EMTFXML.station_metadata", "mt_metadata/transfer_functions/core.py:TF.to_emtfxml", "mt_metadata/transfer_functions/core.py:TF.from_emtfxml"]}
{"id": "C229", "title": "Places and orientations survive EMTF XML objects", "statement": "The place and the azimuth of each channel of a run that belongs to the transfer function are the same after to_emtfxml and from_emtfxml.", "quantifier": "for all lists of runs, whatever their channels, sensors and comments", "why_tests_cant": "A test samples inputs; the claim is about every input, of any size.", "anchors": ["mt_metadata/transfer_functions/io/emtfxml/emtfxml.py:EMTFXML.station_metadata", "mt_metadata/transfer_functions/core.py:TF.to_emtfxml", "mt_metadata/transfer_functions/core.py:TF.from_emtfxml"]}
{"id": "C230", "title": "Which runs can be converted to EMTF XML objects", "statement": "to_emtfxml followed by from_emtfxml succeeds for the runs of a station exactly if the electrodes have ids and types and every run with a sampling rate has every channel of the transfer function, where one magnetometer counts for all magnetic channels.", "quantifier": "for all lists of runs, whatever their channels, sensors and comments", "why_tests_cant": "A test samples inputs; the claim is about every input, of any size.", "anchors": ["mt_metadata/transfer_functions/io/emtfxml/emtfxml.py:EMTFXML.station_metadata", "mt_metadata/transfer_functions/core.py:TF.to_emtfxml", "mt_metadata/transfer_functions/core.py:TF.from_emtfxml"]}
{"id": "C231", "title": "Comments of runs survive EMTF XML objects", "statement": "The comments of a run are the same after to_emtfxml and from_emtfxml.", "quantifier": "for all lists of runs, whatever their channels, sensors and comments", "why_tests_cant": "A test samples inputs; the claim is about every input, of any size.", "anchors": ["mt_metadata/transfer_functions/io/emtfxml/emtfxml.py:EMTFXML.station_metadata", "mt_metadata/transfer_functions/core.py:TF.to_emtfxml", "mt_metadata/transfer_functions/core.py:TF.from_emtfxml"]}
{"id": "C232", "title": "Which stations can be converted to EMTF XML objects", "statement": "to_emtfxml followed by from_emtfxml succeeds for the metadata of a survey and a station exactly if the project has letters, digits, - and _ only, the id of the station letters and digits only, the data type is MT, BBMT or LPMT, and the geographic name of the survey is null or has letters, digits, _, - and blanks only.", "quantifier": "for all surveys and stations, whatever their attributes, comments and processing parameters", "why_tests_cant": "A test samples inputs; the claim is about every input, of any size.", "anchors": ["mt_metadata/transfer_functions/io/emtfxml/emtfxml.py:EMTFXML.survey_metadata", "mt_metadata/transfer_functions/io/emtfxml/emtfxml.py:EMTFXML.station_metadata", "mt_metadata/transfer_functions/io/emtfxml/emtfxml.py:EMTFXML._parse_comments", "mt_metadata/transfer_functions/core.py:TF.to_emtfxml", "mt_metadata/transfer_functions/core.py:TF.from_emtfxml"]}
{"id": "C233", "title": "Values of a station survive EMTF XML objects", "statement": "The names, the place, the provenance, the times, the processing and the data quality of a station are the same after to_emtfxml and from_emtfxml if they have a value.", "quantifier": "for all surveys and stations, whatever their attributes, comments and processing parameters", "why_tests_cant": "A test samples inputs; the claim is about every input, of any size.", "anchors": ["mt_metadata/transfer_functions/io/emtfxml/emtfxml.py:EMTFXML.survey_metadata", "mt_metadata/transfer_functions/io/emtfxml/emtfxml.py:EMTFXML.station_metadata", "mt_metadata/transfer_functions/io/emtfxml/emtfxml.py:EMTFXML._parse_comments", "mt_metadata/transfer_functions/core.py:TF.to_emtfxml", "mt_metadata/transfer_functions/core.py:TF.from_emtfxml"]}
{"id": "C234", "title": "Values of a survey survive EMTF XML objects", "statement": "The id, the project, the geographic name, the summary, the countries and the citation of a survey are the same after to_emtfxml and from_emtfxml if they have a value.", "quantifier": "for all surveys and stations, whatever their attributes, comments and processing parameters", "why_tests_cant": "A test samples inputs; the claim is about every input, of any size.", "anchors": ["mt_metadata/transfer_functions/io/emtfxml/emtfxml.py:EMTFXML.survey_metadata", "mt_metadata/transfer_functions/io/emtfxml/emtfxml.py:EMTFXML.station_metadata", "mt_metadata/transfer_functions/io/emtfxml/emtfxml.py:EMTFXML._parse_comments", "mt_metadata/transfer_functions/core.py:TF.to_emtfxml", "mt_metadata/transfer_functions/core.py:TF.from_emtfxml"]}
{"id": "C235", "title": "Comments of a station survive EMTF XML objects", "statement": "The comments of a station are the same after to_emtfxml and from_emtfxml.", "quantifier": "for all surveys and stations, whatever their attributes, comments and processing parameters", "why_tests_cant": "A test samples inputs; the claim is about every input, of any size.", "anchors": ["mt_metadata/transfer_functions/io/emtfxml/emtfxml.py:EMTFXML.survey_metadata", "mt_metadata/transfer_functions/io/emtfxml/emtfxml.py:EMTFXML.station_metadata", "mt_metadata/transfer_functions/io/emtfxml/emtfxml.py:EMTFXML._parse_comments", "mt_metadata/transfer_functions/core.py:TF.to_emtfxml", "mt_metadata/transfer_functions/core.py:TF.from_emtfxml"]}
{"id": "C236", "title": "Comments of a survey survive EMTF XML objects", "statement": "The comments of a survey are the same after to_emtfxml and from_emtfxml.", "quantifier": "for all surveys and stations, whatever their attributes, comments and processing parameters", "why_tests_cant": "A test samples inputs; the claim is about every input, of any size.", "anchors": ["mt_metadata/transfer_functions/io/emtfxml/emtfxml.py:EMTFXML.survey_metadata", "mt_metadata/transfer_functions/io/emtfxml/emtfxml.py:EMTFXML.station_metadata", "mt_metadata/transfer_functions/io/emtfxml/emtfxml.py:EMTFXML._parse_comments", "mt_metadata/transfer_functions/core.py:TF.to_emtfxml", "mt_metadata/transfer_functions/core.py:TF.from_emtfxml"]}
{"id": "C237", "title": "Remote references survive EMTF XML objects", "statement": "The remote references of a transfer function are the same after to_emtfxml and from_emtfxml.", "quantifier": "for all surveys and stations, whatever their attributes, comments and processing parameters", "why_tests_cant": "A test samples inputs; the claim is about every input, of any size.", "anchors": ["mt_metadata/transfer_functions/io/emtfxml/emtfxml.py:EMTFXML.survey_metadata", "mt_metadata/transfer_functions/io/emtfxml/emtfxml.py:EMTFXML.station_metadata", "mt_metadata/transfer_functions/io/emtfxml/emtfxml.py:EMTFXML._parse_comments", "mt_metadata/transfer_functions/core.py:TF.to_emtfxml", "mt_metadata/transfer_functions/core.py:TF.from_emtfxml"]}
{"id": "C238", "title": "Processing parameters survive EMTF XML objects", "statement": "The processing parameters of a transfer function are the same after to_emtfxml and from_emtfxml.", "quantifier": "for all surveys and stations, whatever their attributes, comments and processing parameters", "why_tests_cant": "A test samples inputs; the claim is about every input, of any size.", "anchors": ["mt_metadata/transfer_functions/io/emtfxml/emtfxml.py:EMTFXML.survey_metadata", "mt_metadata/transfer_functions/io/emtfxml/emtfxml.py:EMTFXML.station_metadata", "mt_metadata/transfer_functions/io/emtfxml/emtfxml.py:EMTFXML._parse_comments", "mt_metadata/transfer_functions/core.py:TF.to_emtfxml", "mt_metadata/transfer_functions/core.py:TF.from_emtfxml"]}
{"id": "C239", "title": "Product ids in EMTF XML objects", "statement": "The FDSN id of a station is its product id in an EMTF XML object and is the same afterwards; without one the product id is project.station.year.", "quantifier": "for all surveys and stations, whatever their attributes, comments and processing parameters", "why_tests_cant": "A test samples inputs; the claim is about every input, of any size.", "anchors": ["mt_metadata/transfer_functions/io/emtfxml/emtfxml.py:EMTFXML.survey_metadata", "mt_metadata/transfer_functions/io/emtfxml/emtfxml.py:EMTFXML.station_metadata", "mt_metadata/transfer_functions/io/emtfxml/emtfxml.py:EMTFXML._parse_comments", "mt_metadata/transfer_functions/core.py:TF.to_emtfxml", "mt_metadata/transfer_functions/core.py:TF.from_emtfxml"]}
{"id": "C240", "title": "Which field notes can be written to EMTF XML files", "statement": "EMTFXML.write succeeds for the field notes of the runs exactly if every run has a sampling rate and every dipole a name and a type.", "quantifier": "for all lists of field notes with any instruments, dipoles, electrodes and texts, for all printings of numbers and times that can be read again", "why_tests_cant": "A test samples inputs; the claim is about every input, of any size.", "anchors": ["mt_metadata/transfer_functions/io/emtfxml/metadata/field_notes.py:FieldNotes.to_xml", "mt_metadata/transfer_functions/io/emtfxml/metadata/field_notes.py:FieldNotes.read_dict", "mt_metadata/transfer_functions/io/emtfxml/metadata/run.py:Run.to_xml", "mt_metadata/transfer_functions/io/emtfxml/metadata/run.py:Run.read_dict", "mt_metadata/transfer_functions/io/emtfxml/emtfxml.py:EMTFXML.write", "mt_metadata/transfer_functions/io/emtfxml/emtfxml.py:EMTFXML.read"]}
{"id": "C241", "title": "Field notes survive EMTF XML files", "statement": "The field notes read from an EMTF XML file are those it was written from, one for each run, with their instruments, magnetometers, dipoles, electrodes, times and comments.", "quantifier": "for all lists of field notes with any instruments, dipoles, electrodes and texts, for all printings of numbers and times that can be read again", "why_tests_cant": "A test samples inputs; the claim is about every input, of any size.", "anchors": ["mt_metadata/transfer_functions/io/emtfxml/metadata/field_notes.py:FieldNotes.to_xml", "mt_metadata/transfer_functions/io/emtfxml/metadata/field_notes.py:FieldNotes.read_dict", "mt_metadata/transfer_functions/io/emtfxml/metadata/run.py:Run.to_xml", "mt_metadata/transfer_functions/io/emtfxml/metadata/run.py:Run.read_dict", "mt_metadata/transfer_functions/io/emtfxml/emtfxml.py:EMTFXML.write", "mt_metadata/transfer_functions/io/emtfxml/emtfxml.py:EMTFXML.read"]}
{"id": "C242", "title": "The site layout survives EMTF XML files", "statement": "The input and output channels read from an EMTF XML file are those it was written from, in the same order, with places and orientations to three decimals.", "quantifier": "for all lists of input and output channels", "why_tests_cant": "A test samples inputs; the claim is about every input, of any size.", "anchors": ["mt_metadata/transfer_functions/io/emtfxml/metadata/site_layout.py:SiteLayout.to_xml", "mt_metadata/transfer_functions/io/emtfxml/metadata/site_layout.py:SiteLayout.read_dict", "mt_metadata/transfer_functions/io/emtfxml/emtfxml.py:EMTFXML.write", "mt_metadata/transfer_functions/io/emtfxml/emtfxml.py:EMTFXML.read"]}
{"id": "C243", "title": "Texts survive EMTF XML files", "statement": "A text that is not a word for nothing and has no blanks at its ends is read from an EMTF XML file as it was written to it.", "quantifier": "for all texts for the errors of a run and all field notes", "why_tests_cant": "A test samples inputs; the claim is about every input, of any size.", "anchors": ["mt_metadata/transfer_functions/io/emtfxml/emtfxml.py:EMTFXML.write", "mt_metadata/transfer_functions/io/emtfxml/emtfxml.py:EMTFXML.read", "mt_metadata/base/helpers.py:element_to_string"]}
{"id": "C244", "title": "The runs of a station are in its EMTF XML file", "statement": "TF.write to EMTF XML followed by TF.read gives the runs of the station that have a sampling rate, with their ids, data loggers, rates and times.", "quantifier": "for all stations with any number of runs and channels and all comments", "why_tests_cant": "A test samples inputs; the claim is about every input, of any size.", "anchors": ["mt_metadata/transfer_functions/core.py:TF.to_emtfxml", "mt_metadata/transfer_functions/core.py:TF.from_emtfxml", "mt_metadata/transfer_functions/io/emtfxml/emtfxml.py:EMTFXML.write", "mt_metadata/transfer_functions/io/emtfxml/emtfxml.py:EMTFXML.read", "mt_metadata/transfer_functions/io/emtfxml/emtfxml.py:EMTFXML.station_metadata"]}
{"id": "C245", "title": "Runs survive dictionaries", "statement": "A run made by any sequence of calls, read from its dictionary, has the same channels of the same classes in the same order, the same lists of recorded channels and the same time period.", "quantifier": "all call histories of a run, whatever becomes of the other attributes", "why_tests_cant": "A test runs a handful of call sequences; the claim is about every sequence of every length.", "anchors": ["mt_metadata/timeseries/run.py:Run.validate_channels", "mt_metadata/timeseries/run.py:Run._empty_channels", "mt_metadata/timeseries/station.py:Station.validate_runs"]}
{"id": "C246", "title": "Stations survive dictionaries", "statement": "A station made by any sequence of calls, read from its dictionary, has the same runs with the same channels.", "quantifier": "all call histories of a station, whatever becomes of the other attributes", "why_tests_cant": "A test runs a handful of call sequences; the claim is about every sequence of every length.", "anchors": ["mt_metadata/timeseries/survey.py:Survey.validate_stations", "mt_metadata/timeseries/station.py:Station.validate_runs", "mt_metadata/timeseries/station.py:Station.validate_run_list"]}
{"id": "C247", "title": "Experiments survive dictionaries", "statement": "A new experiment read from to_dict of another has the same surveys, stations, runs, channels and filters in the same order, if channels_recorded of every station is up to date. Read into an experiment with surveys, it adds those with new ids, and for known ids it updates the attributes and keeps stations and filters.", "quantifier": "all experiments kept by ids and names, with stations of any call history", "why_tests_cant": "A test runs a handful of call sequences; the claim is about every sequence of every length.", "anchors": ["mt_metadata/timeseries/experiment.py:Experiment.to_dict", "mt_metadata/timeseries/experiment.py:Experiment.from_dict", "mt_metadata/timeseries/survey.py:Survey.validate_stations", "mt_metadata/timeseries/station.py:Station.validate_runs", "mt_metadata/timeseries/run.py:Run.validate_channels"]}
{"id": "C248", "title": "Filters of a survey are found by the channels", "statement": "A channel to which the filters of its survey are applied by name has the response of all of them, when the survey was given them as a list or as a dictionary by name.", "quantifier": "all lists of filters with distinct names", "why_tests_cant": "A test samples inputs; the claim is about every input, of any size.", "anchors": ["mt_metadata/timeseries/survey.py:Survey.validate_filters", "mt_metadata/timeseries/channel.py:Channel.channel_response", "mt_metadata/timeseries/filtered.py:AppliedFilter.validate_name"]}
{"id": "C249", "title": "Sorting an experiment", "statement": "sort() orders surveys, stations, runs and channels by id, and everything is found under its id as before; sort(inplace=False) leaves the experiment alone and returns such a copy.", "quantifier": "all experiments kept by ids and names, with stations of any call history", "why_tests_cant": "A test runs a handful of call sequences; the claim is about every sequence of every length.", "anchors": ["mt_metadata/timeseries/experiment.py:Experiment.sort"]}
{"id": "C250", "title": "Experiments from JSON", "statement": "from_json reads the file whose name it is given.", "quantifier": "all files, names and texts", "why_tests_cant": "A test samples inputs; the claim is about every input, of any size.", "anchors": ["mt_metadata/timeseries/experiment.py:Experiment.from_json", "mt_metadata/base/metadata.py:MetadataBase.from_json"]}
{"id": "C251", "title": "Lists of runs after sorting", "statement": "After sort() the run_list of every station has the ids of its runs in their order.", "quantifier": "all experiments kept by ids and names, with stations of any call history", "why_tests_cant": "A test runs a handful of call sequences; the claim is about every sequence of every length.", "anchors": ["mt_metadata/timeseries/experiment.py:Experiment.sort", "mt_metadata/timeseries/station.py:Station.validate_run_list"]}
{"id": "C252", "title": "Renaming channels", "statement": "After channels of a run have been given other names, distinct ones, and update_channel_keys() was called, the run has these channels under their new names, whatever attribute of the run is assigned next.", "quantifier": "all call histories of a run and all distinct new names", "why_tests_cant": "A test runs a handful of call sequences; the claim is about every sequence of every length.", "anchors": ["mt_metadata/timeseries/run.py:Run.update_channel_keys", "mt_metadata/common/list_dict.py:ListDict.update_keys", "mt_metadata/timeseries/run.py:Run.validate_channels_recorded"]}
{"id": "C253", "title": "Renaming runs", "statement": "After runs of a station have been given other ids, distinct ones, and update_run_keys() was called, the station has these runs under their new ids in the same order; when the next attribute is assigned, the list of runs has the new ids and channels_recorded is what it was.", "quantifier": "all call histories of a station whose channels_recorded is up to date, and all distinct new ids", "why_tests_cant": "A test runs a handful of call sequences; the claim is about every sequence of every length.", "anchors": ["mt_metadata/timeseries/station.py:Station.update_run_keys", "mt_metadata/common/list_dict.py:ListDict.update_keys", "mt_metadata/timeseries/station.py:Station.validate_run_list"]}
{"id": "C254", "title": "A survey given to a new TF", "statement": "A new TF that is given a survey has its stations, each with the time period that covers its runs, in the same order and nothing else; station_metadata is the first one.", "quantifier": "all surveys made by calls, with stations of any call history, none of which is named 0", "why_tests_cant": "A test runs a handful of call sequences; the claim is about every sequence of every length.", "anchors": ["mt_metadata/transfer_functions/core.py:TF.survey_metadata", "mt_metadata/transfer_functions/core.py:TF._initialize_metadata"]}
{"id": "C255", "title": "A survey given to any TF", "statement": "Whatever a TF had before, after it is given a survey its station_metadata is the first station of that survey.", "quantifier": "all sequences of assignments to a TF and all surveys made by calls", "why_tests_cant": "A test runs a handful of call sequences; the claim is about every sequence of every length.", "anchors": ["mt_metadata/transfer_functions/core.py:TF.survey_metadata", "mt_metadata/transfer_functions/core.py:TF.station_metadata"]}
{"id": "C256", "title": "A station given to a TF", "statement": "After a TF is given a station, the runs of its station_metadata are those of the given station.", "quantifier": "all sequences of assignments to a TF and all stations of any call history", "why_tests_cant": "A test runs a handful of call sequences; the claim is about every sequence of every length.", "anchors": ["mt_metadata/transfer_functions/core.py:TF.station_metadata", "mt_metadata/transfer_functions/core.py:TF._add_channels"]}
{"id": "C257", "title": "Metadata of files read by a new TF", "statement": "A new TF that reads a file has the station of the file with its runs: the stations of the file's survey for EDI, J and AVG files, the first one for EMTF XML files, the only one for Z files.", "quantifier": "all surveys and stations that files can give", "why_tests_cant": "A test runs a handful of call sequences; the claim is about every sequence of every length.", "anchors": ["mt_metadata/transfer_functions/core.py:TF.from_edi", "mt_metadata/transfer_functions/core.py:TF.from_jfile", "mt_metadata/transfer_functions/core.py:TF.from_avg", "mt_metadata/transfer_functions/core.py:TF.from_emtfxml", "mt_metadata/transfer_functions/core.py:TF.from_zmm"]}
{"id": "C258", "title": "Naming the station of a TF", "statement": "After tf.station = name the survey of the TF has a station of that name.", "quantifier": "all sequences of assignments to a TF and all names", "why_tests_cant": "A test runs a handful of call sequences; the claim is about every sequence of every length.", "anchors": ["mt_metadata/transfer_functions/core.py:TF.station", "mt_metadata/timeseries/survey.py:Survey.has_station"]}
{"id": "C259", "title": "A run given to a TF", "statement": "After a TF is given a run, run_metadata is that run.", "quantifier": "all sequences of assignments to a TF and all runs of any call history", "why_tests_cant": "A test runs a handful of call sequences; the claim is about every sequence of every length.", "anchors": ["mt_metadata/transfer_functions/core.py:TF.run_metadata"]}
{"id": "C260", "title": "Lower and upper bounds of the bands of a level belong together", "statement": "Taking lower_bounds and upper_bounds of a decimation level side by side gives the index ranges of its bands, in some order.", "quantifier": "all lists of bands with indices", "why_tests_cant": "A test samples inputs; the claim is about every input, of any size.", "anchors": ["mt_metadata/processing/aurora/decimation_level.py:DecimationLevel.lower_bounds", "mt_metadata/processing/aurora/decimation_level.py:DecimationLevel.upper_bounds"]}
{"id": "C261", "title": "The data frame of the bands of a level", "statement": "bands_dataframe has one row for each band, with the indices and frequencies of that band and its level counted from 1, by rising lower index, bands without index last; band_edges has the frequencies of the same rows. A band without decimation level gives a TypeError.", "quantifier": "all lists of bands and all ways of sorting equal rows", "why_tests_cant": "A test samples inputs; the claim is about every input, of any size.", "anchors": ["mt_metadata/processing/aurora/decimation_level.py:DecimationLevel.bands_dataframe", "mt_metadata/processing/aurora/decimation_level.py:DecimationLevel.band_edges", "mt_metadata/processing/aurora/decimation_level.py:_df_from_bands"]}
{"id": "C262", "title": "Harmonic indices of a level", "statement": "harmonic_indices is in rising order and lists each index once for every band that has it between its bounds, so once in all if the bands share none.", "quantifier": "all lists of bands", "why_tests_cant": "A test samples inputs; the claim is about every input, of any size.", "anchors": ["mt_metadata/processing/aurora/decimation_level.py:DecimationLevel.harmonic_indices"]}
{"id": "C263", "title": "Bands on the frequencies of a level", "statement": "fft_frequencies are the multiples of frequency_sample_interval below half the window length. If bands that do not overlap take their indices from increasing frequencies, band_edges rise, lower_bounds and upper_bounds belong together, and harmonic_indices are those of the frequencies inside bands, once each.", "quantifier": "all sample rates, window lengths, increasing frequencies and lists of bands that do not overlap", "why_tests_cant": "A test samples inputs; the claim is about every input, of any size.", "anchors": ["mt_metadata/processing/aurora/decimation_level.py:DecimationLevel.fft_frequencies", "mt_metadata/processing/aurora/decimation_level.py:DecimationLevel.frequency_sample_interval", "mt_metadata/processing/aurora/decimation_level.py:DecimationLevel.band_edges", "mt_metadata/processing/aurora/decimation_level.py:DecimationLevel.harmonic_indices", "mt_metadata/common/band.py:Band.set_indices_from_frequencies"]}
{"id": "C264", "title": "Giving bands to a level", "statement": "bands accepts a band, a dictionary of a band, or a list of these, keeps the order, and refuses everything else; adding the entries of a list one by one gives the same as assigning the list.", "quantifier": "all values", "why_tests_cant": "A test samples inputs; the claim is about every input, of any size.", "anchors": ["mt_metadata/processing/aurora/decimation_level.py:DecimationLevel.validate_bands", "mt_metadata/processing/aurora/decimation_level.py:DecimationLevel.add_band", "mt_metadata/helper_functions.py:validate_setter_input", "mt_metadata/helper_functions.py:cast_to_class_if_dict"]}
{"id": "C265", "title": "Filters survive JSON", "statement": "A filter written with to_json and read with from_json into a new filter of its class has the same arrays (poles, zeros, coefficients, frequencies, amplitudes, phases).", "quantifier": "all filters and all arrays", "why_tests_cant": "A test samples inputs; the claim is about every input, of any size.", "anchors": ["mt_metadata/base/metadata.py:MetadataBase.to_json", "mt_metadata/base/metadata.py:MetadataBase.from_json", "mt_metadata/base/metadata.py:MetadataBase.update_attribute", "mt_metadata/base/helpers.py:NumpyEncoder", "mt_metadata/base/helpers.py:flatten_dict", "mt_metadata/timeseries/filters/pole_zero_filter.py:PoleZeroFilter"]}
{"id": "C266", "title": "Filters can be written to XML", "statement": "to_xml of any filter succeeds and has an element for each written field.", "quantifier": "all filters", "why_tests_cant": "A test samples inputs; the claim is about every input, of any size.", "anchors": ["mt_metadata/base/metadata.py:MetadataBase.to_xml", "mt_metadata/base/helpers.py:dict_to_xml", "mt_metadata/base/helpers.py:recursive_split_xml"]}
{"id": "C267", "title": "Texts of number lists are read as those numbers", "statement": "extract_numbers finds exactly the numbers in a text of numbers with a fraction, an exponent, a sign or a bare point, in order, whatever other characters stand between them; object_to_array gives the array of those numbers, an empty array for an empty text, and a TypeError for a text without numbers.", "quantifier": "all numbers of any length, all separators without digits, signs, points and letters e", "why_tests_cant": "A test samples inputs; the claim is about every input, of any size.", "anchors": ["mt_metadata/base/helpers.py:extract_numbers", "mt_metadata/base/helpers.py:object_to_array", "mt_metadata/base/helpers.py:has_numbers", "mt_metadata/base/helpers.py:is_numeric_string"]}
{"id": "C268", "title": "Texts of complex numbers are read as complex numbers", "statement": "Given the text of a complex number as poles or zeros, object_to_array gives that complex number.", "quantifier": "all real and imaginary parts", "why_tests_cant": "A test samples inputs; the claim is about every input, of any size.", "anchors": ["mt_metadata/base/helpers.py:object_to_array", "mt_metadata/base/helpers.py:extract_numbers", "mt_metadata/timeseries/filters/pole_zero_filter.py:PoleZeroFilter.validate_input_arrays"]}
{"id": "C269", "title": "Round numbers as numpy prints them are read as one number", "statement": "A number printed as digits, a bare point and an exponent is read as one number.", "quantifier": "all digits and exponents", "why_tests_cant": "A test samples inputs; the claim is about every input, of any size.", "anchors": ["mt_metadata/base/helpers.py:extract_numbers", "mt_metadata/base/helpers.py:object_to_array"]}
{"id": "C270", "title": "A site survives an EMTF XML file", "statement": "Site metadata written to an EMTF XML file and read back have the same texts (up to escaping), position, declination, orientation, times, runs, data quality notes and comments.", "quantifier": "all sites their class admits", "why_tests_cant": "A test samples inputs; the claim is about every input, of any size.", "anchors": ["mt_metadata/transfer_functions/io/emtfxml/metadata/site.py:Site.to_xml", "mt_metadata/transfer_functions/io/emtfxml/metadata/site.py:Site.read_dict", "mt_metadata/transfer_functions/io/emtfxml/metadata/location.py:Location.to_xml", "mt_metadata/transfer_functions/io/emtfxml/metadata/orientation.py:Orientation.to_xml", "mt_metadata/transfer_functions/io/emtfxml/metadata/orientation.py:Orientation.read_dict", "mt_metadata/transfer_functions/io/emtfxml/metadata/data_quality_notes.py:DataQualityNotes.read_dict", "mt_metadata/transfer_functions/io/emtfxml/metadata/data_quality_warnings.py:DataQualityWarnings.read_dict", "mt_metadata/transfer_functions/io/emtfxml/metadata/helpers.py:to_xml"]}
{"id": "C271", "title": "Run lists survive an EMTF XML file", "statement": "The list of runs of a site is the same after writing and reading.", "quantifier": "all lists of names of runs", "why_tests_cant": "A test samples inputs; the claim is about every input, of any size.", "anchors": ["mt_metadata/transfer_functions/io/emtfxml/metadata/site.py:Site.validate_run_list", "mt_metadata/transfer_functions/io/emtfxml/metadata/helpers.py:to_xml", "mt_metadata/transfer_functions/io/emtfxml/emtfxml.py:EMTFXML.read"]}
{"id": "C272", "title": "A site element may have further children", "statement": "A Site element with a child the library does not know, or with empty comments, can be read; what is known is read.", "quantifier": "all Site elements", "why_tests_cant": "A test samples inputs; the claim is about every input, of any size.", "anchors": ["mt_metadata/transfer_functions/io/emtfxml/metadata/site.py:Site.read_dict", "mt_metadata/transfer_functions/io/emtfxml/metadata/data_quality_notes.py:DataQualityNotes.read_dict", "mt_metadata/transfer_functions/io/emtfxml/emtfxml.py:EMTFXML.read"]}
{"id": "C273", "title": "Writing and reading a site again changes nothing more", "statement": "From the second writing and reading on, the site of an EMTF XML file is exactly the same.", "quantifier": "all sites their class admits whose runs have names without blanks, commas, brackets and escaped characters", "why_tests_cant": "A test samples inputs; the claim is about every input, of any size.", "anchors": ["mt_metadata/transfer_functions/io/emtfxml/metadata/site.py:Site.to_xml", "mt_metadata/transfer_functions/io/emtfxml/metadata/site.py:Site.read_dict", "mt_metadata/transfer_functions/io/emtfxml/metadata/helpers.py:_write_single", "mt_metadata/transfer_functions/io/emtfxml/metadata/helpers.py:_remove_null_values", "mt_metadata/transfer_functions/io/emtfxml/emtfxml.py:EMTFXML.write", "mt_metadata/transfer_functions/io/emtfxml/emtfxml.py:EMTFXML.read"]}
{"id": "C274", "title": "Reading a second EMTF XML file gives its site", "statement": "After an EMTF XML object has read one file, reading another gives the site that a new object would read from it.", "quantifier": "all pairs of sites their class admits, and all sites that an object may hold", "why_tests_cant": "A test runs a handful of call sequences; the claim is about every sequence of every length.", "anchors": ["mt_metadata/transfer_functions/io/emtfxml/metadata/site.py:Site.read_dict", "mt_metadata/transfer_functions/io/emtfxml/metadata/orientation.py:Orientation.read_dict", "mt_metadata/transfer_functions/io/emtfxml/metadata/data_quality_notes.py:DataQualityNotes.read_dict", "mt_metadata/transfer_functions/io/emtfxml/metadata/data_quality_warnings.py:DataQualityWarnings.read_dict", "mt_metadata/transfer_functions/io/emtfxml/emtfxml.py:EMTFXML.read"]}
{"id": "C275", "title": "The attachments are those of the file read last", "statement": "After reading an EMTF XML file the object has the attachments of that file, and writes these, whatever files it has read before.", "quantifier": "all attachments and all sequences of files", "why_tests_cant": "A test runs a handful of call sequences; the claim is about every sequence of every length.", "anchors": ["mt_metadata/transfer_functions/io/emtfxml/metadata/attachment.py:Attachment.read_dict", "mt_metadata/transfer_functions/io/emtfxml/metadata/attachment.py:Attachment.to_xml", "mt_metadata/transfer_functions/io/emtfxml/emtfxml.py:EMTFXML.read"]}
{"id": "C276", "title": "What is written does not depend on earlier writes", "statement": "An EMTF XML file written from an object has the remote site if it has an identifier, and the remote field notes unless they are to be skipped, whatever has been written before.", "quantifier": "all sequences of writes with any changes in between", "why_tests_cant": "A test runs a handful of call sequences; the claim is about every sequence of every length.", "anchors": ["mt_metadata/transfer_functions/io/emtfxml/emtfxml.py:EMTFXML.write", "mt_metadata/transfer_functions/io/emtfxml/metadata/remote_info.py:RemoteInfo.to_xml"]}
{"id": "C277", "title": "Processing information survives an EMTF XML file", "statement": "Processing information written to an EMTF XML file and read back has the same remote reference, remote site, remote field notes, software, people, date and tag.", "quantifier": "all processing information its classes admit, and all objects it is read into", "why_tests_cant": "A test samples inputs; the claim is about every input, of any size.", "anchors": ["mt_metadata/transfer_functions/io/emtfxml/metadata/processing_info.py:ProcessingInfo.to_xml", "mt_metadata/transfer_functions/io/emtfxml/metadata/processing_info.py:ProcessingInfo.read_dict", "mt_metadata/transfer_functions/io/emtfxml/metadata/remote_info.py:RemoteInfo.read_dict", "mt_metadata/transfer_functions/io/emtfxml/metadata/remote_ref.py:RemoteRef.to_xml", "mt_metadata/transfer_functions/io/emtfxml/metadata/software.py:ProcessingSoftware.to_xml", "mt_metadata/transfer_functions/io/emtfxml/metadata/field_notes.py:FieldNotes.read_dict"]}
{"id": "C278", "title": "A directory of MT XML files is sorted completely", "statement": "sort_by_station puts every channel file of a directory below the run and station it is named after, runs in the order of their names, and nothing else.", "quantifier": "all lists of files and all selections of stations", "why_tests_cant": "A test samples inputs; the claim is about every input, of any size.", "anchors": ["mt_metadata/timeseries/tools/from_many_mt_files.py:MT2StationXML.sort_by_station", "mt_metadata/timeseries/tools/from_many_mt_files.py:MT2StationXML._get_runs", "mt_metadata/timeseries/tools/from_many_mt_files.py:MT2StationXML._get_channels", "mt_metadata/timeseries/tools/from_many_mt_files.py:MT2StationXML.make_df"]}
{"id": "C279", "title": "An experiment can be made of a sorted directory", "statement": "make_experiment returns an experiment for every directory whose files sort_by_station can sort.", "quantifier": "all lists of files and all selections of stations", "why_tests_cant": "A test samples inputs; the claim is about every input, of any size.", "anchors": ["mt_metadata/timeseries/tools/from_many_mt_files.py:MT2StationXML.make_experiment", "mt_metadata/timeseries/tools/from_many_mt_files.py:MT2StationXML._make_survey", "mt_metadata/timeseries/tools/from_many_mt_files.py:MT2StationXML._make_station", "mt_metadata/timeseries/tools/from_many_mt_files.py:MT2StationXML._make_run", "mt_metadata/timeseries/tools/from_many_mt_files.py:MT2StationXML._make_channel", "mt_metadata/timeseries/channel.py:Channel.from_dict"]}
{"id": "C280", "title": "Selected stations of a directory", "statement": "sort_by_station with a list of stations returns these stations in the order of the list with the files they have without a selection, raises an index error if one of them has no file, and treats an empty list as no selection.", "quantifier": "all lists of files and all selections of stations", "why_tests_cant": "A test samples inputs; the claim is about every input, of any size.", "anchors": ["mt_metadata/timeseries/tools/from_many_mt_files.py:MT2StationXML.sort_by_station", "mt_metadata/timeseries/tools/from_many_mt_files.py:MT2StationXML.stations", "mt_metadata/timeseries/tools/from_many_mt_files.py:MT2StationXML.is_a_station_xml"]}
{"id": "C281", "title": "Every station file of a directory is used once", "statement": "sort_by_station without a selection returns one station for every station file, from this file.", "quantifier": "all lists of different files in any directories", "why_tests_cant": "A test samples inputs; the claim is about every input, of any size.", "anchors": ["mt_metadata/timeseries/tools/from_many_mt_files.py:MT2StationXML.sort_by_station", "mt_metadata/timeseries/tools/from_many_mt_files.py:MT2StationXML.stations"]}
{"id": "C282", "title": "A station survives StationXML", "statement": "A station translated to a StationXML station (mt_to_xml) and back (xml_to_mt) is the same station: names, place, comments, period, persons, orientation, declination, software and runs.", "quantifier": "all stations whose runs have distinct admitted names", "why_tests_cant": "A test samples inputs; the claim is about every input, of any size.", "anchors": ["mt_metadata/timeseries/stationxml/xml_station_mt_station.py:XMLStationMTStation.mt_to_xml", "mt_metadata/timeseries/stationxml/xml_station_mt_station.py:XMLStationMTStation.xml_to_mt", "mt_metadata/timeseries/stationxml/utils.py:BaseTranslator.make_mt_comments", "mt_metadata/timeseries/stationxml/utils.py:BaseTranslator.read_xml_comment"]}
{"id": "C283", "title": "Translating a station to StationXML leaves it unchanged", "statement": "mt_to_xml does not change the station it is given.", "quantifier": "all stations", "why_tests_cant": "A test runs a handful of call sequences; the claim is about every sequence of every length.", "anchors": ["mt_metadata/timeseries/stationxml/xml_station_mt_station.py:XMLStationMTStation.mt_to_xml"]}
{"id": "C284", "title": "The runs of a station survive StationXML", "statement": "The runs of a station (names, times, what is in their equipment, and their order) and its list of runs come back from StationXML, for runs with distinct names of letters, digits and underscores that are not words for nothing; a station whose only run is called by such a word (none, null, ...) cannot be read.", "quantifier": "all stations with any number of such runs, whatever the period of the station and of the runs", "why_tests_cant": "A test samples inputs; the claim is about every input, of any size.", "anchors": ["mt_metadata/timeseries/stationxml/xml_station_mt_station.py:XMLStationMTStation._equipments_to_runs", "mt_metadata/timeseries/stationxml/xml_station_mt_station.py:XMLStationMTStation.xml_to_mt", "mt_metadata/timeseries/stationxml/xml_equipment_mt_run.py:XMLEquipmentMTRun.mt_to_xml", "mt_metadata/timeseries/stationxml/xml_equipment_mt_run.py:XMLEquipmentMTRun.xml_to_mt", "mt_metadata/timeseries/station.py:Station.add_run", "mt_metadata/timeseries/station.py:Station.validate_runs_and_channels_recorded"]}
{"id": "C285", "title": "A survey survives StationXML", "statement": "A survey translated to a StationXML network (mt_to_xml) and back (xml_to_mt) is the same survey: names, comments, summary, places, dates, licence, citation and persons.", "quantifier": "all surveys whose texts have no colon", "why_tests_cant": "A test samples inputs; the claim is about every input, of any size.", "anchors": ["mt_metadata/timeseries/stationxml/xml_network_mt_survey.py:XMLNetworkMTSurvey.mt_to_xml", "mt_metadata/timeseries/stationxml/xml_network_mt_survey.py:XMLNetworkMTSurvey.xml_to_mt", "mt_metadata/timeseries/stationxml/utils.py:BaseTranslator.make_mt_comments"]}
{"id": "C286", "title": "The DOI of a dataset survives StationXML", "statement": "The DOI of the dataset of a survey (citation_dataset.doi) is the same after the survey was translated to a network and back, also if there is none.", "quantifier": "all surveys and any number of translations", "why_tests_cant": "A test runs a handful of call sequences; the claim is about every sequence of every length.", "anchors": ["mt_metadata/timeseries/stationxml/xml_network_mt_survey.py:XMLNetworkMTSurvey.mt_to_xml", "mt_metadata/timeseries/stationxml/xml_network_mt_survey.py:XMLNetworkMTSurvey.xml_to_mt", "mt_metadata/timeseries/stationxml/utils.py:BaseTranslator.read_xml_identifier", "mt_metadata/utils/validators.py:validate_doi"]}
{"id": "C287", "title": "Networks made from surveys can be read", "statement": "xml_to_mt accepts every network that mt_to_xml has made from a survey.", "quantifier": "all surveys", "why_tests_cant": "A test samples inputs; the claim is about every input, of any size.", "anchors": ["mt_metadata/timeseries/stationxml/xml_network_mt_survey.py:XMLNetworkMTSurvey.mt_to_xml", "mt_metadata/timeseries/stationxml/xml_network_mt_survey.py:XMLNetworkMTSurvey.xml_to_mt", "mt_metadata/timeseries/stationxml/utils.py:BaseTranslator.read_xml_comment"]}
{"id": "C288", "title": "The code given to mt_to_xml is used", "statement": "mt_to_xml(survey, code) returns a network with the given code if the survey has no network code of its own.", "quantifier": "all surveys and codes", "why_tests_cant": "A test samples inputs; the claim is about every input, of any size.", "anchors": ["mt_metadata/timeseries/stationxml/xml_network_mt_survey.py:XMLNetworkMTSurvey.mt_to_xml"]}
{"id": "C289", "title": "Assigning a part of a time changes this part only", "statement": "Assigning year, month, day, hour, minutes, seconds, microseconds or nanoseconds of an MTime gives this part the value and leaves the other parts, the zone and gps_time as they are; it raises ValueError exactly if there is no such time.", "quantifier": "all times within 64 bits, all offsets below a day, all parts and integers", "why_tests_cant": "A test samples inputs; the claim is about every input, of any size.", "anchors": ["mt_metadata/common/mttime.py:MTime.year", "mt_metadata/common/mttime.py:MTime.month", "mt_metadata/common/mttime.py:MTime.day", "mt_metadata/common/mttime.py:MTime.hour", "mt_metadata/common/mttime.py:MTime.minutes", "mt_metadata/common/mttime.py:MTime.seconds", "mt_metadata/common/mttime.py:MTime.microseconds", "mt_metadata/common/mttime.py:MTime.nanoseconds"]}
{"id": "C290", "title": "A date can be assigned part by part", "statement": "Assigning year, month and day of an existing date to an MTime, one after the other, gives this date at the same time of day.", "quantifier": "all UTC times and all dates of the years 1678 to 2261", "why_tests_cant": "A test samples inputs; the claim is about every input, of any size.", "anchors": ["mt_metadata/common/mttime.py:MTime.year", "mt_metadata/common/mttime.py:MTime.month", "mt_metadata/common/mttime.py:MTime.day"]}
{"id": "C291", "title": "Filters of a channel survive dictionaries", "statement": "A new channel read with from_dict from to_dict of another has the same applied filters, with names, order, stages and applied flags.", "quantifier": "all lists of applied filters with a name", "why_tests_cant": "A test samples inputs; the claim is about every input, of any size.", "anchors": ["mt_metadata/timeseries/channel.py:ChannelBase.from_dict", "mt_metadata/timeseries/channel.py:ChannelBase.add_filter", "mt_metadata/timeseries/filtered.py:AppliedFilter", "mt_metadata/base/metadata.py:MetadataBase.to_dict"]}
{"id": "C292", "title": "from_dict adds to the filters of a channel", "statement": "Reading a dictionary into a channel that has filters keeps each of them unchanged.", "quantifier": "all channels and dictionaries, in the three formats", "why_tests_cant": "A test samples inputs; the claim is about every input, of any size.", "anchors": ["mt_metadata/timeseries/channel.py:ChannelBase.from_dict", "mt_metadata/timeseries/channel.py:ChannelBase.add_filter", "mt_metadata/timeseries/channel.py:ChannelBase.parse_filters_string"]}
{"id": "C293", "title": "Reading a dictionary of a channel again changes no filters", "statement": "from_dict of the dictionary just read leaves the filters of the channel as they are.", "quantifier": "all channels and dictionaries, in the three formats", "why_tests_cant": "A test runs a handful of call sequences; the claim is about every sequence of every length.", "anchors": ["mt_metadata/timeseries/channel.py:ChannelBase.from_dict", "mt_metadata/timeseries/channel.py:ChannelBase.add_filter", "mt_metadata/timeseries/channel.py:ChannelBase._validate_filtered_name"]}
{"id": "C294", "title": "The filters of a dictionary can be assigned", "statement": "The list filters of to_dict of a channel, assigned to filters of a channel or given to a new one, gives these filters ordered by stage; likewise as text.", "quantifier": "all lists of applied filters with a name", "why_tests_cant": "A test samples inputs; the claim is about every input, of any size.", "anchors": ["mt_metadata/timeseries/channel.py:ChannelBase.parse_filters_string", "mt_metadata/timeseries/channel.py:ChannelBase.validate_filters"]}
{"id": "C295", "title": "Old names and values of filters are read", "statement": "filtered.name and filtered.applied (or filter.name and filter.applied), as lists or as texts, give a new channel filters with these names and values in this order, numbered from one.", "quantifier": "all lists of names and values with different names that are not blank", "why_tests_cant": "A test samples inputs; the claim is about every input, of any size.", "anchors": ["mt_metadata/timeseries/channel.py:ChannelBase.from_dict", "mt_metadata/timeseries/channel.py:ChannelBase._validate_filtered_applied", "mt_metadata/timeseries/channel.py:ChannelBase._validate_filtered_name", "mt_metadata/timeseries/channel.py:ChannelBase.add_filter"]}
{"id": "C296", "title": "One value of applied is used for all names", "statement": "If filtered.applied has one entry it applies to all filters listed in filtered.name, as the standard says.", "quantifier": "all lists of names and both values", "why_tests_cant": "A test samples inputs; the claim is about every input, of any size.", "anchors": ["mt_metadata/timeseries/channel.py:ChannelBase.from_dict", "mt_metadata/standards/timeseries/filtered.json"]}
{"id": "C297", "title": "Coherence of Fourier coefficients is a coherence", "statement": "FCCoherence.compute gives for each frequency |\u03a3x\u0233|\u00b2/(\u03a3|x|\u00b2\u03a3|y|\u00b2) over the windows, a number between 0 and 1, the same for exchanged channels and for channels multiplied by any complex factors, 1 for channels that are multiples of each other (so for any single window) and 0 exactly if the cross power is zero.", "quantifier": "all numbers of windows and frequencies and all complex coefficients, in exact arithmetic", "why_tests_cant": "The set of arrays is infinite and the bound is an inequality (Cauchy and Schwarz) that a test can only sample.", "anchors": ["mt_metadata/features/fc_coherence.py:FCCoherence.compute"]}
{"id": "C298", "title": "Striding windows cover the series", "statement": "StridingWindowCoherence.compute on a series with at least one window gives one row for each window that fits, the k-th from the samples from k times the advance on, all windows full, no sample between them left out, and fewer samples than an advance left at the end.", "quantifier": "all series, windows with a smaller overlap, functions for the coherence, and both modes", "why_tests_cant": "A test samples inputs; the claim is about every input, of any size.", "anchors": ["mt_metadata/features/striding_window_coherence.py:StridingWindowCoherence.compute", "mt_metadata/processing/window.py:Window.num_samples_advance"]}
{"id": "C299", "title": "Parallel and sequential computation agree", "statement": "StridingWindowCoherence.compute gives the same result for parallel=True and parallel=False.", "quantifier": "all series of equal length, windows, and functions for the coherence whose frequencies depend on the lengths only", "why_tests_cant": "A test samples inputs; the claim is about every input, of any size.", "anchors": ["mt_metadata/features/striding_window_coherence.py:StridingWindowCoherence.compute", "mt_metadata/features/striding_window_coherence.py:_process_coherence_segment"]}
{"id": "C300", "title": "The sub-window is part of the window", "statement": "set_subwindow_from_window with a fraction up to one makes a sub-window with samples, no more than the window has, and a smaller overlap.", "quantifier": "all windows and fractions", "why_tests_cant": "A test samples inputs; the claim is about every input, of any size.", "anchors": ["mt_metadata/features/striding_window_coherence.py:StridingWindowCoherence.set_subwindow_from_window"]}
{"id": "C301", "title": "The channels of a coherence get stations that take part", "statement": "After validate_station_ids(local, remote) station_1 and station_2 are each the local or the remote station.", "quantifier": "all pairs of channels with or without stations, all local and remote ids", "why_tests_cant": "A test samples inputs; the claim is about every input, of any size.", "anchors": ["mt_metadata/features/coherence.py:Coherence.validate_station_ids"]}
{"id": "C302", "title": "Stations of a coherence are settled once", "statement": "validate_station_ids keeps a station that takes part, replaces any other by the remote one for a channel beginning with r and by the local one otherwise, keeps the channels, and changes nothing when called again.", "quantifier": "all pairs of channels with or without stations, all local and remote ids", "why_tests_cant": "A test runs a handful of call sequences; the claim is about every sequence of every length.", "anchors": ["mt_metadata/features/coherence.py:Coherence.validate_station_ids"]}
{"id": "C303", "title": "A described feature has the class of its name", "statement": "The feature of a FeatureWeightSpec given as a dictionary, wrapped in any number of dictionaries under feature, is of the class its name tells, a plain Feature for any other name.", "quantifier": "all depths of wrapping, with any names outside, and all names", "why_tests_cant": "A test samples inputs; the claim is about every input, of any size.", "anchors": ["mt_metadata/features/weights/feature_weight_spec.py:FeatureWeightSpec.pre_process_feature", "mt_metadata/features/weights/feature_weight_spec.py:FeatureWeightSpec.validate_feature"]}
{"id": "C304", "title": "A feature object keeps its class", "statement": "A Feature object given to a FeatureWeightSpec, wrapped in any number of dictionaries under feature, keeps its class.", "quantifier": "all depths of wrapping and all classes", "why_tests_cant": "A test samples inputs; the claim is about every input, of any size.", "anchors": ["mt_metadata/features/weights/feature_weight_spec.py:FeatureWeightSpec.pre_process_feature", "mt_metadata/features/weights/feature_weight_spec.py:FeatureWeightSpec.validate_feature"]}
{"id": "C305", "title": "Remote stations are marked", "statement": "Every station assigned to Stations.remote is marked as remote.", "quantifier": "all values assigned: lists, single stations, dictionaries, texts", "why_tests_cant": "A test samples inputs; the claim is about every input, of any size.", "anchors": ["mt_metadata/processing/aurora/stations.py:Stations.validate_remote"]}
{"id": "C306", "title": "No remote reference without a remote station", "statement": "After validate_processing without an error, if there is no remote station no decimation level uses RME_RR; the levels stay and only RME_RR is ever changed, to RME.", "quantifier": "all configurations and data frames", "why_tests_cant": "A test samples inputs; the claim is about every input, of any size.", "anchors": ["mt_metadata/processing/aurora/processing.py:Processing.validate_processing", "mt_metadata/processing/aurora/stations.py:Stations.from_dataset_dataframe"]}
{"id": "C307", "title": "With a remote station the engines are kept", "statement": "If there is a remote station after validate_processing the engines of the levels are as before.", "quantifier": "all configurations and data frames", "why_tests_cant": "A test samples inputs; the claim is about every input, of any size.", "anchors": ["mt_metadata/processing/aurora/processing.py:Processing.validate_processing", "mt_metadata/processing/aurora/stations.py:Stations.from_dataset_dataframe"]}
{"id": "C308", "title": "An updated attribute is read back", "statement": "update_attribute(name, value) with a dotted name succeeds exactly if the object that holds the attribute is there and the value is accepted, and then get_attr_from_name(name) gives what was stored; a value not accepted raises.", "quantifier": "all objects, dotted names of any depth, values and rules of validation", "why_tests_cant": "A test samples inputs; the claim is about every input, of any size.", "anchors": ["mt_metadata/base/metadata.py:DotNotationBaseModel.update_attribute", "mt_metadata/base/metadata.py:MetadataBase.get_attr_from_name", "mt_metadata/base/helpers.py:recursive_split_getattr"]}
{"id": "C309", "title": "Updating an attribute leaves the others", "statement": "After update_attribute(name, value) get_attr_from_name of any other name gives the same as before, unless one name is the beginning of the other.", "quantifier": "all objects, pairs of names and values", "why_tests_cant": "A test samples inputs; the claim is about every input, of any size.", "anchors": ["mt_metadata/base/metadata.py:DotNotationBaseModel.update_attribute", "mt_metadata/base/metadata.py:MetadataBase.get_attr_from_name"]}
{"id": "C310", "title": "update_attribute raises for names that do not exist", "statement": "update_attribute raises AttributeError if the attribute path does not exist, as its description says.", "quantifier": "all objects and names", "why_tests_cant": "A test samples inputs; the claim is about every input, of any size.", "anchors": ["mt_metadata/base/metadata.py:DotNotationBaseModel.update_attribute"]}
{"id": "C311", "title": "get_attr_from_name raises for names that do not exist", "statement": "get_attr_from_name raises KeyError or AttributeError if the attribute is not found, as its description says.", "quantifier": "all objects and names", "why_tests_cant": "A test samples inputs; the claim is about every input, of any size.", "anchors": ["mt_metadata/base/metadata.py:MetadataBase.get_attr_from_name", "mt_metadata/base/helpers.py:recursive_split_getattr"]}
{"id": "C312", "title": "set_attr_from_name sets", "statement": "set_attr_from_name(name, value) does what update_attribute(name, value) does.", "quantifier": "all objects, names and values", "why_tests_cant": "A test samples inputs; the claim is about every input, of any size.", "anchors": ["mt_metadata/base/metadata.py:MetadataBase.set_attr_from_name", "mt_metadata/base/helpers.py:recursive_split_setattr"]}
{"id": "C313", "title": "Names may have other separators", "statement": "recursive_split_getattr(object, name, sep) finds the attribute whose parts are separated by sep.", "quantifier": "all objects, separators and names without dots", "why_tests_cant": "A test samples inputs; the claim is about every input, of any size.", "anchors": ["mt_metadata/base/helpers.py:recursive_split_getattr", "mt_metadata/base/helpers.py:recursive_split_setattr"]}
{"id": "C314", "title": "Electrodes survive an EDI measurement", "statement": "The electric channel read from the EDI measurement made of a channel has its component, electrode coordinates and channel number, whatever the information section says about other attributes.", "quantifier": "all electric channels of which a measurement is made and all information sections", "why_tests_cant": "A test samples inputs; the claim is about every input, of any size.", "anchors": ["mt_metadata/transfer_functions/io/edi/metadata/define_measurement.py:DefineMeasurement.from_metadata", "mt_metadata/transfer_functions/io/edi/edi.py:EDI._get_electric_metadata"]}
{"id": "C315", "title": "EDI dipoles have the length and direction of their electrodes", "statement": "An electric channel read from an EDI file without information about it has as dipole length the distance between its electrodes and as azimuth (in (-180, 180] degrees) the direction from the negative to the positive electrode.", "quantifier": "all electric channels of which a measurement is made", "why_tests_cant": "A test samples inputs; the claim is about every input, of any size.", "anchors": ["mt_metadata/transfer_functions/io/edi/metadata/emeasurement.py:EMeasurement.dipole_length", "mt_metadata/transfer_functions/io/edi/metadata/emeasurement.py:EMeasurement.azimuth", "mt_metadata/transfer_functions/io/edi/edi.py:EDI._get_electric_metadata"]}
{"id": "C316", "title": "Electric channels keep their azimuths in EDI files", "statement": "An electric channel read from the file written of it has the measured azimuth, translated azimuth, dipole length and number it had.", "quantifier": "all electric channels of which a measurement is made", "why_tests_cant": "A test samples inputs; the claim is about every input, of any size.", "anchors": ["mt_metadata/transfer_functions/io/edi/metadata/define_measurement.py:DefineMeasurement.from_metadata", "mt_metadata/transfer_functions/io/edi/edi.py:EDI._get_electric_metadata"]}
{"id": "C317", "title": "Magnetic channels keep place, azimuth and tilt in EDI files", "statement": "A magnetic channel read from the file written of it has the location, measured azimuth and tilt it had.", "quantifier": "all magnetic channels of which a measurement is made", "why_tests_cant": "A test samples inputs; the claim is about every input, of any size.", "anchors": ["mt_metadata/transfer_functions/io/edi/metadata/define_measurement.py:DefineMeasurement.from_metadata", "mt_metadata/transfer_functions/io/edi/edi.py:EDI._get_magnetic_metadata"]}
{"id": "C318", "title": "Making an EDI measurement leaves the channel alone", "statement": "DefineMeasurement.from_metadata(channel) does not change the channel.", "quantifier": "all channels", "why_tests_cant": "A test samples inputs; the claim is about every input, of any size.", "anchors": ["mt_metadata/transfer_functions/io/edi/metadata/define_measurement.py:DefineMeasurement.from_metadata"]}
{"id": "C319", "title": "EDI measurements are made of every channel", "statement": "DefineMeasurement.from_metadata accepts every channel, and makes a measurement of each electric or magnetic one.", "quantifier": "all channels", "why_tests_cant": "A test samples inputs; the claim is about every input, of any size.", "anchors": ["mt_metadata/transfer_functions/io/edi/metadata/define_measurement.py:DefineMeasurement.from_metadata"]}
{"id": "C320", "title": "Differences of dates are days", "statement": "For an MDate d, (d + n) - d is n days.", "quantifier": "all dates inside the range of times and all whole numbers of days", "why_tests_cant": "A test samples inputs; the claim is about every input, of any size.", "anchors": ["mt_metadata/common/mttime.py:MDate.__sub__", "mt_metadata/common/mttime.py:MDate.__add__", "mt_metadata/common/mttime.py:parse"]}
{"id": "C321", "title": "Adding days moves the calendar", "statement": "For an MDate d, d + n shows the date n days later on the calendar, keeps zone and time of day, and (d + n) - n is d.", "quantifier": "all dates inside the range of times, all zones and all whole numbers of days", "why_tests_cant": "A test samples inputs; the claim is about every input, of any size.", "anchors": ["mt_metadata/common/mttime.py:MDate.__add__", "mt_metadata/common/mttime.py:MDate.__sub__", "mt_metadata/common/mttime.py:MTime.isodate"]}
{"id": "C322", "title": "Dates survive their dictionaries", "statement": "MDate(time_stamp=d.to_dict()) equals d.", "quantifier": "all dates inside the range of times", "why_tests_cant": "A test samples inputs; the claim is about every input, of any size.", "anchors": ["mt_metadata/common/mttime.py:MDate.to_dict", "mt_metadata/common/mttime.py:MTime.__eq__"]}
{"id": "C323", "title": "Comments about electrodes reach their dipole", "statement": "When the comments of an EMTF XML file tell the manufacturer or azimuth of an electrode, the dipole of that name in the first run has it afterwards.", "quantifier": "all field notes, names and values", "why_tests_cant": "A test samples inputs; the claim is about every input, of any size.", "anchors": ["mt_metadata/transfer_functions/io/emtfxml/emtfxml.py:EMTFXML._parse_comments_electric"]}
{"id": "C324", "title": "Comments about magnetometers reach their magnetometer", "statement": "When the comments tell the manufacturer, azimuth, type or channel number of a magnetometer, the magnetometer of that name in the first run has it afterwards.", "quantifier": "all field notes, names and values", "why_tests_cant": "A test samples inputs; the claim is about every input, of any size.", "anchors": ["mt_metadata/transfer_functions/io/emtfxml/emtfxml.py:EMTFXML._parse_comments_magnetic"]}
{"id": "C325", "title": "Comments place magnetometers", "statement": "When the comments tell a coordinate of hx, hy or hz, the channel of that name in the site layout has it afterwards.", "quantifier": "all site layouts and values", "why_tests_cant": "A test samples inputs; the claim is about every input, of any size.", "anchors": ["mt_metadata/transfer_functions/io/emtfxml/emtfxml.py:EMTFXML._parse_comments_magnetic"]}
{"id": "C326", "title": "Comments place electrodes", "statement": "When the comments tell a coordinate of an electrode, the channel of that name in the site layout has it afterwards.", "quantifier": "all site layouts, names and values", "why_tests_cant": "A test samples inputs; the claim is about every input, of any size.", "anchors": ["mt_metadata/transfer_functions/io/emtfxml/emtfxml.py:EMTFXML._parse_comments_electric"]}
{"id": "C327", "title": "Dipoles survive StationXML", "statement": "The length of a dipole and the id, manufacturer and model of both electrodes are the same after the sensor of the channel is written to StationXML and read.", "quantifier": "all lengths and all electrodes with clean ids", "why_tests_cant": "A test samples inputs; the claim is about every input, of any size.", "anchors": ["mt_metadata/timeseries/stationxml/xml_channel_mt_channel.py:XMLChannelMTChannel._mt_to_sensor", "mt_metadata/timeseries/stationxml/xml_channel_mt_channel.py:XMLChannelMTChannel._sensor_to_mt", "mt_metadata/timeseries/stationxml/xml_channel_mt_channel.py:XMLChannelMTChannel._parse_dipole_length"]}
{"id": "C328", "title": "Magnetometers can be read from StationXML", "statement": "A magnetic channel whose sensor has a type can be read after it was written to StationXML, and the sensor has the same id, manufacturer and type.", "quantifier": "all sensors", "why_tests_cant": "A test samples inputs; the claim is about every input, of any size.", "anchors": ["mt_metadata/timeseries/stationxml/xml_channel_mt_channel.py:XMLChannelMTChannel._mt_to_sensor", "mt_metadata/timeseries/stationxml/xml_channel_mt_channel.py:XMLChannelMTChannel._sensor_to_mt", "mt_metadata/timeseries/stationxml/xml_channel_mt_channel.py:XMLChannelMTChannel._deduce_sensor_type"]}
{"id": "C329", "title": "Auxiliary sensors survive StationXML", "statement": "The sensor of an auxiliary channel is the same after it was written to StationXML and read.", "quantifier": "all sensors that have a type", "why_tests_cant": "A test samples inputs; the claim is about every input, of any size.", "anchors": ["mt_metadata/timeseries/stationxml/xml_channel_mt_channel.py:XMLChannelMTChannel._mt_to_sensor", "mt_metadata/timeseries/stationxml/xml_channel_mt_channel.py:XMLChannelMTChannel._sensor_to_mt"]}
{"id": "C330", "title": "Reading the same inventory again gives the same sensors", "statement": "Reading a channel may change the type of its sensor in the inventory, but reading it again gives the same channel.", "quantifier": "all sensors and channels", "why_tests_cant": "A test samples inputs; the claim is about every input, of any size.", "anchors": ["mt_metadata/timeseries/stationxml/xml_channel_mt_channel.py:XMLChannelMTChannel._sensor_to_mt", "mt_metadata/timeseries/stationxml/xml_channel_mt_channel.py:XMLChannelMTChannel._deduce_sensor_type"]}
{"id": "C331", "title": "Dipoles without a length can be read", "statement": "A channel with a sensor of type dipole or electrode can be read from StationXML whatever the description of the sensor is.", "quantifier": "all sensors without serial number", "why_tests_cant": "A test samples inputs; the claim is about every input, of any size.", "anchors": ["mt_metadata/timeseries/stationxml/xml_channel_mt_channel.py:XMLChannelMTChannel._sensor_to_mt", "mt_metadata/timeseries/stationxml/xml_channel_mt_channel.py:XMLChannelMTChannel._parse_dipole_length"]}
{"id": "C332", "title": "The normalisation frequency lies in the pass band", "statement": "The normalisation frequency a channel response finds for its filters and frequencies lies in their common pass band.", "quantifier": "all filters, frequencies and roundings to three decimals", "why_tests_cant": "A test samples inputs; the claim is about every input, of any size.", "anchors": ["mt_metadata/timeseries/filters/channel_response.py:ChannelResponse.validate_normalization_frequency", "mt_metadata/timeseries/filters/channel_response.py:ChannelResponse.update_units_and_normalization_frequency_from_filters_list", "mt_metadata/timeseries/filters/channel_response.py:ChannelResponse.pass_band"]}
{"id": "C333", "title": "The response of a channel has a normalisation frequency", "statement": "The response channel.channel_response makes from the filters of a survey has a positive normalisation frequency if the channel has filters.", "quantifier": "all dictionaries of filters and lists of names", "why_tests_cant": "A test samples inputs; the claim is about every input, of any size.", "anchors": ["mt_metadata/timeseries/channel.py:ChannelBase.channel_response", "mt_metadata/timeseries/filters/channel_response.py:ChannelResponse.update_units_and_normalization_frequency_from_filters_list"]}
{"id": "C334", "title": "The normalisation frequency follows filters and frequencies", "statement": "After any assignments of filters and frequencies to a channel response its normalisation frequency is that of the pass band they have.", "quantifier": "all histories of assignments", "why_tests_cant": "A test runs a handful of call sequences; the claim is about every sequence of every length.", "anchors": ["mt_metadata/timeseries/filters/channel_response.py:ChannelResponse.update_units_and_normalization_frequency_from_filters_list", "mt_metadata/timeseries/filters/channel_response.py:ChannelResponse.validate_normalization_frequency"]}
{"id": "C335", "title": "Validating descriptions twice", "statement": "validate_value_dict of a description that has been validated returns it unchanged.", "quantifier": "all dictionaries of nine parts, all values and all ways numbers are read", "why_tests_cant": "A test samples inputs; the claim is about every input, of any size.", "anchors": ["mt_metadata/utils/validators.py:validate_value_dict", "mt_metadata/utils/validators.py:validate_default", "mt_metadata/utils/validators.py:validate_value_type"]}
{"id": "C336", "title": "Required attributes get a default", "statement": "A required attribute described without a default is given one.", "quantifier": "all types, styles and options", "why_tests_cant": "A test samples inputs; the claim is about every input, of any size.", "anchors": ["mt_metadata/utils/validators.py:validate_default"]}
{"id": "C337", "title": "Defaults are kept", "statement": "A default that has the type of the attribute is kept by validate_value_dict.", "quantifier": "all descriptions and defaults", "why_tests_cant": "A test samples inputs; the claim is about every input, of any size.", "anchors": ["mt_metadata/utils/validators.py:validate_default", "mt_metadata/utils/validators.py:validate_value_type"]}
{"id": "C338", "title": "Values get the type asked for", "statement": "validate_value_type returns a value of the type asked for, None, or a list of such values, or raises.", "quantifier": "all values, simple types and styles", "why_tests_cant": "A test samples inputs; the claim is about every input, of any size.", "anchors": ["mt_metadata/utils/validators.py:validate_value_type"]}
{"id": "C339", "title": "Options in a text are names", "statement": "validate_options and validate_alias of a text return names that are neither empty nor 'none', and find all names of a list that has been written with bars.", "quantifier": "all texts and lists of names", "why_tests_cant": "A test samples inputs; the claim is about every input, of any size.", "anchors": ["mt_metadata/utils/validators.py:validate_options", "mt_metadata/utils/validators.py:validate_alias"]}
{"id": "C340", "title": "Attributes survive lines of CSV files", "statement": "An attribute written by BaseDict.to_csv and read by from_csv is the same.", "quantifier": "all descriptions and names", "why_tests_cant": "A test samples inputs; the claim is about every input, of any size.", "anchors": ["mt_metadata/base/schema.py:BaseDict.to_csv", "mt_metadata/base/schema.py:BaseDict.from_csv"]}
{"id": "C341", "title": "Descriptions need nine parts in any order", "statement": "validate_value_dict accepts only dictionaries with exactly the nine keys, and the order of the keys does not matter.", "quantifier": "all dictionaries and their permutations", "why_tests_cant": "A test samples inputs; the claim is about every input, of any size.", "anchors": ["mt_metadata/utils/validators.py:validate_header", "mt_metadata/utils/validators.py:validate_value_dict"]}
{"id": "C342", "title": "What a schema returns can be set", "statement": "b[k] = b[k] is accepted and changes nothing.", "quantifier": "all schemas and names, known and unknown", "why_tests_cant": "A test samples inputs; the claim is about every input, of any size.", "anchors": ["mt_metadata/base/schema.py:BaseDict.__getitem__", "mt_metadata/base/schema.py:BaseDict.__setitem__"]}
{"id": "C343", "title": "Adding dictionaries", "statement": "add_dict adds every attribute asked for under the given name with a validated description, and changes no other attribute.", "quantifier": "all schemas, dictionaries, names and lists of keys", "why_tests_cant": "A test samples inputs; the claim is about every input, of any size.", "anchors": ["mt_metadata/base/schema.py:BaseDict.add_dict"]}
{"id": "C344", "title": "Schemas survive JSON files", "statement": "A schema written by to_json and read by from_json is the same.", "quantifier": "all schemas whose attributes were validated", "why_tests_cant": "A test samples inputs; the claim is about every input, of any size.", "anchors": ["mt_metadata/base/schema.py:BaseDict.to_json", "mt_metadata/base/schema.py:BaseDict.from_json"]}
{"id": "C345", "title": "Hour 24 is midnight", "statement": "A time written with hour 24, MTime('YYYY-MM-DDT24:00:00'), is midnight of the next day.", "quantifier": "all dates, with and without a zone", "why_tests_cant": "A test samples inputs; the claim is about every input, of any size.", "anchors": ["mt_metadata/common/mttime.py:_parse_string", "mt_metadata/common/mttime.py:_fix_out_of_bounds_time_stamp", "mt_metadata/common/mttime.py:parse"]}
{"id": "C346", "title": "Hour 24 is only midnight", "statement": "Times written with hour 24 and minutes or seconds, like T24:30:00, are refused.", "quantifier": "all dates and times", "why_tests_cant": "A test samples inputs; the claim is about every input, of any size.", "anchors": ["mt_metadata/common/mttime.py:_parse_string", "mt_metadata/common/mttime.py:parse"]}
{"id": "C347", "title": "Only dates are read as dates", "statement": "Texts YYYY-MM-DD whose numbers are no date of the calendar are refused.", "quantifier": "all numbers for year, month and day, all times and zones", "why_tests_cant": "A test samples inputs; the claim is about every input, of any size.", "anchors": ["mt_metadata/common/mttime.py:_parse_string", "mt_metadata/common/mttime.py:parse"]}
{"id": "C348", "title": "Words for nothing", "statement": "The words documented as null values are read as 1980-01-01.", "quantifier": "all words", "why_tests_cant": "A test samples inputs; the claim is about every input, of any size.", "anchors": ["mt_metadata/common/mttime.py:_parse_string", "mt_metadata/common/mttime.py:parse"]}
{"id": "C349", "title": "Times are as they are written", "statement": "A text YYYY-MM-DDThh:mm:ss with or without a zone is the instant that is written, in its zone, or the limit of times.", "quantifier": "all dates of the calendar, times of day and zones", "why_tests_cant": "A test samples inputs; the claim is about every input, of any size.", "anchors": ["mt_metadata/common/mttime.py:parse", "mt_metadata/common/mttime.py:_check_timestamp"]}
{"id": "C350", "title": "Years of collection in EMTF XML files", "statement": "If the element YearCollected of a site has no text, the site read has no year; a range of years is its first year.", "quantifier": "all sites read from files, all texts", "why_tests_cant": "A test samples inputs; the claim is about every input, of any size.", "anchors": ["mt_metadata/transfer_functions/io/emtfxml/metadata/site.py:validate_year_collected", "mt_metadata/transfer_functions/io/emtfxml/metadata/site.py:read_dict"]}
{"id": "C351", "title": "New objects have the standard names of channels", "statement": "TF() and ZMM() have the names ex, ey, hx, hy, hz whatever was done with other objects.", "quantifier": "all programs that make and use TF and ZMM objects and dictionaries of names", "why_tests_cant": "A test runs a handful of call sequences; the claim is about every sequence of every length.", "anchors": ["mt_metadata/transfer_functions/core.py:__init__", "mt_metadata/transfer_functions/core.py:channel_nomenclature", "mt_metadata/transfer_functions/io/zfiles/zmm.py:__init__", "mt_metadata/transfer_functions/io/zfiles/zmm.py:channel_nomenclature"]}
{"id": "C352", "title": "Assigning names leaves the dictionary", "statement": "Assigning a dictionary to ZMM.channel_nomenclature does not change that dictionary.", "quantifier": "all programs, all dictionaries", "why_tests_cant": "A test runs a handful of call sequences; the claim is about every sequence of every length.", "anchors": ["mt_metadata/transfer_functions/io/zfiles/zmm.py:channel_nomenclature"]}
{"id": "C353", "title": "Names in use are those of the nomenclature", "statement": "The names that a TF or ZMM object uses for channels are those that its channel_nomenclature shows.", "quantifier": "all programs, all objects", "why_tests_cant": "A test runs a handful of call sequences; the claim is about every sequence of every length.", "anchors": ["mt_metadata/transfer_functions/core.py:channel_nomenclature", "mt_metadata/transfer_functions/io/zfiles/zmm.py:channel_nomenclature"]}
{"id": "C354", "title": "Names that are refused change nothing", "statement": "Assigning an incomplete dictionary to TF.channel_nomenclature raises KeyError and leaves the object as it was.", "quantifier": "all programs, all dictionaries", "why_tests_cant": "A test runs a handful of call sequences; the claim is about every sequence of every length.", "anchors": ["mt_metadata/transfer_functions/core.py:channel_nomenclature"]}
{"id": "C355", "title": "New data sets have the names of the object", "statement": "The data set of a new TF has the names of the TF as coordinates, whatever templates other objects have left.", "quantifier": "all programs, all nomenclatures", "why_tests_cant": "A test runs a handful of call sequences; the claim is about every sequence of every length.", "anchors": ["mt_metadata/transfer_functions/core.py:__init__", "mt_metadata/transfer_functions/core.py:_get_template_key", "mt_metadata/transfer_functions/core.py:_initialize_transfer_function"]}
{"id": "C356", "title": "Data sets follow the names", "statement": "After names are assigned to a TF, its data set has them as coordinates.", "quantifier": "all programs without errors, all nomenclatures", "why_tests_cant": "A test runs a handful of call sequences; the claim is about every sequence of every length.", "anchors": ["mt_metadata/transfer_functions/core.py:channel_nomenclature", "mt_metadata/transfer_functions/core.py:_initialize_transfer_function"]}
{"id": "C357", "title": "From names to components", "statement": "TF.inverse_channel_nomenclature gives for every name the component it stands for.", "quantifier": "all programs without errors, all nomenclatures of distinct names", "why_tests_cant": "A test runs a handful of call sequences; the claim is about every sequence of every length.", "anchors": ["mt_metadata/transfer_functions/core.py:inverse_channel_nomenclature"]}
{"id": "C358", "title": "Copies have their own names", "statement": "A copy of a TF has the same names and a dictionary of its own; names written to it are in no other object.", "quantifier": "all programs, all objects", "why_tests_cant": "A test runs a handful of call sequences; the claim is about every sequence of every length.", "anchors": ["mt_metadata/transfer_functions/core.py:copy", "mt_metadata/transfer_functions/core.py:__deepcopy__", "mt_metadata/transfer_functions/core.py:channel_nomenclature"]}
{"id": "C359", "title": "Forms of a DOI", "statement": "A DOI given alone (10.\u2026), after doi: or as link https://doi.org/\u2026 is the same DOI.", "quantifier": "all texts that begin with 10.", "why_tests_cant": "A test samples inputs; the claim is about every input, of any size.", "anchors": ["mt_metadata/utils/validators.py:validate_doi"]}
{"id": "C360", "title": "Accepted DOIs are stable", "statement": "A DOI that is accepted is a link to doi.org or dx.doi.org, and is accepted again as it is; None and the empty text are no DOI, everything else raises ValueError.", "quantifier": "all texts and links", "why_tests_cant": "A test samples inputs; the claim is about every input, of any size.", "anchors": ["mt_metadata/utils/validators.py:validate_doi"]}
{"id": "C361", "title": "Written estimates can be read", "statement": "The list of statistical estimates in a file that has been written can be read, and is what was written.", "quantifier": "all lists of estimates, all data", "why_tests_cant": "A test samples inputs; the claim is about every input, of any size.", "anchors": ["mt_metadata/transfer_functions/io/emtfxml/metadata/statistical_estimates.py:read_dict", "mt_metadata/transfer_functions/io/emtfxml/metadata/statistical_estimates.py:to_xml", "mt_metadata/transfer_functions/io/emtfxml/metadata/estimate.py:to_xml", "mt_metadata/transfer_functions/io/emtfxml/emtfxml.py:_get_statistical_estimates"]}
{"id": "C362", "title": "Written data types can be read", "statement": "The list of data types in a file that has been written can be read, and is what was written.", "quantifier": "all lists of data types, all data", "why_tests_cant": "A test samples inputs; the claim is about every input, of any size.", "anchors": ["mt_metadata/transfer_functions/io/emtfxml/metadata/data_types.py:read_dict", "mt_metadata/transfer_functions/io/emtfxml/metadata/data_types.py:to_xml", "mt_metadata/transfer_functions/io/emtfxml/metadata/data_type.py:to_xml", "mt_metadata/transfer_functions/io/emtfxml/metadata/data_type.py:validate_units", "mt_metadata/transfer_functions/io/emtfxml/emtfxml.py:_get_data_types"]}
{"id": "C363", "title": "Written copyrights can be read", "statement": "The copyright in a file that has been written can be read.", "quantifier": "all copyrights, all citations of surveys", "why_tests_cant": "A test samples inputs; the claim is about every input, of any size.", "anchors": ["mt_metadata/transfer_functions/io/emtfxml/metadata/copyright.py:read_dict", "mt_metadata/transfer_functions/io/emtfxml/metadata/copyright.py:to_xml", "mt_metadata/transfer_functions/io/emtfxml/metadata/citation.py:to_xml", "mt_metadata/transfer_functions/io/emtfxml/emtfxml.py:survey_metadata"]}
{"id": "C364", "title": "Citations are read as they were written", "statement": "The citation read from a file is the one that was written.", "quantifier": "all copyrights", "why_tests_cant": "A test samples inputs; the claim is about every input, of any size.", "anchors": ["mt_metadata/transfer_functions/io/emtfxml/metadata/citation.py:to_xml", "mt_metadata/transfer_functions/io/emtfxml/metadata/copyright.py:to_xml", "mt_metadata/transfer_functions/io/emtfxml/metadata/copyright.py:read_dict"]}
{"id": "C365", "title": "Copyrights of files read one after another", "statement": "The copyright read from a file does not depend on what the object has read before.", "quantifier": "all copyrights, all earlier states", "why_tests_cant": "A test runs a handful of call sequences; the claim is about every sequence of every length.", "anchors": ["mt_metadata/transfer_functions/io/emtfxml/metadata/copyright.py:read_dict", "mt_metadata/transfer_functions/io/emtfxml/metadata/helpers.py:_read_element"]}
{"id": "C366", "title": "Names of channels as texts, lists and arrays", "statement": "A list of channel names may be assigned to a run as a list, as a text with commas or as an array of numpy, with the same outcome.", "quantifier": "all lists of names without commas and blanks at their ends", "why_tests_cant": "A test samples inputs; the claim is about every input, of any size.", "anchors": ["mt_metadata/timeseries/run.py:Run.validate_list_of_strings"]}
{"id": "C367", "title": "Runs made with lists of names", "statement": "A run made with lists of electric, magnetic and auxiliary names has an (empty) channel for every name, of the class of its list.", "quantifier": "all lists of distinct names that the classes take", "why_tests_cant": "The existing tests give one of the three lists.", "anchors": ["mt_metadata/timeseries/run.py:Run.validate_channels_recorded", "mt_metadata/timeseries/run.py:Run._update_channels_recorded", "mt_metadata/timeseries/run.py:Run.add_channel"]}
{"id": "C368", "title": "Lists of names after an assignment", "statement": "After names were assigned to channels_recorded_electric, _magnetic or _auxiliary of a run, the list has the names of the channels of its class.", "quantifier": "all call histories of a run, all lists of names that the class takes", "why_tests_cant": "A test runs a handful of call sequences; the claim is about every sequence of every length.", "anchors": ["mt_metadata/timeseries/run.py:Run.validate_channels_recorded", "mt_metadata/timeseries/run.py:Run.validate_list_of_strings", "mt_metadata/timeseries/run.py:Run._update_channels_recorded"]}
{"id": "C369", "title": "Names that are refused", "statement": "If an assignment to one of the lists of names of a run raises, the run is as it was.", "quantifier": "all call histories of a run, everything that may be assigned", "why_tests_cant": "A test runs a handful of call sequences; the claim is about every sequence of every length.", "anchors": ["mt_metadata/timeseries/run.py:Run.validate_channels_recorded", "mt_metadata/timeseries/run.py:Run.validate_list_of_strings", "mt_metadata/timeseries/electric.py:Electric", "mt_metadata/timeseries/magnetic.py:Magnetic"]}
{"id": "C370", "title": "Positions of channels", "statement": "run.channels[run.channel_index(c)] is the channel c.", "quantifier": "all call histories of a run, all names", "why_tests_cant": "A test runs a handful of call sequences; the claim is about every sequence of every length.", "anchors": ["mt_metadata/timeseries/run.py:Run.channel_index", "mt_metadata/common/list_dict.py:ListDict.__getitem__"]}
{"id": "C371", "title": "Ratings", "statement": "A rating is held if it is one of 0 to 5, as given (number or text); a number that is none of these is refused.", "quantifier": "all numbers and texts", "why_tests_cant": "A test samples inputs; the claim is about every input, of any size.", "anchors": ["mt_metadata/common/rating.py:Rating.validate_value"]}
{"id": "C372", "title": "Indices of BIRRP blocks", "statement": "The indices of a block given as the text of a list are those of the list.", "quantifier": "all lists of integers", "why_tests_cant": "A test samples inputs; the claim is about every input, of any size.", "anchors": ["mt_metadata/transfer_functions/io/jfiles/metadata/birrp_block.py:BirrpBlock.validate_indices"]}
{"id": "C373", "title": "Names of sources of money", "statement": "The name of a funding source, an organization or a grant given as a text is that one name.", "quantifier": "all texts", "why_tests_cant": "A test samples inputs; the claim is about every input, of any size.", "anchors": ["mt_metadata/common/funding_source.py:FundingSource.validate_input"]}
{"id": "C374", "title": "Descriptions of attributes after an update", "statement": "Whatever was asked for before on a computer, also by other versions of the package, the description of a class that get_all_fields_serializable gives is that of the package that runs.", "quantifier": "all histories of processes, versions of the package, questions and lost files", "why_tests_cant": "A test runs a handful of call sequences; the claim is about every sequence of every length.", "anchors": ["mt_metadata/base/pydantic_helpers.py:get_all_fields_serializable", "mt_metadata/base/pydantic_helpers.py:_model_fingerprint", "mt_metadata/base/pydantic_helpers.py:_disk_cache_path", "mt_metadata/base/pydantic_helpers.py:_load_fields_from_disk", "mt_metadata/base/pydantic_helpers.py:_save_fields_to_disk"]}
{"id": "C375", "title": "Descriptions do not depend on the order of questions", "statement": "The description of a class does not depend on which classes were asked for before.", "quantifier": "all packages of classes, all histories of questions", "why_tests_cant": "A test runs a handful of call sequences; the claim is about every sequence of every length.", "anchors": ["mt_metadata/base/pydantic_helpers.py:get_all_fields_serializable", "mt_metadata/base/pydantic_helpers.py:_compute_fields_tree"]}
{"id": "C376", "title": "Dotted names of attributes", "statement": "The flat dictionary of a class has one entry for each attribute of it and of its parts, below the dotted name, and nothing else.", "quantifier": "all trees of descriptions, all paths of names", "why_tests_cant": "A test samples inputs; the claim is about every input, of any size.", "anchors": ["mt_metadata/base/pydantic_helpers.py:flatten_field_tree_map"]}
{"id": "C377", "title": "The remote site in EMTF XML files", "statement": "An EMTF XML file has the remote site if it has a name, and the field notes of the remote site unless they are skipped, whatever the object has written before.", "quantifier": "all histories of reading, writing and assignments", "why_tests_cant": "A test runs a handful of call sequences; the claim is about every sequence of every length.", "anchors": ["mt_metadata/transfer_functions/io/emtfxml/emtfxml.py:EMTFXML.write", "mt_metadata/transfer_functions/io/emtfxml/metadata/remote_info.py:RemoteInfo.to_xml"]}
{"id": "C378", "title": "Elements of EMTF XML files", "statement": "Which elements an EMTF XML file has depends on the external link and the option skip_field_notes of this call alone.", "quantifier": "all histories of reading, writing and assignments", "why_tests_cant": "A test runs a handful of call sequences; the claim is about every sequence of every length.", "anchors": ["mt_metadata/transfer_functions/io/emtfxml/emtfxml.py:EMTFXML.write"]}
{"id": "C379", "title": "The period range has the periods", "statement": "The period range in an EMTF XML file of a transfer function has all periods of the file.", "quantifier": "all lists of positive periods", "why_tests_cant": "A test samples inputs; the claim is about every input, of any size.", "anchors": ["mt_metadata/transfer_functions/io/emtfxml/metadata/period_range.py:PeriodRange.to_xml", "mt_metadata/transfer_functions/io/emtfxml/metadata/data.py:TransferFunction.write_block", "mt_metadata/transfer_functions/core.py:TF.to_emtfxml"]}
{"id": "C380", "title": "The period range is that of the periods", "statement": "The period range in an EMTF XML file is that of the periods of the object, rounded.", "quantifier": "all histories of reading, writing and assignments", "why_tests_cant": "A test runs a handful of call sequences; the claim is about every sequence of every length.", "anchors": ["mt_metadata/transfer_functions/io/emtfxml/emtfxml.py:EMTFXML.read", "mt_metadata/transfer_functions/io/emtfxml/emtfxml.py:EMTFXML.write", "mt_metadata/transfer_functions/io/emtfxml/metadata/period_range.py:PeriodRange.to_xml"]}
{"id": "C381", "title": "Channels of Z-files read one after another", "statement": "The recorded channels of a ZMM object after reading a file are those of this file, whatever the object has read before.", "quantifier": "all histories of reading files with one object", "why_tests_cant": "A test runs a handful of call sequences; the claim is about every sequence of every length.", "anchors": ["mt_metadata/transfer_functions/io/zfiles/zmm.py:ZMM.read_header", "mt_metadata/transfer_functions/io/zfiles/zmm.py:ZMM.channels_recorded", "mt_metadata/transfer_functions/io/zfiles/zmm.py:ZMM.has_impedance", "mt_metadata/transfer_functions/io/zfiles/zmm.py:ZMM.has_tipper"]}
{"id": "C382", "title": "Sample rates of Z-files read one after another", "statement": "The sample rate of the run of a ZMM object after reading a file is the median of the sampling frequencies of the periods of this file.", "quantifier": "all histories of reading files with one object", "why_tests_cant": "A test runs a handful of call sequences; the claim is about every sequence of every length.", "anchors": ["mt_metadata/transfer_functions/io/zfiles/zmm.py:ZMM.read", "mt_metadata/transfer_functions/io/zfiles/zmm.py:ZMM._read_period_block"]}
{"id": "C383", "title": "Decimation levels of Z-files read one after another", "statement": "What a ZMM object writes of the decimation level of a period of the file it read last is what this file says of it; of periods never read only the sample rate is known.", "quantifier": "all histories of reading files with one object", "why_tests_cant": "A test runs a handful of call sequences; the claim is about every sequence of every length.", "anchors": ["mt_metadata/transfer_functions/io/zfiles/zmm.py:ZMM.write", "mt_metadata/transfer_functions/io/zfiles/zmm.py:ZMM._read_period_block"]}
{"id": "C384", "title": "Copies are independent", "statement": "obj.copy() looks the same as obj; whatever is assigned to attributes of obj and of the copy afterwards, at any depth and in any order, each has just what was assigned to itself.", "quantifier": "all objects without HDF5 references, all histories of assignments to both", "why_tests_cant": "A test runs a handful of call sequences; the claim is about every sequence of every length.", "anchors": ["mt_metadata/base/metadata.py:MetadataBase.copy", "mt_metadata/common/list_dict.py:ListDict.__deepcopy__"]}
{"id": "C385", "title": "Copies have the values of the update", "statement": "obj.copy(update=u) has the values of u for all names of u.", "quantifier": "all objects and updates", "why_tests_cant": "A test samples inputs; the claim is about every input, of any size.", "anchors": ["mt_metadata/base/metadata.py:MetadataBase.copy"]}
{"id": "C386", "title": "Copies that are not deep leave the object alone", "statement": "Assignments to attributes of obj.copy(deep=False) do not change obj.", "quantifier": "all objects and assignments", "why_tests_cant": "A test samples inputs; the claim is about every input, of any size.", "anchors": ["mt_metadata/base/metadata.py:MetadataBase.copy"]}
{"id": "C387", "title": "Merged objects have their own items", "statement": "After a.merge(b) assignments to a leave b alone.", "quantifier": "all objects and assignments", "why_tests_cant": "A test samples inputs; the claim is about every input, of any size.", "anchors": ["mt_metadata/common/list_dict.py:ListDict.extend", "mt_metadata/timeseries/run.py:Run.merge", "mt_metadata/timeseries/station.py:Station.merge", "mt_metadata/timeseries/survey.py:Survey.merge"]}
{"id": "C388", "title": "Channels of EDI files read one after another", "statement": "The measurements of an EDI object after reading a file are those of this file, whatever the object has read before.", "quantifier": "all histories of reading files with one object", "why_tests_cant": "A test runs a handful of call sequences; the claim is about every sequence of every length.", "anchors": ["mt_metadata/transfer_functions/io/edi/edi.py:EDI.read", "mt_metadata/transfer_functions/io/edi/metadata/define_measurement.py:DefineMeasurement.read_measurement"]}
{"id": "C389", "title": "Positions of EDI files read one after another", "statement": "The position of an EDI object after reading a file is that of the header of this file, or that of its reference where the header has none.", "quantifier": "all histories of reading files with one object", "why_tests_cant": "A test runs a handful of call sequences; the claim is about every sequence of every length.", "anchors": ["mt_metadata/transfer_functions/io/edi/edi.py:EDI.read", "mt_metadata/transfer_functions/io/edi/metadata/header.py:Header.read_header", "mt_metadata/transfer_functions/io/edi/metadata/define_measurement.py:DefineMeasurement.read_measurement"]}
{"id": "C390", "title": "Phoenix format of EDI files read one after another", "statement": "phoenix_edi of an EDI object after reading a file says whether this file is in the Phoenix format.", "quantifier": "all histories of reading files with one object", "why_tests_cant": "A test runs a handful of call sequences; the claim is about every sequence of every length.", "anchors": ["mt_metadata/transfer_functions/io/edi/edi.py:EDI.read", "mt_metadata/transfer_functions/io/edi/metadata/header.py:Header.read_header"]}
{"id": "C391", "title": "Channels of AVG files read one after another", "statement": "What the channels of the run and the instrument of a ZongeMTAvg object are taken from after reading a file does not depend on the files the object has read before.", "quantifier": "all histories of reading files with one object", "why_tests_cant": "A test runs a handful of call sequences; the claim is about every sequence of every length.", "anchors": ["mt_metadata/transfer_functions/io/zonge/metadata/header.py:Header.read_header", "mt_metadata/transfer_functions/io/zonge/metadata/header.py:Header._has_channel", "mt_metadata/transfer_functions/io/zonge/zonge.py:ZongeMTAvg.run_metadata"]}
{"id": "C392", "title": "Every AVG file has a run", "statement": "run_metadata of a ZongeMTAvg object that has read a file can be made, whichever components the file has.", "quantifier": "all files, all histories of reading files with one object", "why_tests_cant": "A test runs a handful of call sequences; the claim is about every sequence of every length.", "anchors": ["mt_metadata/transfer_functions/io/zonge/metadata/header.py:Header._has_channel", "mt_metadata/transfer_functions/io/zonge/zonge.py:ZongeMTAvg.run_metadata"]}
{"id": "C393", "title": "Values of magnetic channels in AVG files", "statement": "Of two values in a line of a component (azimuth, inclination, number) the second is that of the magnetic channel: hy for zxy, hx for zyx, hz for tzx.", "quantifier": "all texts of lines", "why_tests_cant": "A test samples inputs; the claim is about every input, of any size.", "anchors": ["mt_metadata/transfer_functions/io/zonge/metadata/ch.py:CH.validate_comma_separated_fields", "mt_metadata/transfer_functions/io/zonge/zonge.py:ZongeMTAvg.hz_metadata", "mt_metadata/transfer_functions/io/zonge/zonge.py:ZongeMTAvg.hx_metadata"]}
{"id": "C394", "title": "Parameters of J files read one after another", "statement": "The BIRRP parameters of a JFile object (such as the time step the sample rate is made of) after reading a file are those of this file, whatever the object has read before.", "quantifier": "all histories of reading files with one object", "why_tests_cant": "A test runs a handful of call sequences; the claim is about every sequence of every length.", "anchors": ["mt_metadata/transfer_functions/io/jfiles/jfile.py:JFile.read", "mt_metadata/transfer_functions/io/jfiles/metadata/header.py:Header.read_header"]}
{"id": "C395", "title": "J files that cannot be read", "statement": "A J file that cannot be read leaves a JFile object as it was before.", "quantifier": "all objects, all files, all histories of reading files with one object", "why_tests_cant": "A test runs a handful of call sequences; the claim is about every sequence of every length.", "anchors": ["mt_metadata/transfer_functions/io/jfiles/jfile.py:JFile.read", "mt_metadata/transfer_functions/io/jfiles/metadata/header.py:Header.read_header", "mt_metadata/transfer_functions/io/jfiles/metadata/header.py:Header.read_metadata"]}
{"id": "C396", "title": "LaTeX tables have all attributes", "statement": "The tables BaseDict.to_latex makes have a line for each attribute, for any length of the first table and of the others.", "quantifier": "all dictionaries, all lengths of tables", "why_tests_cant": "A test samples inputs; the claim is about every input, of any size.", "anchors": ["mt_metadata/base/schema.py:BaseDict.to_latex"]}
{"id": "C397", "title": "Making LaTeX tables changes nothing", "statement": "BaseDict.to_latex leaves the dictionary as it is, so that it can be called again.", "quantifier": "all dictionaries, any number of calls", "why_tests_cant": "A test runs a handful of call sequences; the claim is about every sequence of every length.", "anchors": ["mt_metadata/base/schema.py:BaseDict.to_latex"]}
{"id": "C398", "title": "Summaries of standards are complete", "statement": "The array of a summary has a row for each attribute, in order, with its name and all its values.", "quantifier": "all summaries", "why_tests_cant": "A test samples inputs; the claim is about every input, of any size.", "anchors": ["mt_metadata/utils/summarize.py:summary_to_array", "mt_metadata/utils/summarize.py:summary_to_dataframe"]}
{"id": "C399", "title": "Summaries have all classes", "statement": "The summary of standards has every field of every class whose description is valid.", "quantifier": "all lists of classes", "why_tests_cant": "A test samples inputs; the claim is about every input, of any size.", "anchors": ["mt_metadata/utils/summarize.py:summarize_pydantic_standards", "mt_metadata/base/schema.py:BaseDict.add_dict", "mt_metadata/utils/summarize.py:collect_basemodel_objects"]}
{"id": "C400", "title": "Forms of summaries", "statement": "summarize_standards writes a file if its name is given and returns the form asked for.", "quantifier": "all forms and file names", "why_tests_cant": "A test samples inputs; the claim is about every input, of any size.", "anchors": ["mt_metadata/utils/summarize.py:summarize_standards"]}
{"id": "C401", "title": "Options in summaries of standards", "statement": "Each option a summary of standards shows for a field that is an enumeration is taken by the field.", "quantifier": "all enumerations", "why_tests_cant": "A test samples inputs; the claim is about every input, of any size.", "anchors": ["mt_metadata/utils/summarize.py:_get_field_options", "mt_metadata/common/enumerations.py:StrEnumerationBase"]}
{"id": "C402", "title": "Types in summaries of standards", "statement": "The type a summary of standards shows for a field does not depend on whether the field may be None; a union is shown as its first type, an enumeration as a text.", "quantifier": "all annotations", "why_tests_cant": "A test samples inputs; the claim is about every input, of any size.", "anchors": ["mt_metadata/utils/summarize.py:_get_field_type"]}
{"id": "C403", "title": "Data of an EDI object that reads several files", "statement": "After an EDI object read a file with a data section, its arrays, covariances and rotation angles are those that a new object reads from this file.", "quantifier": "all sequences of files, also such that cannot be read", "why_tests_cant": "A test runs a handful of call sequences; the claim is about every sequence of every length.", "anchors": ["mt_metadata/transfer_functions/io/edi/edi.py:EDI.read", "mt_metadata/transfer_functions/io/edi/edi.py:EDI._read_data", "mt_metadata/transfer_functions/io/edi/metadata/data_section.py:DataSection.get_data"]}
{"id": "C404", "title": "EDI files without a known data section", "statement": "The arrays that an EDI object reads from a file do not depend on files it read before, also if the file has no data section or one of another kind.", "quantifier": "all sequences of files", "why_tests_cant": "A test runs a handful of call sequences; the claim is about every sequence of every length.", "anchors": ["mt_metadata/transfer_functions/io/edi/edi.py:EDI.read", "mt_metadata/transfer_functions/io/edi/edi.py:EDI._read_data", "mt_metadata/transfer_functions/io/edi/metadata/data_section.py:DataSection.get_data"]}
{"id": "C405", "title": "Columns of spectra in EDI files", "statement": "Each component of spectra is taken from the column where the data section lists the identifier of its channel.", "quantifier": "all sections of four to seven channels in any order", "why_tests_cant": "A test samples inputs; the claim is about every input, of any size.", "anchors": ["mt_metadata/transfer_functions/io/edi/edi.py:EDI._read_data", "mt_metadata/transfer_functions/io/edi/edi.py:EDI._read_spectra"]}
{"id": "C406", "title": "Conversion to Z file objects leaves the runs", "statement": "TF.to_zmm leaves the runs of the transfer function as they are.", "quantifier": "all transfer functions, runs and names of channels", "why_tests_cant": "A test samples inputs; the claim is about every input, of any size.", "anchors": ["mt_metadata/transfer_functions/core.py:TF.to_zmm", "mt_metadata/transfer_functions/core.py:TF.make_zmm_run"]}
{"id": "C407", "title": "Conversion to Z file objects again", "statement": "What TF.to_zmm gives does not depend on conversions made before.", "quantifier": "all sequences of assignments of data and names and of conversions", "why_tests_cant": "A test runs a handful of call sequences; the claim is about every sequence of every length.", "anchors": ["mt_metadata/transfer_functions/core.py:TF.to_zmm", "mt_metadata/transfer_functions/core.py:TF.make_zmm_run", "mt_metadata/transfer_functions/core.py:TF.inverse_channel_nomenclature"]}
{"id": "C408", "title": "Station metadata of time series into a transfer function", "statement": "After TF.from_ts_station_metadata the station of the transfer function has every value of the station given.", "quantifier": "all stations, whatever the transfer function had before", "why_tests_cant": "A test samples inputs; the claim is about every input, of any size.", "anchors": ["mt_metadata/transfer_functions/core.py:TF.from_ts_station_metadata", "mt_metadata/base/metadata.py:MetadataBase.to_dict"]}
{"id": "C409", "title": "Station metadata of a transfer function for time series", "statement": "TF.to_ts_station_metadata has every value of the station that says something, and nothing of the transfer function; the values are there again after the way back.", "quantifier": "all stations", "why_tests_cant": "A test samples inputs; the claim is about every input, of any size.", "anchors": ["mt_metadata/transfer_functions/core.py:TF.to_ts_station_metadata", "mt_metadata/transfer_functions/core.py:TF.from_ts_station_metadata"]}
{"id": "C410", "title": "Units of a channel response over assignments", "statement": "At all times the units in and out of a channel response are those of its first and last filter, and each filter takes the units the one before gives.", "quantifier": "all histories of assignments and changes in place of the list of filters", "why_tests_cant": "A test runs a handful of call sequences; the claim is about every sequence of every length.", "anchors": ["mt_metadata/timeseries/filters/channel_response.py:ChannelResponse.update_units_and_normalization_frequency_from_filters_list", "mt_metadata/timeseries/filters/channel_response.py:ChannelResponse._check_consistency_of_units", "mt_metadata/timeseries/filters/channel_response.py:ChannelResponse.validate_filters_list"]}
{"id": "C411", "title": "Fields of one object and of others", "statement": "Whatever is done with what get_all_fields of other objects gives, the names of the fields of an object, and which of them are required (and so written by to_dict), stay as they are.", "quantifier": "all classes and all histories of changes of the fields of other objects", "why_tests_cant": "A test runs a handful of call sequences; the claim is about every sequence of every length.", "anchors": ["mt_metadata/base/metadata.py:MetadataBase.get_all_fields", "mt_metadata/base/metadata.py:MetadataBase._required_fields", "mt_metadata/base/pydantic_helpers.py:flatten_field_tree_map"]}
{"id": "C412", "title": "The link of an EMTF XML file cannot be emptied", "statement": "After a link was assigned to ExternalUrl.url, an empty value is refused.", "quantifier": "all links and histories of assignments", "why_tests_cant": "A test runs a handful of call sequences; the claim is about every sequence of every length.", "anchors": ["mt_metadata/transfer_functions/io/emtfxml/metadata/external_url.py:ExternalUrl.validate_url"]}
{"id": "C413", "title": "The link of a person", "statement": "The url of a Person is the link that was assigned, or nothing if the value says so; other values are errors.", "quantifier": "all values", "why_tests_cant": "A test samples inputs; the claim is about every input, of any size.", "anchors": ["mt_metadata/common/person.py:GenericPerson.validate_url"]}
{"id": "C414", "title": "The normalisation frequency of a pole zero filter lies in its pass band", "statement": "PoleZeroFilter.normalization_frequency gives a number exactly for frequencies that are not empty and the estimates mean, median, min and max; min and max are given frequencies, mean and median are halfway between them; the band is the one of the flat windows.", "quantifier": "all frequencies, amplitudes, window lengths, tolerances and names of estimates", "why_tests_cant": "A test samples inputs; the claim is about every input, of any size.", "anchors": ["mt_metadata/timeseries/filters/pole_zero_filter.py:PoleZeroFilter.normalization_frequency", "mt_metadata/timeseries/filters/filter_base.py:FilterBase.pass_band"]}
