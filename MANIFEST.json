{
 "claims": [
  {
   "property": "C01",
   "status": "proved",
   "theorems": [
    "Verif.ListDict.C01_views_coherent"
   ],
   "note": ""
  },
  {
   "property": "C02",
   "status": "proved",
   "theorems": [
    "Verif.ListDict.C02_append_keyed",
    "Verif.ListDict.C02_key_choice",
    "Verif.ListDict.C02_append_keyless"
   ],
   "note": ""
  },
  {
   "property": "C03",
   "status": "partial",
   "theorems": [
    "Verif.ListDict.C03_refuted",
    "Verif.ListDict.C03_keyless_append_partial"
   ],
   "note": "False of the code: after a removal the key str(len) may be taken. Partial: histories where no entry has that key, in particular append-only histories."
  },
  {
   "property": "C04",
   "status": "proved",
   "theorems": [
    "Verif.ListDict.C04_remove_key",
    "Verif.ListDict.C04_remove_index",
    "Verif.ListDict.C04_remove_errors"
   ],
   "note": ""
  },
  {
   "property": "C05",
   "status": "partial",
   "theorems": [
    "Verif.ListDict.C05_refuted",
    "Verif.ListDict.C05_pop_partial"
   ],
   "note": "False of the code: pop(key) pops the last item whatever the key. Partial: correct exactly when the key is the last one."
  },
  {
   "property": "C06",
   "status": "proved",
   "theorems": [
    "Verif.ListDict.C06_extend",
    "Verif.ListDict.C06_update_eq_extend"
   ],
   "note": ""
  },
  {
   "property": "C07",
   "status": "proved",
   "theorems": [
    "Verif.ListDict.C07_sort",
    "Verif.ListDict.C07_sort_none"
   ],
   "note": ""
  },
  {
   "property": "C08",
   "status": "proved",
   "theorems": [
    "Verif.ListDict.C08_updateKeys",
    "Verif.ListDict.C08_collision_loses"
   ],
   "note": ""
  },
  {
   "property": "C09",
   "status": "proved",
   "theorems": [
    "Verif.ListDict.C09_slice",
    "Verif.ListDict.C09_slice_errors"
   ],
   "note": ""
  },
  {
   "property": "C10",
   "status": "partial",
   "theorems": [
    "Verif.ListDict.C10_refuted",
    "Verif.ListDict.C10_copy_partial"
   ],
   "note": "False of the code: an entry under the key None is silently dropped by copy. Partial: no None key."
  },
  {
   "property": "C11",
   "status": "proved",
   "theorems": [
    "Verif.Dicts.C11_structure_flatten"
   ],
   "note": ""
  },
  {
   "property": "C12",
   "status": "partial",
   "theorems": [
    "Verif.Dicts.C12_refuted",
    "Verif.Dicts.C12_separator_partial"
   ],
   "note": "False of the code: recursive_split_dict drops the separator argument in its recursion. Partial: default separator or depth at most two."
  },
  {
   "property": "C13",
   "status": "proved",
   "theorems": [
    "Verif.Dicts.C13_flatten_structure",
    "Verif.Dicts.C13_prefix_raises"
   ],
   "note": ""
  },
  {
   "property": "C14",
   "status": "partial",
   "theorems": [
    "Verif.Xml.C14_refuted",
    "Verif.Xml.C14_normal_form",
    "Verif.Xml.C14_xml_roundtrip_partial"
   ],
   "note": "False of the code in general (single-element lists, empty values, unstripped text). The exact normal form is proved for all trees and the round trip is characterised by an iff."
  },
  {
   "property": "C15",
   "status": "partial",
   "theorems": [
    "Verif.MTime.C15_refuted",
    "Verif.MTime.C15_defined_partial",
    "Verif.MTime.C15_documented",
    "Verif.MTime.C15_monotone"
   ],
   "note": "False of the code: 2012-06-30 and 2016-12-31 are in no row of the table and raise. Partial: defined exactly elsewhere in the range; documented value and monotonicity proved for all dates."
  },
  {
   "property": "C16",
   "status": "partial",
   "theorems": [
    "Verif.MTime.C16_refuted",
    "Verif.MTime.C16_offsets_refuted",
    "Verif.MTime.C16_order_partial",
    "Verif.MTime.C16_utc_partial"
   ],
   "note": "False of the code: __gt__ is `not __lt__`, so t > t; and equal instants with different offsets are unequal. Partial: everything else, for all stamps."
  },
  {
   "property": "C17",
   "status": "partial",
   "theorems": [
    "Verif.MTime.C17_refuted",
    "Verif.MTime.C17_clamp",
    "Verif.MTime.C17_inside_partial",
    "Verif.MTime.C17_idempotent",
    "Verif.MTime.C17_monotone"
   ],
   "note": "False in the last 306 ns before the maximum, where the rounding overflows. Partial: exact elsewhere; clamping, idempotence, monotonicity proved for all stamps."
  },
  {
   "property": "C18",
   "status": "proved",
   "theorems": [
    "Verif.MTime.C18_rounding",
    "Verif.MTime.C18_order"
   ],
   "note": ""
  },
  {
   "property": "C19",
   "status": "partial",
   "theorems": [
    "Verif.MTime.C19_refuted",
    "Verif.MTime.C19_order_partial",
    "Verif.MTime.C19_same_leap_partial"
   ],
   "note": "False of the code within a second of a leap second. Partial: stamps a second apart, or with equal leap seconds."
  },
  {
   "property": "C20",
   "status": "partial",
   "theorems": [
    "Verif.MTime.C20_refuted",
    "Verif.MTime.C20_hash",
    "Verif.MTime.C20_utc_partial"
   ],
   "note": "False of the code: offsets are kept, not converted to UTC. Partial: UTC or naive input; eq implies equal hash for all."
  },
  {
   "property": "C21",
   "status": "partial",
   "theorems": [
    "Verif.MTime.C21_refuted",
    "Verif.MTime.C21_units_partial"
   ],
   "note": "False of the code for instants up to 300 s after the epoch. Float division is taken as exact."
  },
  {
   "property": "C22",
   "status": "partial",
   "theorems": [
    "Verif.Metadata.C22_never_erases",
    "Verif.Metadata.C22_refuted",
    "Verif.Metadata.C22_takes_partial",
    "Verif.Metadata.C22_match",
    "Verif.Metadata.C22_fields",
    "Verif.Metadata.C22_idempotent"
   ],
   "note": "False of the code: False is skipped because False == 0.0, arrays with a zero are dropped by to_dict. Partial: exact description of what is taken; never-erases, match and idempotence proved in full."
  },
  {
   "property": "C23",
   "status": "partial",
   "theorems": [
    "Verif.Metadata.C23_meaning",
    "Verif.Metadata.C23_reflexive",
    "Verif.Metadata.C23_symmetry_refuted",
    "Verif.Metadata.C23_transitivity_refuted",
    "Verif.Metadata.C23_symmetric_partial",
    "Verif.Metadata.C23_transitive_partial"
   ],
   "note": "False of the code: 0.0 == None for coordinates only one way round, and isclose is not transitive. Partial: exact meaning of == for all objects, reflexive for all, symmetric/transitive without numeric fields. Numbers are rationals (no NaN)."
  },
  {
   "property": "C24",
   "status": "partial",
   "theorems": [
    "Verif.Metadata.C24_refuted",
    "Verif.Metadata.C24_always_false"
   ],
   "note": "False of the code: load() returns None, so comparison with a dict is always False."
  },
  {
   "property": "C25",
   "status": "proved",
   "theorems": [
    "Verif.Metadata.C25_resolves",
    "Verif.Metadata.C25_flat",
    "Verif.Metadata.C25_replaced",
    "Verif.Metadata.C25_order"
   ],
   "note": "Keywords named after the class are treated by C82."
  },
  {
   "property": "C26",
   "status": "proved",
   "theorems": [
    "Verif.FreqBand.C26_indices",
    "Verif.FreqBand.C26_total",
    "Verif.FreqBand.C26_set_indices",
    "Verif.FreqBand.C26_harmonics",
    "Verif.FreqBand.C26_in_band_harmonics"
   ],
   "note": ""
  },
  {
   "property": "C27",
   "status": "partial",
   "theorems": [
    "Verif.FreqBand.C27_refuted",
    "Verif.FreqBand.C27_contains_partial",
    "Verif.FreqBand.C27_both_partial",
    "Verif.FreqBand.C27_sound_transitive"
   ],
   "note": "False of the code: contains tests both end points, so a half-open band does not contain itself. Partial: exact meaning, soundness, transitivity for all bands."
  },
  {
   "property": "C28",
   "status": "proved",
   "theorems": [
    "Verif.FreqBand.C28_symmetric",
    "Verif.FreqBand.C28_shared"
   ],
   "note": ""
  },
  {
   "property": "C29",
   "status": "proved",
   "theorems": [
    "Verif.FreqBand.C29_center"
   ],
   "note": "Over the reals; floating point rounding is outside the model."
  },
  {
   "property": "C30",
   "status": "proved",
   "theorems": [
    "Verif.Runs.C30_lists",
    "Verif.Runs.C30_has_channel",
    "Verif.Runs.C30_total",
    "Verif.Runs.C30_assign"
   ],
   "note": "Objects are values; sharing between runs is outside this model."
  },
  {
   "property": "C31",
   "status": "partial",
   "theorems": [
    "Verif.Runs.C31_add",
    "Verif.Runs.C31_refuted",
    "Verif.Runs.C31_carries_partial",
    "Verif.Runs.C31_remove"
   ],
   "note": "False of the code when a channel of another class holds the name. Partial: same class or new name; map behaviour of add/get/remove in full."
  },
  {
   "property": "C32",
   "status": "partial",
   "theorems": [
    "Verif.Runs.C32_refuted",
    "Verif.Runs.C32_missing_type",
    "Verif.Runs.C32_agree_partial",
    "Verif.Runs.C32_h_differs"
   ],
   "note": "False of the code: the dict branch tests 'b' twice and never 'h'; a dict without type raises KeyError. Partial: all other names."
  },
  {
   "property": "C33",
   "status": "proved",
   "theorems": [
    "Verif.Runs.C33_covers",
    "Verif.Runs.C33_add_channel",
    "Verif.Runs.C33_default_replaced",
    "Verif.Runs.C33_idempotent"
   ],
   "note": "Instants in UTC."
  },
  {
   "property": "C34",
   "status": "partial",
   "theorems": [
    "Verif.Runs.C34_refuted",
    "Verif.Runs.C34_merge_partial"
   ],
   "note": "False of the code: the receiver is modified. Partial: what merge does contain."
  },
  {
   "property": "C35",
   "status": "partial",
   "theorems": [
    "Verif.Stations.C35_refuted",
    "Verif.Stations.C35_run_list_partial",
    "Verif.Stations.C35_total_partial",
    "Verif.Stations.C35_order_partial"
   ],
   "note": "False of the code with update=False (run_list stale). Partial: all histories with the default update=True, incl. merges, edits of stored runs and attribute assignments."
  },
  {
   "property": "C36",
   "status": "partial",
   "theorems": [
    "Verif.Stations.C36_refuted",
    "Verif.Stations.C36_others_partial",
    "Verif.Stations.C36_covered_partial",
    "Verif.Stations.C36_names_survive",
    "Verif.Stations.C36_stale_recorded",
    "Verif.Stations.C36_adds_exact"
   ],
   "note": "False of the code: the removed run's exclusive channels are re-created on the first remaining run (C36_names_survive), and stay in channels_recorded when no run remains (C36_stale_recorded). Partial: all other runs untouched; covered case exact."
  },
  {
   "property": "C37",
   "status": "partial",
   "theorems": [
    "Verif.Stations.C37_refuted",
    "Verif.Stations.C37_never_partial"
   ],
   "note": "False of the code: calls split on an MTime, AttributeError for any station with a run."
  },
  {
   "property": "C38",
   "status": "proved",
   "theorems": [
    "Verif.Stations.C38_covers",
    "Verif.Stations.C38_grows",
    "Verif.Stations.C38_idempotent",
    "Verif.Stations.C38_after_add"
   ],
   "note": "Instants in UTC."
  },
  {
   "property": "C39",
   "status": "proved",
   "theorems": [
    "Verif.Surveys.C39_tight",
    "Verif.Surveys.C39_unchanged",
    "Verif.Surveys.C39_order"
   ],
   "note": "The bounding box is the exact minimum and maximum; coordinates are rationals."
  },
  {
   "property": "C40",
   "status": "proved",
   "theorems": [
    "Verif.Surveys.C40_total",
    "Verif.Surveys.C40_has_get",
    "Verif.Surveys.C40_add",
    "Verif.Surveys.C40_remove",
    "Verif.Surveys.C40_remove_box",
    "Verif.Surveys.C40_last_op"
   ],
   "note": "Histories of add and remove."
  },
  {
   "property": "C41",
   "status": "proved",
   "theorems": [
    "Verif.Surveys.C41_merge",
    "Verif.Surveys.C41_add",
    "Verif.Surveys.C41_distinct"
   ],
   "note": "Distinct ids; see C84, C85 for equal ids."
  },
  {
   "property": "C42",
   "status": "partial",
   "theorems": [
    "Verif.ExpXml.C42_refuted",
    "Verif.ExpXml.C42_read_single",
    "Verif.ExpXml.C42_raises_iff_partial",
    "Verif.ExpXml.C42_content_partial"
   ],
   "note": "False of the code: exactly one filter of a class makes from_xml raise. Partial: raises iff some class has exactly one filter; otherwise content exact."
  },
  {
   "property": "C43",
   "status": "partial",
   "theorems": [
    "Verif.Location.C43_refuted",
    "Verif.Location.C43_roundtrip_partial",
    "Verif.Location.C43_sign_lost_partial",
    "Verif.Location.C43_wellformed"
   ],
   "note": "False of the code for -1 < x < 0: the sign is lost. Partial: holds for all other x, at string level; for -1 < x < 0 the opposite value comes back. Exact arithmetic."
  },
  {
   "property": "C44",
   "status": "proved",
   "theorems": [
    "Verif.Location.C44_range",
    "Verif.Location.C44_numbers",
    "Verif.Location.C44_error"
   ],
   "note": "Exact arithmetic with infinities and NaN; float() of strings modelled on ASCII literals."
  },
  {
   "property": "C45",
   "status": "proved",
   "theorems": [
    "Verif.Units.C45_parse",
    "Verif.Units.C45_combined"
   ],
   "note": "All lengths; words contain no blanks, slashes or brackets and are not 'per'."
  },
  {
   "property": "C46",
   "status": "partial",
   "theorems": [
    "Verif.Fdsn.C46_refuted",
    "Verif.Fdsn.C46_covered_partial",
    "Verif.Fdsn.C46_contains_partial",
    "Verif.Fdsn.C46_monotone_partial",
    "Verif.Fdsn.C46_interval_partial"
   ],
   "note": "False for rates between the bands (e.g. 0.5 samples/s), which get the code A without a band. Proved: exactly which rates are covered, the band of the code contains the rate, rates sharing a code form an interval, faster rates never get a slower code."
  },
  {
   "property": "C47",
   "status": "partial",
   "theorems": [
    "Verif.Fdsn.C47_orientation",
    "Verif.Fdsn.C47_refuted",
    "Verif.Fdsn.C47_decode_partial",
    "Verif.Fdsn.C47_tide_partial"
   ],
   "note": "False for rates between bands (read back as 1..1), for tide (read back as magnetic) and for inclined vertical channels. Proved: the exact meaning of every horizontal orientation code over the reals, and the round trip for horizontal azimuths, covered rates and all types but tide."
  },
  {
   "property": "C48",
   "status": "partial",
   "theorems": [
    "Verif.Applied.C48_refuted",
    "Verif.Applied.C48_duplicate_refuted",
    "Verif.Applied.C48_ordered_partial",
    "Verif.Applied.C48_ordered_by_name_partial",
    "Verif.Applied.C48_object_partial",
    "Verif.Applied.C48_distinct_partial",
    "Verif.Applied.C48_found_partial"
   ],
   "note": "False: add_filter with an AppliedFilter object appends without sorting, and add_filter(name=...) compares the raw name while storing it in lower case. Proved: order after every removal and addition by name, exactly when an object keeps the order, distinct names when given in normal form."
  },
  {
   "property": "C49",
   "status": "proved",
   "theorems": [
    "Verif.Filters.C49_accepted",
    "Verif.Filters.C49_units"
   ],
   "note": "Proved in full; an empty list leaves the previous units in place."
  },
  {
   "property": "C50",
   "status": "proved",
   "theorems": [
    "Verif.Filters.C50_product",
    "Verif.Filters.C50_selected",
    "Verif.Filters.C50_perm",
    "Verif.Filters.C50_append",
    "Verif.Filters.C50_total_delay",
    "Verif.Filters.C50_factor",
    "Verif.Filters.C50_delay",
    "Verif.Filters.C50_normalized"
   ],
   "note": "Proved over the complex numbers for any list of the five filter classes, all option combinations, including that leaving out delays is exactly a shift by total_delay."
  },
  {
   "property": "C51",
   "status": "proved",
   "theorems": [
    "Verif.Filters.C51_intersection",
    "Verif.Filters.C51_exists"
   ],
   "note": "Proved in full."
  },
  {
   "property": "C52",
   "status": "partial",
   "theorems": [
    "Verif.Filters.C52_refuted",
    "Verif.Filters.C52_expansion_partial",
    "Verif.Filters.C52_odd_partial"
   ],
   "note": "False for ODD filters: the code appends reverse(c[1:]) instead of reverse(c[:-1]). Proved: everything else, and that an ODD expansion is symmetric iff all coefficients are equal."
  },
  {
   "property": "C53",
   "status": "partial",
   "theorems": [
    "Verif.Filters.C53_refuted",
    "Verif.Filters.C53_radians_partial",
    "Verif.Filters.C53_milliradians_partial",
    "Verif.Filters.C53_degrees_partial",
    "Verif.Filters.C53_idempotent_partial"
   ],
   "note": "False for small angles: degrees below 6 pi and milliradians below a quarter turn are misread. Proved: the exact regions where each unit is recognised and idempotence there."
  },
  {
   "property": "C54",
   "status": "partial",
   "theorems": [
    "Verif.Processing.C54_refuted",
    "Verif.Processing.C54_levels_partial",
    "Verif.Processing.C54_default_partial",
    "Verif.Processing.C54_zero_factor"
   ],
   "note": "False for max_levels <= 0 (IndexError). Proved: rates, numbers, ids and factors for every factor list and every positive level count; a zero factor raises."
  },
  {
   "property": "C55",
   "status": "partial",
   "theorems": [
    "Verif.Processing.C55_refuted",
    "Verif.Processing.C55_order",
    "Verif.Processing.C55_rate_partial",
    "Verif.Processing.C55_uniform_partial",
    "Verif.Processing.C55_bands",
    "Verif.Processing.C55_level_bands",
    "Verif.Processing.C55_gap"
   ],
   "note": "False unless d_k^k equals the product of the factors: the code uses rate / d^k with the factor of level k. Proved: the exact rate, correctness for equal factors, order of levels, and that the band indices are the in-band harmonics of the level's grid."
  },
  {
   "property": "C56",
   "status": "partial",
   "theorems": [
    "Verif.Processing.C56_refuted",
    "Verif.Processing.C56_list_partial",
    "Verif.Processing.C56_dicts_partial",
    "Verif.Processing.C56_iff",
    "Verif.Processing.C56_other",
    "Verif.Processing.C56_mapping",
    "Verif.Processing.C56_get",
    "Verif.Processing.C56_get_missing"
   ],
   "note": "False: level objects in a list are stored twice, objects first. Proved: exact effect, correctness for lists of dicts, iff statement, lookups and errors."
  },
  {
   "property": "C57",
   "status": "partial",
   "theorems": [
    "Verif.Processing.C57_refuted",
    "Verif.Processing.C57_iff",
    "Verif.Processing.C57_archive_partial",
    "Verif.Processing.C57_total",
    "Verif.Processing.C57_harmonics",
    "Verif.Processing.C57_alias"
   ],
   "note": "False for min_num_stft_windows != 0, which is compared but not copied. Proved for 0; the check is characterised exactly (every differing parameter makes it fail or raise)."
  },
  {
   "property": "C58",
   "status": "proved",
   "theorems": [
    "Verif.Processing.C58_harmonics",
    "Verif.Processing.C58_range"
   ],
   "note": "Proved in full over rational rates."
  },
  {
   "property": "C59",
   "status": "partial",
   "theorems": [
    "Verif.Processing.C59_refuted",
    "Verif.Processing.C59_taper_partial",
    "Verif.Processing.C59_current_partial",
    "Verif.Processing.C59_normalized"
   ],
   "note": "False: the taper is cached and survives setting changes. Proved: which settings the taper answers for after any history. scipy get_window is a parameter."
  },
  {
   "property": "C60",
   "status": "partial",
   "theorems": [
    "Verif.Processing.C60_refuted",
    "Verif.Processing.C60_fit_partial",
    "Verif.Processing.C60_zero_partial",
    "Verif.Processing.C60_monotone"
   ],
   "note": "False for min_num_stft_windows = 0 (the overlap is required). Proved for at least one window, plus the exact condition for 0 and monotonicity."
  },
  {
   "property": "C61",
   "status": "partial",
   "theorems": [
    "Verif.FCs.C61_refuted",
    "Verif.FCs.C61_assign_partial",
    "Verif.FCs.C61_total_partial",
    "Verif.FCs.C61_reported_partial",
    "Verif.FCs.C61_synced_partial",
    "Verif.FCs.C61_add_partial",
    "Verif.FCs.C61_remove_partial",
    "Verif.FCs.C61_repeated_partial",
    "Verif.FCs.C61_known_partial",
    "Verif.FCs.C61_merge_partial"
   ],
   "note": "False: add_channel stores a channel without listing it, so has_channel/get_channel/remove_channel do not see it. Proved: every reported channel is stored after any history without repeated names, reports are exact after any attribute assignment, effects of add and remove."
  },
  {
   "property": "C62",
   "status": "partial",
   "theorems": [
    "Verif.FCs.C62_refuted",
    "Verif.FCs.C62_covers_partial",
    "Verif.FCs.C62_levels_partial",
    "Verif.FCs.C62_nested_partial",
    "Verif.FCs.C62_after_calls_partial"
   ],
   "note": "False for channels (levels) with an end but no start. Proved for those with a start, for channels, levels and both nested."
  },
  {
   "property": "C63",
   "status": "proved",
   "theorems": [
    "Verif.FCs.C63_sync",
    "Verif.FCs.C63_total",
    "Verif.FCs.C63_effect",
    "Verif.FCs.C63_known",
    "Verif.FCs.C63_repeated"
   ],
   "note": "Proved for all histories of add/remove/assignments without repeated names; C63_repeated shows why repeated names are excluded."
  },
  {
   "property": "C64",
   "status": "proved",
   "theorems": [
    "Verif.FreqBands.C64_accepts",
    "Verif.FreqBands.C64_sort",
    "Verif.FreqBands.C64_bands_as_stored",
    "Verif.FreqBands.C64_bands_sorted",
    "Verif.FreqBands.C64_bands_errors",
    "Verif.FreqBands.C64_validate",
    "Verif.FreqBands.C64_centers"
   ],
   "note": "Proved; np.argsort and DataFrame.sort_values are abstracted as any functions returning the row numbers in sorted order."
  },
  {
   "property": "C65",
   "status": "partial",
   "theorems": [
    "Verif.Aurora.C65_refuted",
    "Verif.Aurora.C65_round_trip_partial",
    "Verif.Aurora.C65_periods"
   ],
   "note": "The claim for all stations is refuted: a run without time periods is lost. Proved for every station with at least one run, a time period and a distinct id per run and one scale factor per channel name; for every station no period is lost, moved or reordered. Instants are integers; pandas' same-format requirement on time columns is not modelled."
  },
  {
   "property": "C66",
   "status": "partial",
   "theorems": [
    "Verif.Aurora.C66_distinct",
    "Verif.Aurora.C66_keyword",
    "Verif.Aurora.C66_accepts",
    "Verif.Aurora.C66_none",
    "Verif.Aurora.C66_field",
    "Verif.Aurora.C66_refuted",
    "Verif.Aurora.C66_construct",
    "Verif.Aurora.C66_history",
    "Verif.Aurora.C66_explicit_kept",
    "Verif.Aurora.C66_channels"
   ],
   "note": "Refuted only for names given to the constructor (overwritten by the keyword's names); everything else is proved for every history of assignments."
  },
  {
   "property": "C67",
   "status": "partial",
   "theorems": [
    "Verif.Weights.C67_range",
    "Verif.Weights.C67_monotone",
    "Verif.Weights.C67_refuted",
    "Verif.Weights.C67_outside_partial",
    "Verif.Weights.C67_outside_hamming",
    "Verif.Weights.C67_hann_complement",
    "Verif.Weights.C67_nan"
   ],
   "note": "Range, monotonicity and the values outside the transition are proved over the reals for all bounds and windows; the part '0 outside' is refuted for Hamming (8 percent remain) and proved for the others."
  },
  {
   "property": "C68",
   "status": "partial",
   "theorems": [
    "Verif.Weights.C68_range",
    "Verif.Weights.C68_range_feature",
    "Verif.Weights.C68_no_features",
    "Verif.Weights.C68_missing",
    "Verif.Weights.C68_order",
    "Verif.Weights.C68_elementwise",
    "Verif.Weights.C68_feature",
    "Verif.Weights.C68_nan",
    "Verif.Weights.C68_refuted",
    "Verif.Weights.C68_neutral_partial"
   ],
   "note": "Proved over the reals, NaN included. The extra claim that a feature without kernels is neutral is refuted for arrays (scalar 1 cannot be combined with an array) and proved for scalars."
  },
  {
   "property": "C69",
   "status": "partial",
   "theorems": [
    "Verif.Weights.C69_refuted",
    "Verif.Weights.C69_taper_partial"
   ],
   "note": "Refuted: evaluate always raises NotImplementedError because _normalize does. Proved for a taper kernel with equal bounds."
  },
  {
   "property": "C70",
   "status": "partial",
   "theorems": [
    "Verif.Comment.C70_refuted",
    "Verif.Comment.C70_iff_partial",
    "Verif.Comment.C70_stamped_partial",
    "Verif.Comment.C70_format_partial",
    "Verif.Comment.C70_bad_time_partial"
   ],
   "note": "Refuted as stated: an author that reads as a time (the word None, or a date) is taken for the time stamp. C70_iff_partial gives the exact condition for the round trip; C70_stamped_partial, C70_format_partial and C70_bad_time_partial cover the stamped case, the format and the error case."
  },
  {
   "property": "C71",
   "status": "proved",
   "theorems": [
    "Verif.Enums.C71_accepts",
    "Verif.Enums.C71_rejects",
    "Verif.Enums.C71_returns_member",
    "Verif.Enums.C71_case_irrelevant",
    "Verif.Enums.C71_idempotent",
    "Verif.Enums.C71_not_strings",
    "Verif.Enums.C71_only_members",
    "Verif.Enums.C71_that_member"
   ],
   "note": "Proved; lower case of ASCII letters only. The uniqueness theorem covers all 45 derived classes as read from the source."
  },
  {
   "property": "C72",
   "status": "partial",
   "theorems": [
    "Verif.IoTools.C72_refuted",
    "Verif.IoTools.C72_empty_value_partial",
    "Verif.IoTools.C72_pairs_partial",
    "Verif.IoTools.C72_spacing_partial",
    "Verif.IoTools.C72_section_partial",
    "Verif.IoTools.C72_remark_partial",
    "Verif.IoTools.C72_words_partial"
   ],
   "note": "Refuted: a value containing blanks, or an empty value, shifts the pairing of all later keys. Proved: for lines of single-word pairs the items are exactly the pairs, for every spacing, with a section name in front and a remark behind; and in general the items are the words, two by two."
  },
  {
   "property": "C73",
   "status": "partial",
   "theorems": [
    "Verif.IoTools.C73_error",
    "Verif.IoTools.C73_index",
    "Verif.IoTools.C73_remote",
    "Verif.IoTools.C73_flags",
    "Verif.IoTools.C73_refuted",
    "Verif.IoTools.C73_channels_partial",
    "Verif.IoTools.C73_count_partial",
    "Verif.IoTools.C73_count_refuted"
   ],
   "note": "Refuted for the channel counts: names containing the letter r are never counted and listed channels outside the known eight count as well. Index, remote default and flags are proved for all lists; the counts under the condition that only standard names are listed."
  },
  {
   "property": "C74",
   "status": "partial",
   "theorems": [
    "Verif.XmlEpochs.C74_equivalence",
    "Verif.XmlEpochs.C74_held",
    "Verif.XmlEpochs.C74_made",
    "Verif.XmlEpochs.C74_apart_partial",
    "Verif.XmlEpochs.C74_apart_refuted",
    "Verif.XmlEpochs.C74_refuted",
    "Verif.XmlEpochs.C74_same_partial"
   ],
   "note": "Proved for all sequences of runs: comparison is an equivalence, every channel is held by an epoch that agrees with it, lists its run and spans its times, nothing in an epoch is made up, and epochs follow each other if the runs do. Refuted: the response is not compared, so the filters of a later run are lost; and runs stored out of order make epochs overlap."
  },
  {
   "property": "C75",
   "status": "partial",
   "theorems": [
    "Verif.MTime.C75_refuted",
    "Verif.MTime.C75_reload_partial",
    "Verif.MTime.C75_gps_shift"
   ],
   "note": "False of the code for gps_time=True. Partial: gps_time=False; the exact shift is proved for GPS stamps."
  },
  {
   "property": "C76",
   "status": "partial",
   "theorems": [
    "Verif.MTime.C76_refuted",
    "Verif.MTime.C76_add_sub_partial"
   ],
   "note": "False for sub-microsecond durations. Partial: whole microseconds, inside the range."
  },
  {
   "property": "C77",
   "status": "partial",
   "theorems": [
    "Verif.MTime.C77_refuted",
    "Verif.MTime.C77_dates_partial"
   ],
   "note": "False of the code: the time of day is kept and compared. Partial: midnight stamps; eq implies same printed date."
  },
  {
   "property": "C78",
   "status": "partial",
   "theorems": [
    "Verif.MTime.C78_refuted",
    "Verif.MTime.C78_from_dict_partial"
   ],
   "note": "False of the code: assignments are not validated, the raw value is stored."
  },
  {
   "property": "C79",
   "status": "partial",
   "theorems": [
    "Verif.FreqBand.C79_refuted",
    "Verif.FreqBand.C79_name_partial"
   ],
   "note": "False of the code: the automatic name is only set once."
  },
  {
   "property": "C80",
   "status": "partial",
   "theorems": [
    "Verif.Metadata.C80_refuted",
    "Verif.Metadata.C80_kept_partial"
   ],
   "note": "False of the code: arrays containing a zero are left out. Partial: exact description."
  },
  {
   "property": "C81",
   "status": "proved",
   "theorems": [
    "Verif.Metadata.C81_roundtrip",
    "Verif.Metadata.C81_required",
    "Verif.Metadata.C81_skip_none"
   ],
   "note": ""
  },
  {
   "property": "C82",
   "status": "partial",
   "theorems": [
    "Verif.Metadata.C82_refuted",
    "Verif.Metadata.C82_nested_partial",
    "Verif.Metadata.C82_dotted_literal"
   ],
   "note": "False of the code: dotted keys inside the wrapped dict are not expanded. Partial: dot-free keys."
  },
  {
   "property": "C83",
   "status": "partial",
   "theorems": [
    "Verif.Stations.C83_refuted",
    "Verif.Stations.C83_default_partial"
   ],
   "note": "False of the code with update=False: the validator re-creates an empty run. Partial: default update=True."
  },
  {
   "property": "C84",
   "status": "partial",
   "theorems": [
    "Verif.Surveys.C84_refuted",
    "Verif.Surveys.C84_own_runs_partial"
   ],
   "note": "False of the code: the added station is merged by attribute update, which carries no runs. Partial: the old station's own runs stay."
  },
  {
   "property": "C85",
   "status": "partial",
   "theorems": [
    "Verif.Surveys.C85_refuted",
    "Verif.Surveys.C85_effect_partial"
   ],
   "note": "False of the code: as C84 for surveys; the period is also overwritten. Partial: exact effect."
  },
  {
   "property": "C86",
   "status": "proved",
   "theorems": [
    "Verif.Surveys.C86_covers",
    "Verif.Surveys.C86_grows"
   ],
   "note": "To the day."
  },
  {
   "property": "C87",
   "status": "partial",
   "theorems": [
    "Verif.ExpXml.C87_refuted",
    "Verif.ExpXml.C87_readable_partial"
   ],
   "note": "False of the code: surveys without stations, stations without runs, a class with one filter. Partial: exact condition."
  },
  {
   "property": "C88",
   "status": "partial",
   "theorems": [
    "Verif.ExpXml.C88_refuted",
    "Verif.ExpXml.C88_others_partial"
   ],
   "note": "False of the code: FIR filters are written as f_i_r_filter, which the reader skips. Partial: all other filters survive, FIR filters never do."
  },
  {
   "property": "C89",
   "status": "proved",
   "theorems": [
    "Verif.Names.C89_fails_iff",
    "Verif.Names.C89_normal",
    "Verif.Names.C89_idempotent"
   ],
   "note": "ASCII case; no newlines."
  },
  {
   "property": "C90",
   "status": "proved",
   "theorems": [
    "Verif.Names.C90_word",
    "Verif.Names.C90_keeps",
    "Verif.Names.C90_idempotent"
   ],
   "note": "ASCII whitespace for strip."
  },
  {
   "property": "C91",
   "status": "partial",
   "theorems": [
    "Verif.Location.C91_refuted",
    "Verif.Location.C91_sign_partial"
   ],
   "note": "False of the code: -0:30:00 reads as +0.5. Partial: at least one whole degree."
  },
  {
   "property": "C92",
   "status": "partial",
   "theorems": [
    "Verif.Units.C92_refuted",
    "Verif.Units.C92_symbol_partial",
    "Verif.Units.C92_name_partial",
    "Verif.Units.C92_si_partial"
   ],
   "note": "False of the code: C is celsius, coulomb is not found by symbol. Partial: every other unit by symbol; every unit but digital counts by name in any case."
  },
  {
   "property": "C93",
   "status": "partial",
   "theorems": [
    "Verif.Units.C93_refuted",
    "Verif.Units.C93_stable_partial"
   ],
   "note": "False of the code: counts/V is stored as 'digital counts per Volt', which is unknown (KeyError for filters). Partial: names without 'digital counts'."
  },
  {
   "property": "C94",
   "status": "proved",
   "theorems": [
    "Verif.Fdsn.C94_component",
    "Verif.Fdsn.C94_azimuth"
   ],
   "note": "Proved for every rate, including those without a band."
  },
  {
   "property": "C95",
   "status": "proved",
   "theorems": [
    "Verif.Applied.C95_remove",
    "Verif.Applied.C95_reset",
    "Verif.Applied.C95_keep"
   ],
   "note": "Proved in full."
  },
  {
   "property": "C96",
   "status": "partial",
   "theorems": [
    "Verif.Filters.C96_from_given_partial",
    "Verif.Filters.C96_ordered_partial",
    "Verif.Filters.C96_constant_partial",
    "Verif.Filters.C96_refuted"
   ],
   "note": "False for 2000 or more frequencies: decimation leaves out the top end. Proved: ends are given frequencies, lower <= upper, and the flat case below 2000 frequencies."
  },
  {
   "property": "C97",
   "status": "proved",
   "theorems": [
    "Verif.Filters.C97_fir_response",
    "Verif.Filters.C97_fir_gain"
   ],
   "note": "Proved for non-zero gain and non-cancelling taps."
  },
  {
   "property": "C98",
   "status": "proved",
   "theorems": [
    "Verif.Filters.C98_table"
   ],
   "note": "Proved in full."
  },
  {
   "property": "C99",
   "status": "proved",
   "theorems": [
    "Verif.Filters.C99_hermitian"
   ],
   "note": "Proved; response tables are excluded as they have no negative frequencies."
  },
  {
   "property": "C101",
   "status": "partial",
   "theorems": [
    "Verif.Processing.C101_refuted",
    "Verif.Processing.C101_distinct_partial",
    "Verif.Processing.C101_last"
   ],
   "note": "False when two levels share a number. Proved for distinct numbers and for the level that lookups return."
  },
  {
   "property": "C100",
   "status": "partial",
   "theorems": [
    "Verif.Aurora.C100_refuted",
    "Verif.Aurora.C100_appends_partial",
    "Verif.Aurora.C100_round_trip_partial",
    "Verif.Aurora.C100_needs_local"
   ],
   "note": "Refuted for an object that already has remote stations (they are kept, so reading twice doubles them) ; proved for storable stations with distinct ids read into an object without remote stations, and the exact result for any object."
  },
  {
   "property": "C102",
   "status": "proved",
   "theorems": [
    "Verif.Enums.C102_accepts",
    "Verif.Enums.C102_kept"
   ],
   "note": "Proved."
  },
  {
   "property": "C103",
   "status": "proved",
   "theorems": [
    "Verif.Aurora.C103_get"
   ],
   "note": "Proved."
  },
  {
   "property": "C104",
   "status": "partial",
   "theorems": [
    "Verif.Weights.C104_refuted",
    "Verif.Weights.C104_flag_partial"
   ],
   "note": "Refuted: the flag is never read; proved that it never changes a weight."
  },
  {
   "property": "C105",
   "status": "partial",
   "theorems": [
    "Verif.Weights.C105_refuted",
    "Verif.Weights.C105_kept_partial"
   ],
   "note": "Refuted: dictionaries of unknown style are dropped with a log entry; exact result proved."
  },
  {
   "property": "C106",
   "status": "partial",
   "theorems": [
    "Verif.Weights.C106_range",
    "Verif.Weights.C106_monotone",
    "Verif.Weights.C106_refuted",
    "Verif.Weights.C106_cut_partial"
   ],
   "note": "Range and monotonicity proved; 'cuts' refuted (hard sigmoid never goes below 0.4), exact cut value proved for each style. Infinite bounds not modelled."
  },
  {
   "property": "C107",
   "status": "proved",
   "theorems": [
    "Verif.Weights.C107_range",
    "Verif.Weights.C107_band",
    "Verif.Weights.C107_refused"
   ],
   "note": "Proved over the reals."
  },
  {
   "property": "C108",
   "status": "proved",
   "theorems": [
    "Verif.Weights.C108_closest",
    "Verif.Weights.C108_empty"
   ],
   "note": "Proved over the reals for one-dimensional weights with a frequency axis."
  },
  {
   "property": "C109",
   "status": "partial",
   "theorems": [
    "Verif.Comment.C109_refuted",
    "Verif.Comment.C109_comments_partial",
    "Verif.Comment.C109_string_partial",
    "Verif.Comment.C109_own_string_partial"
   ],
   "note": "Refuted: comparison with None returns a new (truthy) comment. Proved: comments compare by content, strings by the parsed content, and the comment's own string compares equal under the condition of C70."
  },
  {
   "property": "C110",
   "status": "partial",
   "theorems": [
    "Verif.Comment.C110_no_bar",
    "Verif.Comment.C110_partial",
    "Verif.Comment.C110_refuted",
    "Verif.Comment.C110_required_partial"
   ],
   "note": "Refuted when only the text differs from the defaults: to_dict then has a single key and from_dict reads the time as the text. Proved: no API-built comment has a bar in author or text (invariant), and otherwise the dictionary form is restored."
  },
  {
   "property": "C111",
   "status": "partial",
   "theorems": [
    "Verif.Comment.C111_refuted",
    "Verif.Comment.C111_partial"
   ],
   "note": "Refuted: to_xml stores the composed text in the comment itself. The exact effect is C111_partial."
  },
  {
   "property": "C112",
   "status": "proved",
   "theorems": [
    "Verif.IoTools.C112_lines",
    "Verif.IoTools.C112_single"
   ],
   "note": ""
  },
  {
   "property": "C113",
   "status": "partial",
   "theorems": [
    "Verif.XmlText.C113_partial",
    "Verif.XmlText.C113_refuted"
   ],
   "note": "Refuted: an id with a colon makes the file unreadable. Proved for trimmed ids without colon, comma and brackets."
  },
  {
   "property": "C114",
   "status": "partial",
   "theorems": [
    "Verif.XmlText.C114_dropped_partial",
    "Verif.XmlText.C114_refuted",
    "Verif.XmlText.C114_two_colons_partial",
    "Verif.XmlText.C114_brackets_partial"
   ],
   "note": "Refuted: the plain comment text is written but dropped when read; two colons raise ValueError; brackets are read as run ids."
  },
  {
   "property": "C115",
   "status": "partial",
   "theorems": [
    "Verif.XmlText.C115_partial",
    "Verif.XmlText.C115_truncated_partial",
    "Verif.XmlText.C115_refuted",
    "Verif.XmlText.C115_colon_partial",
    "Verif.XmlText.C115_cut_partial"
   ],
   "note": "Refuted: the parser stops after 21 pairs and cuts values at a colon; both proved in general, and exactness for at most 21 plain pairs."
  },
  {
   "property": "C116",
   "status": "partial",
   "theorems": [
    "Verif.XmlText.C116_both_partial",
    "Verif.XmlText.C116_one_partial",
    "Verif.XmlText.C116_refuted"
   ],
   "note": "Refuted: 'comments: ..., author: ...' raises. Proved for author first and for one of the two."
  },
  {
   "property": "C117",
   "status": "partial",
   "theorems": [
    "Verif.XmlText.C117_plain_partial",
    "Verif.XmlText.C117_refuted",
    "Verif.XmlText.C117_partial",
    "Verif.XmlText.C117_case_partial"
   ],
   "note": "Refuted: a plain text is dropped, a run id with capitals is not found. Proved: dictionary-like texts and lower-case ids survive exactly."
  },
  {
   "property": "C118",
   "status": "partial",
   "theorems": [
    "Verif.XmlText.C118_partial",
    "Verif.XmlText.C118_error_partial",
    "Verif.XmlText.C118_refuted"
   ],
   "note": "Refuted: the empty description and a value with a colon raise ValueError. Proved for one or more plain fields."
  },
  {
   "property": "C119",
   "status": "partial",
   "theorems": [
    "Verif.XmlText.C119_partial",
    "Verif.XmlText.C119_failures_partial",
    "Verif.XmlText.C119_refuted"
   ],
   "note": "Refuted: a missing id becomes the word None, a comma is an error, a colon cuts. Proved for ids without these characters."
  },
  {
   "property": "C120",
   "status": "partial",
   "theorems": [
    "Verif.XmlText.C120_inverse_partial",
    "Verif.XmlText.C120_refuted",
    "Verif.XmlText.C120_sound"
   ],
   "note": "Refuted for a name under two keys (the last wins). Proved: exact inverse when the names are distinct; in general every name leads to a key it stands under."
  },
  {
   "property": "C121",
   "status": "partial",
   "theorems": [
    "Verif.XmlText.C121_prefix_partial",
    "Verif.XmlText.C121_refuted",
    "Verif.XmlText.C121_grows_partial",
    "Verif.XmlText.C121_none_partial"
   ],
   "note": "Refuted: every DOI gains the prefix https://doi.org/, again at every further trip; a missing DOI becomes https://doi.org/None."
  },
  {
   "property": "C122",
   "status": "partial",
   "theorems": [
    "Verif.XmlText.C122_refuted",
    "Verif.XmlText.C122_model_partial",
    "Verif.XmlText.C122_stable_partial"
   ],
   "note": "Refuted: the model is cut to its first word and the name appended. The exact result is proved, and that a second trip changes nothing more."
  },
  {
   "property": "C123",
   "status": "partial",
   "theorems": [
    "Verif.XmlText.C123_iff_partial",
    "Verif.XmlText.C123_refuted"
   ],
   "note": "Refuted for ids with a colon; exact condition proved."
  },
  {
   "property": "C124",
   "status": "partial",
   "theorems": [
    "Verif.License.C124_becomes_partial",
    "Verif.License.C124_family_partial",
    "Verif.License.C124_status_partial",
    "Verif.License.C124_survivors_partial",
    "Verif.License.C124_refuted"
   ],
   "note": "False of the code: a network only keeps open/closed/partial, and reading picks the last licence of that class. Proved: which licence every licence becomes, that exactly CC0-1.0, CC-BY-ND-4.0 and ZPL-2.1 survive, that the status is kept and that a second trip changes nothing."
  },
  {
   "property": "C125",
   "status": "partial",
   "theorems": [
    "Verif.License.C125_again_partial",
    "Verif.License.C125_na_sa_partial",
    "Verif.License.C125_default_partial",
    "Verif.License.C125_refuted",
    "Verif.License.C125_spelling_partial",
    "Verif.License.C125_case_partial",
    "Verif.License.C125_accepts_partial"
   ],
   "note": "False for two cases, proved as such: CC_BY_NA_SA is stored as 'CC BY-NC-SA', which is refused afterwards, and the default 'CC BY 4.0' used for None and '' is refused. Proved for every other text: acceptance, idempotence and independence of separators. str.replace chains and the SPDX list are modelled in full."
  },
  {
   "property": "C126",
   "status": "partial",
   "theorems": [
    "Verif.XmlEpochs.C126_partial",
    "Verif.XmlEpochs.C126_refuted",
    "Verif.XmlEpochs.C126_stale_partial"
   ],
   "note": "Proved for channels whose own comments list no runs. Refuted without that: comments read from StationXML list all runs of the epoch, so after changing one run both epochs list both. Also proved: a listed run that no longer exists raises AttributeError. Times of the channel become those of the run."
  },
  {
   "property": "C127",
   "status": "partial",
   "theorems": [
    "Verif.XmlEpochs.C127_by_time",
    "Verif.XmlEpochs.C127_refuted",
    "Verif.XmlEpochs.C127_one_run_partial"
   ],
   "note": "False of the code: the first channel makes the only run, and later epochs outside its times are dropped silently. Proved: exactly which channels each run gets."
  },
  {
   "property": "C128",
   "status": "partial",
   "theorems": [
    "Verif.Zmm.C128_vector",
    "Verif.Zmm.C128_partial",
    "Verif.Zmm.C128_refuted",
    "Verif.Zmm.C128_unique",
    "Verif.Zmm.C128_angle",
    "Verif.Zmm.C128_invariants",
    "Verif.Zmm.C128_north",
    "Verif.Zmm.C128_tipper",
    "Verif.Zmm.C128_present"
   ],
   "note": "Proved for fields put together as components along the channel directions, for any azimuths that are not parallel, with uniqueness of the tensor. For sensors that record projections (magnetometers, electric lines) proved when both pairs are orthogonal (C128_partial) and refuted otherwise (C128_refuted): the transpose is used where the inverse would be needed. Exact numbers; matrix inverse as in NumPy."
  },
  {
   "property": "C129",
   "status": "proved",
   "theorems": [
    "Verif.Zmm.C129_real",
    "Verif.Zmm.C129_power",
    "Verif.Zmm.C129_residual",
    "Verif.Zmm.C129_errors"
   ],
   "note": ""
  },
  {
   "property": "C130",
   "status": "partial",
   "theorems": [
    "Verif.Zmm.C130_refuted",
    "Verif.Zmm.C130_partial",
    "Verif.Zmm.C130_twice"
   ],
   "note": "Refuted: the data set holds the turned transfer functions but write puts them under the unturned azimuths, so the next read turns them again (C130_twice: by twice the angle). Proved when the azimuths are 0 and 90 (C130_partial)."
  },
  {
   "property": "C131",
   "status": "partial",
   "theorems": [
    "Verif.EdiSpectra.C131_partial",
    "Verif.EdiSpectra.C131_exact_partial",
    "Verif.EdiSpectra.C131_refuted"
   ],
   "note": "Proved for files with a vertical channel (five and seven channels). Refuted without (C131_refuted): one matrix element is assigned twice and another stays zero, so the impedance is wrong. One frequency; exact complex numbers."
  },
  {
   "property": "C132",
   "status": "partial",
   "theorems": [
    "Verif.EdiSpectra.C132_partial",
    "Verif.EdiSpectra.C132_refuted"
   ],
   "note": "Refuted without a vertical channel: elements of the cross powers are assigned twice. Proved for files with one. Exact numbers, one frequency."
  },
  {
   "property": "C133",
   "status": "partial",
   "theorems": [
    "Verif.EdiRho.C133_partial",
    "Verif.EdiRho.C133_general_partial",
    "Verif.EdiRho.C133_kept_partial",
    "Verif.EdiRho.C133_error_partial",
    "Verif.EdiRho.C133_refuted",
    "Verif.EdiRho.C133_yx_refuted"
   ],
   "note": "Proved for phases within 90 degrees of zero; C133_general_partial says what comes out otherwise. Refuted: phases beyond 90 degrees come out turned by half a circle, and the yx element stays zero unless the mean phase is between 0 and 90 degrees, so the phases of the third quadrant that are usual for it are lost."
  },
  {
   "property": "C134",
   "status": "partial",
   "theorems": [
    "Verif.EdiData.C134_read_partial",
    "Verif.EdiData.C134_partial",
    "Verif.EdiData.C134_refuted",
    "Verif.EdiData.C134_single_refuted"
   ],
   "note": "Proved for at least two frequencies; the printing of numbers is a parameter of which only Faithful is assumed. Refuted: with ascending frequencies the angles are not turned around with the rest; one frequency raises IndexError on reading. Variances of a tipper that is zero are not written. No apparent resistivities, spectra or nan."
  },
  {
   "property": "C135",
   "status": "partial",
   "theorems": [
    "Verif.Tf.C135_partial",
    "Verif.Tf.C135_refuted",
    "Verif.Tf.C135_order_refuted",
    "Verif.Tf.C135_set_get_partial"
   ],
   "note": "Refuted in full: transfer_function_model_error cannot be assigned (KeyError, no entry in the channel dictionaries), and errors are not returned while the data are zero. Spec.step says which exceptions are raised: also AttributeError when a zero covariance is assigned while the other is set. xarray by its documented behaviour; float rounding and attributes of arrays not modelled."
  },
  {
   "property": "C136",
   "status": "partial",
   "theorems": [
    "Verif.Tf.C136_refuted",
    "Verif.Tf.C136_partial"
   ],
   "note": "Refuted for the periods [1], which the code takes for a default: all arrays are cleared. Proved otherwise."
  },
  {
   "property": "C137",
   "status": "proved",
   "theorems": [
    "Verif.Tf.C137_errors"
   ],
   "note": "Assigned errors are overwritten. Exact numbers."
  },
  {
   "property": "C138",
   "status": "partial",
   "theorems": [
    "Verif.Tf.C138_labels_partial",
    "Verif.Tf.C138_refuse_partial",
    "Verif.Tf.C138_refuted"
   ],
   "note": "Proved as equality with the assignment of the array with rows and columns put in order. Refuted for objects of one period without impedance and tipper: they start anew, so that a residual covariance is lost when the signal powers are assigned."
  },
  {
   "property": "C139",
   "status": "partial",
   "theorems": [
    "Verif.Tf.C139_partial",
    "Verif.Tf.C139_refuted",
    "Verif.Tf.C139_default_partial"
   ],
   "note": "Refuted: the labels of the data set are not renamed; proved what happens instead with entirely new names and on default objects."
  },
  {
   "property": "C140",
   "status": "proved",
   "theorems": [
    "Verif.EdiData.C140_blocks",
    "Verif.EdiData.C140_read"
   ],
   "note": "Files without apparent resistivities and phases (C133) and without spectra (C131); reading of numbers is a parameter. At least two frequencies. Arrays are turned around, without the angles, if the frequencies ascend."
  },
  {
   "property": "C141",
   "status": "proved",
   "theorems": [
    "Verif.ZmmText.C141_roundtrip"
   ],
   "note": "Conditions: at least one period; the name of the station is without the words of the header (C142); at least two channels, with different numbers from one on; the counts in the header are right; levels below ten million; the matrices are Hermitian (only the lower triangle is written). The formats are parameters: each prints one word of digits, signs, points and the letters of exponents, nan and inf; >12.4E leaves a blank in front (values below 1E+100); rounding commutes with the sign."
  },
  {
   "property": "C142",
   "status": "partial",
   "theorems": [
    "Verif.ZmmText.C142_refuted",
    "Verif.ZmmText.C142_partial",
    "Verif.ZmmText.C142_colon_refuted",
    "Verif.ZmmText.C142_numbers_refuted"
   ],
   "note": "Refuted. A file for a station such as number1 cannot be read again, as each channel line holds the name and is taken for the line of counts (also: station, coordinate, orientations, **, and period, which cuts the blocks); the part of a name from a second colon on is lost. Channels without number are numbered from zero on writing while a zero is read as the last number, so that the transfer functions come back between other channels. Proved for names without these words and numbered channels."
  },
  {
   "property": "C143",
   "status": "proved",
   "theorems": [
    "Verif.JFile.C143_values"
   ],
   "note": "Conditions: the header lines begin with # or >, latitude, longitude and elevation are named in it (C148); lines of numbers hold none of the letters l, z, t, r and at least four words; the resistivities are behind (C150). Floats are parameters: str and float agree for all but nan and -999, zero is printed 0.0. That a header can be read is C144."
  },
  {
   "property": "C144",
   "status": "proved",
   "theorems": [
    "Verif.JFile.C144_header"
   ],
   "note": "Conditions: names and values are words without equals signs and commas, no name twice in one line, and no comment line contains lat, lon or elev (C148). Values are kept as given to update_attribute; conversions by pydantic are not modelled."
  },
  {
   "property": "C145",
   "status": "partial",
   "theorems": [
    "Verif.JFile.C145_partial",
    "Verif.JFile.C145_refuted"
   ],
   "note": "Refuted: header.py L226 takes the text in front of the equals sign for the number, so that every position is zero, which is what is proved (C145_partial) for any file of the form of C143."
  },
  {
   "property": "C146",
   "status": "partial",
   "theorems": [
    "Verif.JFile.C146_refuted",
    "Verif.JFile.C146_partial"
   ],
   "note": "Refuted: the texts of the periods are sorted, so that 10.0 comes before 2.0; the values follow their periods (C143). Proved: the texts increase."
  },
  {
   "property": "C147",
   "status": "partial",
   "theorems": [
    "Verif.JFile.C147_partial",
    "Verif.JFile.C147_refuted"
   ],
   "note": "Refuted: of indices= 1 2 3 only the first is read; that only the first is read is proved for any list."
  },
  {
   "property": "C148",
   "status": "partial",
   "theorems": [
    "Verif.JFile.C148_partial",
    "Verif.JFile.C148_refuted",
    "Verif.JFile.C148_nopos_refuted"
   ],
   "note": "Refuted: the first line with lat, lon or elev in it is rewritten, so that a file name such as /data/long/mt01.txt and what follows it in the line is lost; a file without a longitude line of a station such as Colonia cannot be read. Proved: if no comment line contains these words, the comment lines are kept."
  },
  {
   "property": "C149",
   "status": "partial",
   "theorems": [
    "Verif.JFile.C149_partial",
    "Verif.JFile.C149_refuted"
   ],
   "note": "Refuted: without a time step in the header the sample rate is a division by zero. Proved for files with a time step."
  },
  {
   "property": "C150",
   "status": "partial",
   "theorems": [
    "Verif.JFile.C150_refuted",
    "Verif.JFile.C150_tipper_refuted",
    "Verif.JFile.C150_blank_refuted",
    "Verif.JFile.C150_partial"
   ],
   "note": "Refuted: reading ends at the first block of resistivities, even if the impedance is behind it; tippers are ignored if there is only the second; an empty line after rows raises an error. Proved for blocks in front of the resistivities."
  },
  {
   "property": "C151",
   "status": "proved",
   "theorems": [
    "Verif.Zonge.C151_values"
   ],
   "note": "Any table; hypotheses: a direction up or down, components beginning with z known."
  },
  {
   "property": "C152",
   "status": "proved",
   "theorems": [
    "Verif.Zonge.C152_amp_phase"
   ],
   "note": "Floats are real numbers."
  },
  {
   "property": "C153",
   "status": "partial",
   "theorems": [
    "Verif.Zonge.C153_partial",
    "Verif.Zonge.C153_refuted"
   ],
   "note": "Refuted: the error is the root of p percent times the magnitude, so that an error of one percent of the resistivity becomes ten percent of the impedance; the error of the phase in the file has no influence. That formula is proved."
  },
  {
   "property": "C154",
   "status": "partial",
   "theorems": [
    "Verif.Zonge.C154_partial",
    "Verif.Zonge.C154_refuted"
   ],
   "note": "Refuted: the error of the tipper is its own magnitude, whatever the errors in the file; proved, together with the values of the tipper."
  },
  {
   "property": "C155",
   "status": "partial",
   "theorems": [
    "Verif.Zonge.C155_partial",
    "Verif.Zonge.C155_refuted"
   ],
   "note": "Refuted: $Rx.Cmp=Tzx raises, since the enumeration has txy and tyx in place of tzx and tzy; with a blank the name of the attribute is another one and is not checked. Both are proved for all components, and that a file with such a line cannot be read."
  },
  {
   "property": "C156",
   "status": "proved",
   "theorems": [
    "Verif.Zonge.C156_arrays"
   ],
   "note": "Frequencies without repetition."
  },
  {
   "property": "C157",
   "status": "partial",
   "theorems": [
    "Verif.Zonge.C157_partial",
    "Verif.Zonge.C157_refuted",
    "Verif.Zonge.C157_rows",
    "Verif.Zonge.C157_to_avg"
   ],
   "note": "Refuted: the error e comes back as the root of 2 e |z|; proved, with exactly when it is kept."
  },
  {
   "property": "C158",
   "status": "partial",
   "theorems": [
    "Verif.Zonge.C158_partial",
    "Verif.Zonge.C158_refuted",
    "Verif.Zonge.C158_to_avg"
   ],
   "note": "Refuted for z positive up: the sign is changed when reading but not when writing; proved for both directions."
  },
  {
   "property": "C159",
   "status": "proved",
   "theorems": [
    "Verif.Zonge.C159_table",
    "Verif.Zonge.C159_arrays"
   ],
   "note": "C159_table, C159_arrays. Printing and reading of numbers are parameters: the texts are read as some rounding of the number and have no letters or signs that the file uses. Components are written without blanks at the ends and without equals signs."
  },
  {
   "property": "C160",
   "status": "partial",
   "theorems": [
    "Verif.Zonge.C160_partial",
    "Verif.Zonge.C160_refuted"
   ],
   "note": "Refuted: a header with smoothing None or with fewer than two angles is written to a file that raises when read. Proved: a file can be read exactly if smoothing is robust, normal or minimal, there are at least two angles and the unit is not blank; and the attributes that are read then."
  },
  {
   "property": "C161",
   "status": "partial",
   "theorems": [
    "Verif.Zonge.C161_smooth",
    "Verif.Zonge.C161_never",
    "Verif.Zonge.C161_refuted"
   ],
   "note": "Refuted, and never true (C161_never): to_avg leaves the header as new, with smoothing None and without angles."
  },
  {
   "property": "C162",
   "status": "partial",
   "theorems": [
    "Verif.Zonge.C162_partial",
    "Verif.Zonge.C162_refuted"
   ],
   "note": "Refuted: an object with a table, as after reading, writes that table whatever its arrays. Proved for objects without one."
  },
  {
   "property": "C163",
   "status": "partial",
   "theorems": [
    "Verif.Zonge.C163_partial",
    "Verif.Zonge.C163_refuted"
   ],
   "note": "Refuted: names come back in small letters; proved for all names."
  },
  {
   "property": "C164",
   "status": "partial",
   "theorems": [
    "Verif.Zonge.C164_partial",
    "Verif.Zonge.C164_refuted"
   ],
   "note": "Refuted: toZmag, as in the files, becomes the attribute to_zmag and leaves to_z_mag as it is; proved for the spelling ToZMag."
  },
  {
   "property": "C165",
   "status": "partial",
   "theorems": [
    "Verif.Zonge.C165_run",
    "Verif.Zonge.C165_partial",
    "Verif.Zonge.C165_refuted"
   ],
   "note": "Refuted: _has_channel looks at zxx whatever the component, so that components without these lines raise when zxx has them. Proved for the other cases."
  },
  {
   "property": "C166",
   "status": "partial",
   "theorems": [
    "Verif.TfMerge.C166_refuted",
    "Verif.TfMerge.C166_partial",
    "Verif.TfMerge.C166_descending",
    "Verif.TfMerge.C166_rows"
   ],
   "note": "Refuted: bounds of the object itself are taken the other way round if its periods descend, since only the others are sorted; proved for that case (C166_descending), for ascending periods (C166_partial), and that rows are never made up (C166_rows). xarray's slices and combine_by_coords are modelled from their documentation and code as remembered."
  },
  {
   "property": "C167",
   "status": "partial",
   "theorems": [
    "Verif.TfMerge.C167_refuted",
    "Verif.TfMerge.C167_partial",
    "Verif.TfMerge.C167_lost"
   ],
   "note": "Refuted: of several transfer functions with the same least period within bounds all but the last are left out without an error (C167_lost). Proved if the least periods are different: the result has exactly the rows that are wanted."
  },
  {
   "property": "C168",
   "status": "partial",
   "theorems": [
    "Verif.TfMerge.C168_refuted",
    "Verif.TfMerge.C168_partial",
    "Verif.TfMerge.C168_never"
   ],
   "note": "Refuted: if the periods of the object descend, merging with any transfer function of several periods raises (C168_never). Proved for ascending periods of the object and any order of the others."
  },
  {
   "property": "C169",
   "status": "partial",
   "theorems": [
    "Verif.TfMerge.C169_refuted",
    "Verif.TfMerge.C169_partial"
   ],
   "note": "Refuted as C167; proved if the least periods are different."
  },
  {
   "property": "C170",
   "status": "partial",
   "theorems": [
    "Verif.TfMerge.C170_refuted",
    "Verif.TfMerge.C170_sorted",
    "Verif.TfMerge.C170_partial"
   ],
   "note": "Refuted: a transfer function in a dictionary is sorted in place. Proved: nothing else happens (C170_sorted), and nothing at all if those ascend."
  },
  {
   "property": "C171",
   "status": "partial",
   "theorems": [
    "Verif.TfMerge.C171_refuted",
    "Verif.TfMerge.C171_partial"
   ],
   "note": "Refuted: a period at which two transfer functions meet is there twice. Proved: ascending if the periods of the object do, and without repetition if the parts have no common periods."
  },
  {
   "property": "C172",
   "status": "proved",
   "theorems": [
    "Verif.TfMerge.C172_inplace"
   ],
   "note": "As stated; copies are values."
  },
  {
   "property": "C173",
   "status": "partial",
   "theorems": [
    "Verif.TfMerge.C173_refuted",
    "Verif.TfMerge.C173_errors",
    "Verif.TfMerge.C173_partial",
    "Verif.TfMerge.C173_same",
    "Verif.TfMerge.C173_other"
   ],
   "note": "Refuted: errors are not compared (C173_errors), nor are periods if the numbers are all zero; an object of another class raises (C173_other). Proved: what equality does say, and that it holds then (C173_same). The comparison of metadata is a parameter."
  },
  {
   "property": "C174",
   "status": "partial",
   "theorems": [
    "Verif.TfMerge.C174_refuted",
    "Verif.TfMerge.C174_partial",
    "Verif.TfMerge.C174_types",
    "Verif.TfMerge.C174_suffix"
   ],
   "note": "Refuted: a name with a suffix given as fn_basename is written in the format of file_type. Proved for full paths, names without suffix or with the one of the type, and for the name of the station if it is not empty."
  },
  {
   "property": "C175",
   "status": "partial",
   "theorems": [
    "Verif.TfMerge.C175_refuted",
    "Verif.TfMerge.C175_partial",
    "Verif.TfMerge.C175_path",
    "Verif.TfMerge.C175_suffix"
   ],
   "note": "Refuted: J files cannot be written. Proved for the others."
  },
  {
   "property": "C176",
   "status": "partial",
   "theorems": [
    "Verif.EmtfData.C176_partial",
    "Verif.EmtfData.C176_single",
    "Verif.EmtfData.C176_refuted",
    "Verif.EmtfData.C176_file"
   ],
   "note": "Refuted: a file with one period cannot be read (C176_single: TypeError). Proved for two and more periods. Printing and reading of single numbers is a hypothesis (Good): a format prints one word which is read as the rounded number."
  },
  {
   "property": "C177",
   "status": "partial",
   "theorems": [
    "Verif.EmtfData.C177_sentinel",
    "Verif.EmtfData.C177_partial",
    "Verif.EmtfData.C177_refuted"
   ],
   "note": "Refuted: zeros and missing numbers are written as 1e32 and read as 1e32 (C177_sentinel). Proved: arrays that were not given or are empty are read as zeros."
  },
  {
   "property": "C178",
   "status": "partial",
   "theorems": [
    "Verif.EmtfData.C178_partial",
    "Verif.EmtfData.C178_refuted"
   ],
   "note": "Refuted: an array of zeros, as reading makes one for impedances that the file does not have, is written as 1e32 and appears as impedance. Proved: exactly the arrays that are given and have entries appear, so types are kept if all of those have a number that is not zero."
  },
  {
   "property": "C179",
   "status": "partial",
   "theorems": [
    "Verif.EmtfData.C179_refuted",
    "Verif.EmtfData.C179_partial"
   ],
   "note": "Refuted: estimates of tippers are ignored if there is an array for impedances, be it zero or empty. Proved: exactly when they are listed."
  },
  {
   "property": "C180",
   "status": "proved",
   "theorems": [
    "Verif.EmtfData.C180_types"
   ],
   "note": "As stated."
  },
  {
   "property": "C181",
   "status": "proved",
   "theorems": [
    "Verif.EmtfData.C181_layout"
   ],
   "note": "As stated; channels that were there twice stay there twice, otherwise each is there once."
  },
  {
   "property": "C182",
   "status": "partial",
   "theorems": [
    "Verif.EmtfData.C182_refuted",
    "Verif.EmtfData.C182_partial"
   ],
   "note": "Refuted: repeated elements with nothing but text become empty dictionaries. Proved, with the order of the texts, if there are no lists of texts and no keys that become the same."
  },
  {
   "property": "C183",
   "status": "partial",
   "theorems": [
    "Verif.TfConvert.C183_missing",
    "Verif.TfConvert.C183_partial",
    "Verif.TfConvert.C183_refuted"
   ],
   "note": "Refuted: one without tippers or covariances cannot be made again from its object (ValueError, C183_missing), and residual covariances between electric and vertical magnetic field are not in the object. Proved if impedance, tipper and both covariances are there, all but these cross covariances, for errors that are roots of non-negative numbers."
  },
  {
   "property": "C184",
   "status": "partial",
   "theorems": [
    "Verif.TfConvert.C184_partial",
    "Verif.TfConvert.C184_refuted"
   ],
   "note": "Refuted: the inverse signal power of the tippers, zero if there are none, is stored over that of the impedances. Proved: everything else, and which one remains."
  },
  {
   "property": "C185",
   "status": "partial",
   "theorems": [
    "Verif.TfConvert.C185_partial",
    "Verif.TfConvert.C185_refuted"
   ],
   "note": "Refuted: hx, hy, ex, ey and hz are fixed names; other names raise a KeyError (C185_partial). The usual names are C184_partial."
  },
  {
   "property": "C186",
   "status": "proved",
   "theorems": [
    "Verif.TfConvert.C186_edi"
   ],
   "note": "As stated; the object read into is new."
  },
  {
   "property": "C187",
   "status": "partial",
   "theorems": [
    "Verif.TfConvert.C187_partial",
    "Verif.TfConvert.C187_refuted"
   ],
   "note": "Refuted: what the file does not have stays (tippers of the file before). Proved if the object had one period of one second, as a new one has, or if the file has all four arrays."
  },
  {
   "property": "C188",
   "status": "partial",
   "theorems": [
    "Verif.TfConvert.C188_partial",
    "Verif.TfConvert.C188_refuted"
   ],
   "note": "Refuted: with two outputs the covariances are not stored. Proved for three outputs with covariances that are not zero."
  },
  {
   "property": "C189",
   "status": "partial",
   "theorems": [
    "Verif.TfConvert.C189_partial",
    "Verif.TfConvert.C189_empty",
    "Verif.TfConvert.C189_refuted"
   ],
   "note": "Refuted: an auxiliary channel of the first run raises a KeyError. Proved without a run and for runs with the five channels and channels of remote stations. Without data: UnboundLocalError (C189_empty)."
  },
  {
   "property": "C190",
   "status": "partial",
   "theorems": [
    "Verif.TfConvert.C190_partial",
    "Verif.TfConvert.C190_zero",
    "Verif.TfConvert.C190_refuted"
   ],
   "note": "Refuted: with covariances of zero an AttributeError is raised (C190_zero). Proved otherwise."
  },
  {
   "property": "C191",
   "status": "partial",
   "theorems": [
    "Verif.TfConvert.C191_never",
    "Verif.TfConvert.C191_partial",
    "Verif.TfConvert.C191_refuted"
   ],
   "note": "Refuted for every transfer function: the object has no periods (C191_never). Proved for the object with the periods assigned."
  },
  {
   "property": "C192",
   "status": "partial",
   "theorems": [
    "Verif.EdiMeta.C192_refuted",
    "Verif.EdiMeta.C192_partial",
    "Verif.EdiMeta.C192_signs_partial",
    "Verif.EdiMeta.C192_declination_partial"
   ],
   "note": "Refuted: the declination is written under a name that is not read (C192_declination_partial: no header that is written gives one), a value with an equal sign loses its line and a greater sign ends the header (C192_signs_partial). Proved for all other attributes with plain values that their own validators keep."
  },
  {
   "property": "C193",
   "status": "partial",
   "theorems": [
    "Verif.EdiMeta.C193_refuted",
    "Verif.EdiMeta.C193_b_refuted",
    "Verif.EdiMeta.C193_partial"
   ],
   "note": "Refuted: a measurement with the default acquisition channel, which is empty, cannot be read (IndexError); a magnetic channel whose name has no h, as bx, has no measurement. Proved for acquisition channels that are words; an azimuth of zero of an electric channel is computed from the place of the electrodes."
  },
  {
   "property": "C194",
   "status": "partial",
   "theorems": [
    "Verif.EdiMeta.C194_refuted",
    "Verif.EdiMeta.C194_partial"
   ],
   "note": "Refuted: a setting with an equal sign is cut. Proved for settings without, and measurements as in C193."
  },
  {
   "property": "C195",
   "status": "partial",
   "theorems": [
    "Verif.EdiMeta.C195_refuted",
    "Verif.EdiMeta.C195_partial"
   ],
   "note": "Refuted: of three the second is lost. Proved: the first and the last that differs from it are kept, the latter as rr and the name."
  },
  {
   "property": "C196",
   "status": "partial",
   "theorems": [
    "Verif.EdiMeta.C196_refuted",
    "Verif.EdiMeta.C196_order_partial",
    "Verif.EdiMeta.C196_kept_partial",
    "Verif.EdiMeta.C196_partial"
   ],
   "note": "Refuted: measurements without identifier are numbered from 1 on, whether or not the number is in use. Proved: the order, that all are written, and different identifiers if none of the first numbers is in use."
  },
  {
   "property": "C197",
   "status": "partial",
   "theorems": [
    "Verif.EdiMeta.C197_refuted",
    "Verif.EdiMeta.C197_partial",
    "Verif.EdiMeta.C197_spectra_partial",
    "Verif.EdiMeta.C197_values_partial",
    "Verif.EdiMeta.C197_type_partial"
   ],
   "note": "Refuted: a spectra section is not found when it is read; identifiers with leading zeros are changed. Proved for sections of impedances whose identifiers reading keeps."
  },
  {
   "property": "C198",
   "status": "proved",
   "theorems": [
    "Verif.EdiMeta.C198_match"
   ],
   "note": "As stated."
  },
  {
   "property": "C199",
   "status": "partial",
   "theorems": [
    "Verif.EdiMeta.C199_refuted",
    "Verif.EdiMeta.C199_partial"
   ],
   "note": "Refuted: a blank before the equal sign makes another attribute. Proved for all other blanks and the case."
  },
  {
   "property": "C200",
   "status": "partial",
   "theorems": [
    "Verif.EdiInfo.C200_refuted",
    "Verif.EdiInfo.C200_info_partial"
   ],
   "note": "Refuted: names such as operator are changed when they are read and all others are put into lower case, a line with a smaller or greater sign is lost, a text in brackets becomes a list, and a text with words such as electrics makes the reader take the file for that of another program. Proved for all dictionaries without these."
  },
  {
   "property": "C201",
   "status": "partial",
   "theorems": [
    "Verif.EdiInfo.C201_refuted",
    "Verif.EdiInfo.C201_stable_partial"
   ],
   "note": "Refuted: a processing parameter with two words becomes two items, lists in comments and a text with the name of another program are read differently. Proved for sections without these."
  },
  {
   "property": "C202",
   "status": "partial",
   "theorems": [
    "Verif.EdiInfo.C202_refuted",
    "Verif.EdiInfo.C202_kept_partial"
   ],
   "note": "Refuted: the remote reference takes the place of the processing parameters before it. Proved for sections without it; the last value of every other name is kept."
  },
  {
   "property": "C203",
   "status": "partial",
   "theorems": [
    "Verif.EdiInfo.C203_refuted",
    "Verif.EdiInfo.C203_columns_partial"
   ],
   "note": "Refuted: a line with fewer than four words is not taken apart and its second value is lost. Proved for four words and more."
  },
  {
   "property": "C204",
   "status": "partial",
   "theorems": [
    "Verif.EdiInfo.C204_refuted",
    "Verif.EdiInfo.C204_names_partial",
    "Verif.EdiInfo.C204_sensors",
    "Verif.EdiInfo.C204_voltages"
   ],
   "note": "Refuted: all names that are not known become one. Proved: every known name is kept, of the unknown ones the last; C204_sensors, C204_voltages."
  },
  {
   "property": "C205",
   "status": "partial",
   "theorems": [
    "Verif.EdiInfo.C205_refuted",
    "Verif.EdiInfo.C205_filed_partial"
   ],
   "note": "Refuted: a channel remains the channel after the next section header. Proved: every value is kept under the channel named last, and nothing else is kept; contact resistances and currents of magnetic channels, which are renamed, are left out."
  },
  {
   "property": "C206",
   "status": "partial",
   "theorems": [
    "Verif.EdiInfo.C206_refuted",
    "Verif.EdiInfo.C206_units_partial"
   ],
   "note": "Refuted: of millivolts the volts remain, and a unit in brackets after a number of one digit remains. Proved for the signs of metres, volts, ohms and degrees, and brackets after longer numbers."
  },
  {
   "property": "C207",
   "status": "partial",
   "theorems": [
    "Verif.Stages.C207_refuted",
    "Verif.Stages.C207_response_partial"
   ],
   "note": "Refuted: a filter without poles and zeros loses its normalisation factor. Proved for pole zero filters with a pole or zero or factor one, coefficient filters, delays of gain one, tables with small phases, and FIR filters whose gain is given at the normalisation frequency."
  },
  {
   "property": "C208",
   "status": "partial",
   "theorems": [
    "Verif.Stages.C208_refuted",
    "Verif.Stages.C208_kept_partial"
   ],
   "note": "Refuted: a comment is put into the stage as an object, which is refused when it is read. Proved without comments; a filter that decimates has its sample rate appended to its name, anew with every passage."
  },
  {
   "property": "C209",
   "status": "partial",
   "theorems": [
    "Verif.Stages.C209_refuted",
    "Verif.Stages.C209_class_partial"
   ],
   "note": "Refuted: a delay with a gain becomes a coefficient filter. Proved for the filters of the statement; the frequency of a FIR filter's gain becomes the normalisation frequency."
  },
  {
   "property": "C210",
   "status": "partial",
   "theorems": [
    "Verif.Stages.C210_refuted",
    "Verif.Stages.C210_gains_partial",
    "Verif.Stages.C210_coefficients_partial"
   ],
   "note": "Refuted: the product of the gains is written, whatever the response. Proved: it is that product to 16 digits, nothing is written when it is zero (OverflowError), and it is the amplitude for coefficient filters of positive gains."
  },
  {
   "property": "C211",
   "status": "proved",
   "theorems": [
    "Verif.Stages.C211_sensitivity"
   ],
   "note": ""
  },
  {
   "property": "C212",
   "status": "partial",
   "theorems": [
    "Verif.Stages.C212_names_partial",
    "Verif.Stages.C212_refuted"
   ],
   "note": "Refuted: names that differ in capitals only. Proved: one filter for every different name in small letters."
  },
  {
   "property": "C213",
   "status": "partial",
   "theorems": [
    "Verif.Stages.C213_refuted",
    "Verif.Stages.C213_new_partial",
    "Verif.Stages.C213_type_error_partial"
   ],
   "note": "Refuted: only the rounded amplitude at 1 Hz is compared. Proved: the name is new when no filter of the type has that amplitude and the names containing the type are numbered below 99; delays and FIR filters raise a TypeError when there is one of the type already."
  },
  {
   "property": "C214",
   "status": "partial",
   "theorems": [
    "Verif.Stages.C214_last_partial",
    "Verif.Stages.C214_none_partial",
    "Verif.Stages.C214_refuted"
   ],
   "note": "Refuted: the units of the channel are not written. Proved: after reading they are those of the last filter's output."
  },
  {
   "property": "C215",
   "status": "partial",
   "theorems": [
    "Verif.Stages.C215_refuted",
    "Verif.Stages.C215_direction_partial"
   ],
   "note": "Refuted: angles are taken modulo 360. Proved: the direction is kept."
  },
  {
   "property": "C216",
   "status": "partial",
   "theorems": [
    "Verif.Stages.C216_refuted",
    "Verif.Stages.C216_position_partial"
   ],
   "note": "Refuted: only the positive electrode is written. Proved: its position is kept, the negative one gets the same."
  },
  {
   "property": "C217",
   "status": "partial",
   "theorems": [
    "Verif.EdiStation.C217_refuted",
    "Verif.EdiStation.C217_attributes_partial"
   ],
   "note": "Refuted: the date of processing becomes the creation time of the provenance. Proved for all others, for names that are not those of other things; none is added but the name of the station."
  },
  {
   "property": "C218",
   "status": "partial",
   "theorems": [
    "Verif.EdiStation.C218_refuted",
    "Verif.EdiStation.C218_parameters_partial"
   ],
   "note": "Refuted: names of parameters become lower case and lose what is before a dot. Proved for parameters name=value with plain names."
  },
  {
   "property": "C219",
   "status": "partial",
   "theorems": [
    "Verif.EdiStation.C219_runs_partial",
    "Verif.EdiStation.C219_refuted"
   ],
   "note": "Refuted: there is always one run, the station's name followed by a. Proved: exactly this."
  },
  {
   "property": "C220",
   "status": "partial",
   "theorems": [
    "Verif.EdiStation.C220_refuted",
    "Verif.EdiStation.C220_place_partial"
   ],
   "note": "Refuted: a slash in the name becomes an underscore. Proved for names without one and one-word reference frames; a station without geographic name gets that of the survey."
  },
  {
   "property": "C221",
   "status": "partial",
   "theorems": [
    "Verif.EdiStation.C221_refuted",
    "Verif.EdiStation.C221_provenance_partial"
   ],
   "note": "Refuted: where the software has no name it gets that of the submitter. Proved for all that has a value."
  },
  {
   "property": "C222",
   "status": "partial",
   "theorems": [
    "Verif.EdiStation.C222_refuted",
    "Verif.EdiStation.C222_parameter",
    "Verif.EdiStation.C222_succeeds_partial"
   ],
   "note": "Refuted: the provenance of a run is taken for an attribute of the station and raises AttributeError. Proved for names that are not those of other things; a parameter without = raises ValueError always."
  },
  {
   "property": "C223",
   "status": "partial",
   "theorems": [
    "Verif.EdiStation.C223_refuted",
    "Verif.EdiStation.C223_electric_partial"
   ],
   "note": "Refuted: the type of the electrodes becomes that of the channel. Proved for names without .type that no other channel has."
  },
  {
   "property": "C224",
   "status": "partial",
   "theorems": [
    "Verif.EdiStation.C224_refuted",
    "Verif.EdiStation.C224_sensor_refuted",
    "Verif.EdiStation.C224_type",
    "Verif.EdiStation.C224_magnetic_partial"
   ],
   "note": "Refuted: only the sensor is read, its type becomes that of the channel, and the sensor of rrhx is taken for that of hx. Proved for the other attributes of the sensor without remote channels."
  },
  {
   "property": "C225",
   "status": "partial",
   "theorems": [
    "Verif.EdiStation.C225_refuted",
    "Verif.EdiStation.C225_survey_partial"
   ],
   "note": "Refuted: a survey without an author gets that of the station. Proved for all that has a value, and what is read for those without."
  },
  {
   "property": "C226",
   "status": "partial",
   "theorems": [
    "Verif.EmtfRuns.C226_refuted",
    "Verif.EmtfRuns.C226_partial",
    "Verif.EmtfRuns.C226_empty"
   ],
   "note": "Refuted: runs without sampling rate are left out. Proved for the others; a station without runs gets one named after it."
  },
  {
   "property": "C227",
   "status": "partial",
   "theorems": [
    "Verif.EmtfRuns.C227_refuted",
    "Verif.EmtfRuns.C227_partial",
    "Verif.EmtfRuns.C227_one"
   ],
   "note": "Refuted: the name of the sensor becomes the component. Proved for id, manufacturer and type unless a run has one magnetometer only; then hx, hy and hz all get its sensor. Channels behind one of a long period system are lost."
  },
  {
   "property": "C228",
   "status": "partial",
   "theorems": [
    "Verif.EmtfRuns.C228_refuted",
    "Verif.EmtfRuns.C228_partial"
   ],
   "note": "Refuted: the negative electrode gets manufacturer and type of the positive one. Proved for the ids, the positive electrode and the length."
  },
  {
   "property": "C229",
   "status": "partial",
   "theorems": [
    "Verif.EmtfRuns.C229_refuted",
    "Verif.EmtfRuns.C229_partial",
    "Verif.EmtfRuns.C229_electric"
   ],
   "note": "Refuted: all runs get the places of the last run that has the channel. Proved: exactly this, the translated azimuth before the measured one, the length of the dipole as second place if all places are zero."
  },
  {
   "property": "C230",
   "status": "proved",
   "theorems": [
    "Verif.EmtfRuns.C230_iff"
   ],
   "note": "Proved in both directions, for comments that change nothing but comments."
  },
  {
   "property": "C231",
   "status": "partial",
   "theorems": [
    "Verif.EmtfRuns.C231_refuted",
    "Verif.EmtfRuns.C231_partial",
    "Verif.EmtfRuns.C231_dotted"
   ],
   "note": "Refuted: only the last comments under comments.author, comments.value and errors are left. Proved: exactly these; a comment with an unknown dotted name makes the conversion fail."
  },
  {
   "property": "C232",
   "status": "proved",
   "theorems": [
    "Verif.EmtfStation.C232_iff"
   ],
   "note": "Proved in both directions, for comments that say nothing of field notes, data loggers and the processing and do not name site.survey or emtf.sub_type. Station ids with _ and data types such as AMT, which are valid for stations, fail."
  },
  {
   "property": "C233",
   "status": "partial",
   "theorems": [
    "Verif.EmtfStation.C233_partial",
    "Verif.EmtfStation.C233_refuted"
   ],
   "note": "Refuted: comments of the station such as 'site.name: x' change other attributes, and processing parameters change those of the processing. Proved: exactly this, for 34 attributes and the data type; None becomes an empty text or 0.0 for some."
  },
  {
   "property": "C234",
   "status": "partial",
   "theorems": [
    "Verif.EmtfStation.C234_partial",
    "Verif.EmtfStation.C234_refuted",
    "Verif.EmtfStation.C234_country"
   ],
   "note": "Refuted: the id becomes the geographic name. Proved: exactly what becomes of the attributes; without a country there is one with an empty name."
  },
  {
   "property": "C235",
   "status": "partial",
   "theorems": [
    "Verif.EmtfStation.C235_partial",
    "Verif.EmtfStation.C235_refuted"
   ],
   "note": "Refuted. Proved: they become the description, three file attributes and the words about data quality, with what the comments of survey and station said of them."
  },
  {
   "property": "C236",
   "status": "partial",
   "theorems": [
    "Verif.EmtfStation.C236_partial",
    "Verif.EmtfStation.C236_refuted"
   ],
   "note": "Refuted. Proved: they become what was said of the copyright, with standard conditions of use and release status."
  },
  {
   "property": "C237",
   "status": "partial",
   "theorems": [
    "Verif.EmtfStation.C237_partial",
    "Verif.EmtfStation.C237_refuted"
   ],
   "note": "Refuted. Proved: there is one remote reference, the id of the remote site in the processing parameters or else an empty text."
  },
  {
   "property": "C238",
   "status": "partial",
   "theorems": [
    "Verif.EmtfStation.C238_partial",
    "Verif.EmtfStation.C238_refuted"
   ],
   "note": "Refuted. Proved: those of the remote site and its field notes remain, in the order of the names; others are lost."
  },
  {
   "property": "C239",
   "status": "proved",
   "theorems": [
    "Verif.EmtfStation.C239_exact"
   ],
   "note": "Proved for the same comments as C232; a comment emtf.product_id of the station replaces it."
  },
  {
   "property": "C240",
   "status": "proved",
   "theorems": [
    "Verif.EmtfFile.C240_writable"
   ],
   "note": "Proved in both directions; without a sampling rate writing fails with AttributeError, without name or type of a dipole with TypeError."
  },
  {
   "property": "C241",
   "status": "partial",
   "theorems": [
    "Verif.EmtfFile.C241_notes_partial",
    "Verif.EmtfFile.C241_refuted"
   ],
   "note": "Refuted: a run without a text for errors has no element for it, and reading stops there: it and all later runs are missing. Proved: exactly what is read: the runs before it, without the models of instruments, with comments of electrodes as their value, texts as in C243; a dipole with exactly one electrode cannot be read."
  },
  {
   "property": "C242",
   "status": "partial",
   "theorems": [
    "Verif.EmtfFile.C242_layout_partial",
    "Verif.EmtfFile.C242_refuted"
   ],
   "note": "Refuted: on each side the magnetic channels come first. Proved: exactly this, all channels are read."
  },
  {
   "property": "C243",
   "status": "partial",
   "theorems": [
    "Verif.EmtfFile.C243_text_partial",
    "Verif.EmtfFile.C243_refuted"
   ],
   "note": "Refuted: ampersands are replaced by 'and' before the file is parsed, so that escaped characters come back as letters. Proved: a text comes back unchanged exactly if it has no &, < or > and, before Python 3.13, no quotation marks."
  },
  {
   "property": "C244",
   "status": "partial",
   "theorems": [
    "Verif.EmtfRunFile.C244_runs_partial",
    "Verif.EmtfRunFile.C244_refuted"
   ],
   "note": "Refuted: the runs from the first on whose comments do not say 'errors: ...' are lost. Proved: exactly the runs before it are read, with what files keep of their ids and data loggers; if there are none, one run with the id of the station and 'a' is made up. For comments whose names change nothing but comments; what becomes of channels is C242 with C228-C230."
  },
  {
   "property": "C245",
   "status": "proved",
   "theorems": [
    "Verif.ExpDict.C245_run"
   ],
   "note": "Proved: the lists are assigned before the channels and make place holders, all of which are replaced."
  },
  {
   "property": "C246",
   "status": "partial",
   "theorems": [
    "Verif.ExpDict.C246_runs_partial",
    "Verif.ExpDict.C246_exact_partial",
    "Verif.ExpDict.C246_adds_partial",
    "Verif.ExpDict.C246_all_partial",
    "Verif.ExpDict.C246_refuted"
   ],
   "note": "Refuted: a channel removed from a run of the station is in channels_recorded, and reading the dictionary puts it into the first run again. Proved: exactly the same runs if channels_recorded names channels of the runs only (in particular for stations to which runs were added); otherwise no run and no channel is missing, and only the first run can have more."
  },
  {
   "property": "C247",
   "status": "proved",
   "theorems": [
    "Verif.ExpDict.C247_experiment",
    "Verif.ExpDict.C247_into"
   ],
   "note": "Proved, with attributes changed by a dictionary as a parameter (C80, C81)."
  },
  {
   "property": "C248",
   "status": "partial",
   "theorems": [
    "Verif.ExpDict.C248_list_partial",
    "Verif.ExpDict.C248_dict_partial",
    "Verif.ExpDict.C248_list_never_partial",
    "Verif.ExpDict.C248_read_never_partial",
    "Verif.ExpDict.C248_refuted",
    "Verif.ExpDict.C248_lost",
    "Verif.ExpDict.C248_slash"
   ],
   "note": "Refuted: applied filters have names in lower case with slashes as ' per ', the survey has the names themselves (list) or in lower case (dictionary); filters not found are left out. Proved: all filters are found if the names have neither slash nor capital letter (list) or no slash (dictionary); any other filter is in no response after the survey was given a list or was read from its dictionary."
  },
  {
   "property": "C249",
   "status": "proved",
   "theorems": [
    "Verif.ExpDict.C249_inplace",
    "Verif.ExpDict.C249_copy"
   ],
   "note": "Proved."
  },
  {
   "property": "C250",
   "status": "partial",
   "theorems": [
    "Verif.ExpDict.C250_refuted",
    "Verif.ExpDict.C250_partial",
    "Verif.ExpDict.C250_ignored_partial"
   ],
   "note": "Refuted: a file name given as text is itself read as JSON. Proved: a text that is not the name of a file is read, a Path is read; a Path without a file ends in an UnboundLocalError."
  },
  {
   "property": "C251",
   "status": "partial",
   "theorems": [
    "Verif.ExpDict.C251_same_partial",
    "Verif.ExpDict.C251_refuted"
   ],
   "note": "Refuted: run_list keeps the order in which runs were added. Proved: it has the same ids."
  },
  {
   "property": "C252",
   "status": "partial",
   "theorems": [
    "Verif.Rename.C252_keys_partial",
    "Verif.Rename.C252_after_partial",
    "Verif.Rename.C252_exchange_partial",
    "Verif.Rename.C252_refuted"
   ],
   "note": "Refuted: the lists of recorded channels keep the old names, and the next assignment makes channels of these names. Proved: the keys and the changes returned by update_channel_keys; exactly which channels there are after the next assignment (no renamed channel is lost); nothing is added when channels exchange names."
  },
  {
   "property": "C253",
   "status": "proved",
   "theorems": [
    "Verif.Rename.C253_runs"
   ],
   "note": "Proved."
  },
  {
   "property": "C254",
   "status": "proved",
   "theorems": [
    "Verif.TfMeta.C254_survey"
   ],
   "note": "Proved. A station named 0 is updated instead of added, see C84."
  },
  {
   "property": "C255",
   "status": "partial",
   "theorems": [
    "Verif.TfMeta.C255_first_partial",
    "Verif.TfMeta.C255_stations_partial",
    "Verif.TfMeta.C255_refuted"
   ],
   "note": "Refuted: a TF that has read a file keeps the station of that file. Proved: the first station stays, unchanged if the survey has none of its id, unless it is the station 0 of a new TF; all stations after a survey with other stations."
  },
  {
   "property": "C256",
   "status": "partial",
   "theorems": [
    "Verif.TfMeta.C256_runs_partial",
    "Verif.TfMeta.C256_old_partial",
    "Verif.TfMeta.C256_refuted",
    "Verif.TfMeta.C256_empty_partial"
   ],
   "note": "Refuted: the first run the TF had becomes the first run of the given station. Proved: exactly the runs of the station if that run is the run 0 of a new TF; otherwise exactly which runs there are; a station without runs gets run 0 with five channels."
  },
  {
   "property": "C257",
   "status": "proved",
   "theorems": [
    "Verif.TfMeta.C257_edi",
    "Verif.TfMeta.C257_emtfxml",
    "Verif.TfMeta.C257_zmm"
   ],
   "note": "Proved, with channels_recorded up to date and channels in every run where runs are kept."
  },
  {
   "property": "C258",
   "status": "partial",
   "theorems": [
    "Verif.TfMeta.C258_partial",
    "Verif.TfMeta.C258_refuted",
    "Verif.TfMeta.C258_kept_partial"
   ],
   "note": "Refuted: the station is kept under its old name. Proved: the id of station_metadata is the name; a new TF that got a name keeps its empty station when a survey is read."
  },
  {
   "property": "C259",
   "status": "partial",
   "theorems": [
    "Verif.TfMeta.C259_never_partial",
    "Verif.TfMeta.C259_refuted"
   ],
   "note": "Refuted: the setter reads an attribute component that no TF has. Proved: it raises AttributeError for all runs, unless the user gave the TF such an attribute."
  },
  {
   "property": "C260",
   "status": "partial",
   "theorems": [
    "Verif.LevelBands.C260_refuted",
    "Verif.LevelBands.C260_each_partial",
    "Verif.LevelBands.C260_missing_partial",
    "Verif.LevelBands.C260_partial"
   ],
   "note": "Refuted: a band inside another. Proved: each list alone, the error if an index is missing, and the whole for bands of which none is inside another, overlapping or not."
  },
  {
   "property": "C261",
   "status": "proved",
   "theorems": [
    "Verif.LevelBands.C261_frame",
    "Verif.LevelBands.C261_missing"
   ],
   "note": "Proved for every sorting method that gives a sorted order."
  },
  {
   "property": "C262",
   "status": "proved",
   "theorems": [
    "Verif.LevelBands.C262_count",
    "Verif.LevelBands.C262_once"
   ],
   "note": "Proved."
  },
  {
   "property": "C263",
   "status": "proved",
   "theorems": [
    "Verif.LevelBands.C263_interval",
    "Verif.LevelBands.C263_level"
   ],
   "note": "Proved for bands closed on the left, the default."
  },
  {
   "property": "C264",
   "status": "proved",
   "theorems": [
    "Verif.LevelBands.C264_single",
    "Verif.LevelBands.C264_list",
    "Verif.LevelBands.C264_add"
   ],
   "note": "Proved. What Band.from_dict makes of a dictionary is a parameter."
  },
  {
   "property": "C265",
   "status": "partial",
   "theorems": [
    "Verif.FilterFile.C265_refuted",
    "Verif.FilterFile.C265_partial",
    "Verif.FilterFile.C265_poles_partial",
    "Verif.FilterFile.C265_zero_partial"
   ],
   "note": "Refuted: two poles or zeros raise ValueError, one vanishes, and an array with a zero in it is not written. Proved: exactly these failures, and that every written field comes back when the complex arrays have the right length already (always for filters without poles and zeros)."
  },
  {
   "property": "C266",
   "status": "partial",
   "theorems": [
    "Verif.FilterFile.C266_refuted",
    "Verif.FilterFile.C266_partial",
    "Verif.FilterFile.C266_pole_zero_partial"
   ],
   "note": "Refuted: arrays raise ValueError, so no pole zero filter can be written. Proved: written exactly when no array is among the written fields, with one element for each written field."
  },
  {
   "property": "C267",
   "status": "proved",
   "theorems": [
    "Verif.FilterFile.C267_numbers",
    "Verif.FilterFile.C267_single",
    "Verif.FilterFile.C267_list",
    "Verif.FilterFile.C267_array"
   ],
   "note": "Proved. Python's float of a text is a parameter; digits are 0-9."
  },
  {
   "property": "C268",
   "status": "partial",
   "theorems": [
    "Verif.FilterFile.C268_two_partial",
    "Verif.FilterFile.C268_refuted"
   ],
   "note": "Refuted: (1+2j) gives the two numbers 1 and 2. Proved that it always gives these two."
  },
  {
   "property": "C269",
   "status": "partial",
   "theorems": [
    "Verif.FilterFile.C269_two_partial",
    "Verif.FilterFile.C269_refuted"
   ],
   "note": "Refuted: 1.e+05 gives 1 and 5. Proved that it always gives these two."
  },
  {
   "property": "C270",
   "status": "partial",
   "theorems": [
    "Verif.EmtfSite.C270_site_partial",
    "Verif.EmtfSite.C270_refuted"
   ],
   "note": "Refuted: offsets, geomagnetic model, comments, the fraction of the epoch and the angle of a layout that is not orthogonal are lost, and an end before the start becomes the start. Proved: exactly what is read, field by field, for every admissible site."
  },
  {
   "property": "C271",
   "status": "partial",
   "theorems": [
    "Verif.EmtfSite.C271_names_partial",
    "Verif.EmtfSite.C271_blanks_partial",
    "Verif.EmtfSite.C271_refuted"
   ],
   "note": "Refuted: names with a blank are cut. Proved: names without blanks, commas and brackets come back; without commas and brackets the list read is the joined text cut at every blank."
  },
  {
   "property": "C272",
   "status": "partial",
   "theorems": [
    "Verif.EmtfSite.C272_unknown_partial",
    "Verif.EmtfSite.C272_comments_partial",
    "Verif.EmtfSite.C272_one_partial",
    "Verif.EmtfSite.C272_refuted"
   ],
   "note": "Refuted: any unknown child raises AttributeError, empty or repeated comments of the data quality notes end the reading, and so does a missing or repeated Site. Proved for all such elements."
  },
  {
   "property": "C273",
   "status": "proved",
   "theorems": [
    "Verif.EmtfSite.C273_stable",
    "Verif.EmtfSite.C273_first"
   ],
   "note": "Proved, with a site for which the first reading is not yet the last. Printing and rounding of numbers are parameters (rounding twice is rounding once)."
  },
  {
   "property": "C274",
   "status": "partial",
   "theorems": [
    "Verif.EmtfSite.C274_over_partial",
    "Verif.EmtfSite.C274_full_partial",
    "Verif.EmtfSite.C274_refuted"
   ],
   "note": "Refuted: runs, year, layout, numbers of the data quality and comments that the second file does not have are those of the first, and an orthogonal layout does not replace another one. Proved: exactly what is there after reading into any site, and that it is as in a new object when the file has all of these and both layouts are orthogonal."
  },
  {
   "property": "C275",
   "status": "partial",
   "theorems": [
    "Verif.EmtfBlocks.C275_read_partial",
    "Verif.EmtfBlocks.C275_new_partial",
    "Verif.EmtfBlocks.C275_files_partial",
    "Verif.EmtfBlocks.C275_refuted"
   ],
   "note": "Refuted: several attachments are appended to those of earlier files, and a single one is not written any more. Proved: exactly what a reading does; for a new object the claim; by induction what any sequence of files leaves."
  },
  {
   "property": "C276",
   "status": "partial",
   "theorems": [
    "Verif.EmtfBlocks.C276_writes_partial",
    "Verif.EmtfBlocks.C276_first_partial",
    "Verif.EmtfBlocks.C276_gone_partial",
    "Verif.EmtfBlocks.C276_refuted"
   ],
   "note": "Refuted: a write without identifier removes the remote site from all later files, and a write without field notes the remote field notes. Proved by induction over all sequences of writes: exactly what each file has; the first write is as claimed."
  },
  {
   "property": "C277",
   "status": "partial",
   "theorems": [
    "Verif.EmtfBlocks.C277_info_partial",
    "Verif.EmtfBlocks.C277_writable_partial",
    "Verif.EmtfBlocks.C277_absent_partial",
    "Verif.EmtfBlocks.C277_silent_partial",
    "Verif.EmtfBlocks.C277_refuted"
   ],
   "note": "Refuted: the version of the software, a remote reference with the name of a type of values, and runs after one without a text for errors or with a single electrode are lost (without an exception). Proved: exactly what is read, into any object, and which information can be written."
  },
  {
   "property": "C278",
   "status": "partial",
   "theorems": [
    "Verif.ManyFiles.C278_sound_partial",
    "Verif.ManyFiles.C278_runs_partial",
    "Verif.ManyFiles.C278_channels_partial",
    "Verif.ManyFiles.C278_named_partial",
    "Verif.ManyFiles.C278_refuted"
   ],
   "note": "Refuted: only files that mention one of hx, hy, hz, ex, ey are listed, of several that mention the same the first, and a file that mentions two (also in the name of its run) twice. Proved: everything listed is below its own run and station; the runs are all, in order; exactly which channels are listed; all of them once each if the files are named after the run, a type and different components of the five, none of which is in the name of the run."
  },
  {
   "property": "C279",
   "status": "partial",
   "theorems": [
    "Verif.ManyFiles.C279_iff_partial",
    "Verif.ManyFiles.C279_fails_partial",
    "Verif.ManyFiles.C279_refuted"
   ],
   "note": "Refuted: channels have no attribute `filter`, so that any channel raises AttributeError. Proved: an experiment is made exactly if no listed run has a listed channel."
  },
  {
   "property": "C280",
   "status": "proved",
   "theorems": [
    "Verif.ManyFiles.C280_all",
    "Verif.ManyFiles.C280_empty",
    "Verif.ManyFiles.C280_chosen"
   ],
   "note": "Full."
  },
  {
   "property": "C281",
   "status": "partial",
   "theorems": [
    "Verif.ManyFiles.C281_used_partial",
    "Verif.ManyFiles.C281_first_partial",
    "Verif.ManyFiles.C281_refuted"
   ],
   "note": "Refuted: for files of the same name in two directories the first is used twice. Proved if the names are different, and that always the first file of a name is used."
  },
  {
   "property": "C282",
   "status": "partial",
   "theorems": [
    "Verif.XmlStation.C282_refuted",
    "Verif.XmlStation.C282_read_partial",
    "Verif.XmlStation.C282_same_partial",
    "Verif.XmlStation.C282_colon_partial"
   ],
   "note": "Refuted: the name and the FDSN code come back as the name in capitals, who acquired the station does not come back, the period is extended to the runs. Proved: exactly what comes back of every field; stations for which this is the same; a colon in the author, name or version of the software makes the file unreadable. Comments of runs and channels are not modelled here (C116, C117)."
  },
  {
   "property": "C283",
   "status": "partial",
   "theorems": [
    "Verif.XmlStation.C283_refuted",
    "Verif.XmlStation.C283_changes_partial",
    "Verif.XmlStation.C283_again_partial"
   ],
   "note": "Refuted: a missing FDSN code becomes the name, and a missing organization a blank if somebody acquired the station. Proved: that this is all, that a second writing gives the same and changes nothing, and that the FDSN code is never written."
  },
  {
   "property": "C284",
   "status": "proved",
   "theorems": [
    "Verif.XmlStation.C284_runs",
    "Verif.XmlStation.C284_alike",
    "Verif.XmlStation.C284_null"
   ],
   "note": "Full."
  },
  {
   "property": "C285",
   "status": "partial",
   "theorems": [
    "Verif.XmlSurvey.C285_read_partial",
    "Verif.XmlSurvey.C285_refuted"
   ],
   "note": "Refuted: the name comes back as the identifier, the comments are lost, the leader of the project only comes back with an organization, and the DOI is changed (C286). Proved: exactly what comes back of every other field. The licence is what Model/License makes of it."
  },
  {
   "property": "C286",
   "status": "partial",
   "theorems": [
    "Verif.XmlSurvey.C286_doi_partial",
    "Verif.XmlSurvey.C286_refuted",
    "Verif.XmlSurvey.C286_grows_partial"
   ],
   "note": "Refuted: no survey keeps its DOI: one that has a DOI gets the address in front of it once more, one that has none gets https://doi.org/None. Proved: exactly this, and that the address is repeated with every translation."
  },
  {
   "property": "C287",
   "status": "partial",
   "theorems": [
    "Verif.XmlSurvey.C287_iff_partial",
    "Verif.XmlSurvey.C287_refuted"
   ],
   "note": "Refuted: a survey with the DOI of a journal cannot be read (the colon of its address makes the comment a dictionary), nor one whose leader has an organization and no e-mail address. Proved: all others can."
  },
  {
   "property": "C288",
   "status": "partial",
   "theorems": [
    "Verif.XmlSurvey.C288_refuted",
    "Verif.XmlSurvey.C288_own_partial"
   ],
   "note": "Refuted: the code is always replaced by that of the survey, also if this is missing. Proved: that the argument has no effect."
  },
  {
   "property": "C289",
   "status": "proved",
   "theorems": [
    "Verif.MTime.C289_sets",
    "Verif.MTime.C289_iff",
    "Verif.MTime.C289_only",
    "Verif.MTime.C289_same",
    "Verif.MTime.C289_example"
   ],
   "note": "Proved for all stored times. pandas.Timestamp.replace is modelled from its documentation, nanoseconds outside 0..999 and values that are not integers are left out."
  },
  {
   "property": "C290",
   "status": "partial",
   "theorems": [
    "Verif.MTime.C290_refuted",
    "Verif.MTime.C290_date_partial",
    "Verif.MTime.C290_fails_partial",
    "Verif.MTime.C290_example"
   ],
   "note": "Refuted: on the way from 31 January to 1 February there is 31 February. Proved: from the first 28 days of a month every date is reached and nothing else changes; the month cannot be assigned while the day does not exist in it."
  },
  {
   "property": "C291",
   "status": "partial",
   "theorems": [
    "Verif.ChanFilt.C291_reached",
    "Verif.ChanFilt.C291_refuted",
    "Verif.ChanFilt.C291_iff_partial",
    "Verif.ChanFilt.C291_first_partial",
    "Verif.ChanFilt.C291_example"
   ],
   "note": "Refuted: add_filter(name='A') twice gives two filters of the name a, one of which is lost. Proved: they survive exactly if the names are different and every filter has a stage; in general the first of every name survives."
  },
  {
   "property": "C292",
   "status": "partial",
   "theorems": [
    "Verif.ChanFilt.C292_refuted",
    "Verif.ChanFilt.C292_kept_partial",
    "Verif.ChanFilt.C292_text_partial",
    "Verif.ChanFilt.C292_example"
   ],
   "note": "Refuted: filters given as a text replace those of before. Proved for lists and for both old formats, and that after a text nothing else is left."
  },
  {
   "property": "C293",
   "status": "partial",
   "theorems": [
    "Verif.ChanFilt.C293_refuted",
    "Verif.ChanFilt.C293_again_partial",
    "Verif.ChanFilt.C293_slash_partial",
    "Verif.ChanFilt.C293_example"
   ],
   "note": "Refuted: a name with a slash in an old format is added once more each time. Proved for all lists and for old formats without a slash."
  },
  {
   "property": "C294",
   "status": "partial",
   "theorems": [
    "Verif.ChanFilt.C294_refuted",
    "Verif.ChanFilt.C294_empty_partial",
    "Verif.ChanFilt.C294_plain_partial",
    "Verif.ChanFilt.C294_text_partial",
    "Verif.ChanFilt.C294_example"
   ],
   "note": "Refuted: every filter becomes one without a name and stage, as the dictionary is wrapped in applied_filter. Proved: exactly this, and that filters, dictionaries that are not wrapped and texts are understood. The parsing of texts is a function of the world."
  },
  {
   "property": "C295",
   "status": "proved",
   "theorems": [
    "Verif.ChanFilt.C295_lists",
    "Verif.ChanFilt.C295_texts",
    "Verif.ChanFilt.C295_example"
   ],
   "note": "Proved for the lists and for the texts of lists; what pydantic takes for a boolean is modelled."
  },
  {
   "property": "C296",
   "status": "partial",
   "theorems": [
    "Verif.ChanFilt.C296_refuted",
    "Verif.ChanFilt.C296_length_partial",
    "Verif.ChanFilt.C296_one_partial",
    "Verif.ChanFilt.C296_example"
   ],
   "note": "Refuted: MTSchemaError. Proved: the numbers have to agree in every case, and for one name the value is used."
  },
  {
   "property": "C297",
   "status": "proved",
   "theorems": [
    "Verif.Features.C297_bounds",
    "Verif.Features.C297_value",
    "Verif.Features.C297_symmetric",
    "Verif.Features.C297_scale",
    "Verif.Features.C297_one",
    "Verif.Features.C297_window",
    "Verif.Features.C297_zero"
   ],
   "note": "Proved over the complex numbers; rounding is not modelled, a division by zero gives 0 as in the code."
  },
  {
   "property": "C298",
   "status": "proved",
   "theorems": [
    "Verif.Features.C298_rows",
    "Verif.Features.C298_cover"
   ],
   "note": "Proved for any function in the place of scipy.signal.coherence."
  },
  {
   "property": "C299",
   "status": "partial",
   "theorems": [
    "Verif.Features.C299_refuted",
    "Verif.Features.C299_same_partial",
    "Verif.Features.C299_short_partial"
   ],
   "note": "Refuted: for a series shorter than the window one raises IndexError, the other UnboundLocalError. Proved equal whenever a window fits, and that both raise otherwise."
  },
  {
   "property": "C300",
   "status": "partial",
   "theorems": [
    "Verif.Features.C300_refuted",
    "Verif.Features.C300_iff_partial",
    "Verif.Features.C300_size_partial"
   ],
   "note": "Refuted: a window of four samples gets an empty sub-window from the default fraction. Proved: it has samples exactly if window times fraction is at least one, and all the rest; the fraction is an exact number."
  },
  {
   "property": "C301",
   "status": "partial",
   "theorems": [
    "Verif.Features.C301_refuted",
    "Verif.Features.C301_remote_partial",
    "Verif.Features.C301_single_partial"
   ],
   "note": "Refuted: a channel rrhx without a remote station is left without a station, only a message is logged. Proved with a remote station, and exactly when it fails without one."
  },
  {
   "property": "C302",
   "status": "proved",
   "theorems": [
    "Verif.Features.C302_first",
    "Verif.Features.C302_second",
    "Verif.Features.C302_again"
   ],
   "note": "Proved."
  },
  {
   "property": "C303",
   "status": "proved",
   "theorems": [
    "Verif.Features.C303_named",
    "Verif.Features.C303_other"
   ],
   "note": "Proved by induction over the wrapping."
  },
  {
   "property": "C304",
   "status": "partial",
   "theorems": [
    "Verif.Features.C304_refuted",
    "Verif.Features.C304_plain_partial",
    "Verif.Features.C304_wrapped_partial"
   ],
   "note": "Refuted: an object inside one dictionary becomes a plain Feature. Proved for the object as it is; and what becomes of a wrapped one."
  },
  {
   "property": "C305",
   "status": "partial",
   "theorems": [
    "Verif.Features.C305_refuted",
    "Verif.Features.C305_single_partial",
    "Verif.Features.C305_list_partial",
    "Verif.Features.C305_text_partial"
   ],
   "note": "Refuted: the stations of a list keep their mark. Proved for single stations and dictionaries, and what becomes of lists and texts."
  },
  {
   "property": "C306",
   "status": "proved",
   "theorems": [
    "Verif.Features.C306_no_remote",
    "Verif.Features.C306_levels",
    "Verif.Features.C306_local"
   ],
   "note": "Proved."
  },
  {
   "property": "C307",
   "status": "partial",
   "theorems": [
    "Verif.Features.C307_refuted",
    "Verif.Features.C307_kept_partial"
   ],
   "note": "Refuted: when the stations come from the data set the engine is changed before the remote station is read. Proved with a remote station beforehand."
  },
  {
   "property": "C308",
   "status": "proved",
   "theorems": [
    "Verif.AttrNames.C308_read",
    "Verif.AttrNames.C308_rejected"
   ],
   "note": "Proved; validation is a function of the world of the path and the value."
  },
  {
   "property": "C309",
   "status": "proved",
   "theorems": [
    "Verif.AttrNames.C309_others"
   ],
   "note": "Proved for all names, those that raise included."
  },
  {
   "property": "C310",
   "status": "partial",
   "theorems": [
    "Verif.AttrNames.C310_refuted",
    "Verif.AttrNames.C310_way_partial"
   ],
   "note": "Refuted: a missing last attribute is made. Proved: it raises exactly if an object on the way is missing."
  },
  {
   "property": "C311",
   "status": "partial",
   "theorems": [
    "Verif.AttrNames.C311_refuted",
    "Verif.AttrNames.C311_cases_partial"
   ],
   "note": "Refuted: a missing last attribute is None. Proved: exactly what is returned or raised."
  },
  {
   "property": "C312",
   "status": "partial",
   "theorems": [
    "Verif.AttrNames.C312_refuted",
    "Verif.AttrNames.C312_nothing_partial",
    "Verif.AttrNames.C312_helper_partial"
   ],
   "note": "Refuted: the method is empty. Proved: it changes nothing, and the helper does what update_attribute does."
  },
  {
   "property": "C313",
   "status": "partial",
   "theorems": [
    "Verif.AttrNames.C313_refuted",
    "Verif.AttrNames.C313_one_partial"
   ],
   "note": "Refuted: the separator is not passed on, so a second one is taken for part of a name. Proved for at most one separator."
  },
  {
   "property": "C314",
   "status": "proved",
   "theorems": [
    "Verif.EdiGeometry.C314_electrodes"
   ],
   "note": "Proved; the two decimals of the written lines are left out; the number from 0 on."
  },
  {
   "property": "C315",
   "status": "proved",
   "theorems": [
    "Verif.EdiGeometry.C315_polar"
   ],
   "note": "Proved over the reals, with the principal value of the argument."
  },
  {
   "property": "C316",
   "status": "partial",
   "theorems": [
    "Verif.EdiGeometry.C316_refuted",
    "Verif.EdiGeometry.C316_same_partial"
   ],
   "note": "Refuted: a translated azimuth not given is read as the direction of the electrodes. Proved: all else is as it was."
  },
  {
   "property": "C317",
   "status": "partial",
   "theorems": [
    "Verif.EdiGeometry.C317_refuted",
    "Verif.EdiGeometry.C317_tilt_partial",
    "Verif.EdiGeometry.C317_read_partial"
   ],
   "note": "Refuted: the measured azimuth is replaced by the translated one, or 0 if there is none, and the tilt is not read. Proved: exactly what is read."
  },
  {
   "property": "C318",
   "status": "partial",
   "theorems": [
    "Verif.EdiGeometry.C318_refuted",
    "Verif.EdiGeometry.C318_only_partial"
   ],
   "note": "Refuted: a translated azimuth not given becomes 0. Proved: it is the only change."
  },
  {
   "property": "C319",
   "status": "partial",
   "theorems": [
    "Verif.EdiGeometry.C319_refuted",
    "Verif.EdiGeometry.C319_b_partial",
    "Verif.EdiGeometry.C319_iff_partial"
   ],
   "note": "Refuted: an auxiliary channel with an e in its name raises AttributeError; of bx no measurement is made. Proved: exactly which channels are accepted."
  },
  {
   "property": "C320",
   "status": "partial",
   "theorems": [
    "Verif.MTime.C320_refuted",
    "Verif.MTime.C320_difference_partial"
   ],
   "note": "Refuted: the date subtracted loses its time of day. Proved: the difference is the days and that time of day."
  },
  {
   "property": "C321",
   "status": "proved",
   "theorems": [
    "Verif.MTime.C321_days"
   ],
   "note": "Proved for dates that are not at the limits of the range."
  },
  {
   "property": "C322",
   "status": "partial",
   "theorems": [
    "Verif.MTime.C322_refuted",
    "Verif.MTime.C322_date_partial"
   ],
   "note": "Refuted: the time of day is not written, but compared. Proved: midnight of the same date is read; equal exactly for dates at midnight in UTC."
  },
  {
   "property": "C323",
   "status": "partial",
   "theorems": [
    "Verif.EmtfNotes.C323_refuted",
    "Verif.EmtfNotes.C323_known_partial",
    "Verif.EmtfNotes.C323_case_partial",
    "Verif.EmtfNotes.C323_unknown_partial"
   ],
   "note": "Refuted: without a dipole of that name the last dipole is changed and the new one is put among the magnetometers. Proved: a dipole named in lower case is changed and nothing else, a name with capitals raises ValueError, and exactly what happens to names that are not there."
  },
  {
   "property": "C324",
   "status": "partial",
   "theorems": [
    "Verif.EmtfNotes.C324_refuted",
    "Verif.EmtfNotes.C324_known_partial",
    "Verif.EmtfNotes.C324_other_partial"
   ],
   "note": "Refuted: a magnetometer without a name takes the value and stays without a name. Proved: a magnetometer named in lower case is changed and nothing else, a new one is made if all have other names, a name with capitals raises ValueError."
  },
  {
   "property": "C325",
   "status": "partial",
   "theorems": [
    "Verif.EmtfNotes.C325_refuted",
    "Verif.EmtfNotes.C325_outputs_partial"
   ],
   "note": "Refuted: the x of hx goes to the first output channel, usually an electric one. Proved: exactly which output channel is changed, and that none raises IndexError for hx and hy."
  },
  {
   "property": "C326",
   "status": "partial",
   "theorems": [
    "Verif.EmtfNotes.C326_refuted",
    "Verif.EmtfNotes.C326_channel_partial"
   ],
   "note": "Refuted: without a channel of that name the first channel is moved. Proved: a channel of that name is changed and nothing else, and exactly what happens otherwise."
  },
  {
   "property": "C327",
   "status": "partial",
   "theorems": [
    "Verif.XmlSensor.C327_trip_partial",
    "Verif.XmlSensor.C327_refuted",
    "Verif.XmlSensor.C327_iff_partial"
   ],
   "note": "Refuted: both electrodes are given the manufacturer and model of the positive one. Proved: exactly what is read, and that the claim holds exactly for electrodes of one manufacturer and model."
  },
  {
   "property": "C328",
   "status": "partial",
   "theorems": [
    "Verif.XmlSensor.C328_refuted",
    "Verif.XmlSensor.C328_known_partial",
    "Verif.XmlSensor.C328_blank_partial",
    "Verif.XmlSensor.C328_other_partial",
    "Verif.XmlSensor.C328_none_partial"
   ],
   "note": "Refuted: a type the library does not know, such as fluxgate, raises ValueError. Proved: the claim for the types it knows, Bartington becomes magnetometer, every other type raises, and without a type nothing of the sensor is read."
  },
  {
   "property": "C329",
   "status": "partial",
   "theorems": [
    "Verif.XmlSensor.C329_refuted",
    "Verif.XmlSensor.C329_trip_partial",
    "Verif.XmlSensor.C329_grows_partial",
    "Verif.XmlSensor.C329_other_partial"
   ],
   "note": "Refuted: the name is appended to the model. Proved: exactly what is read, that the model grows by a word each time, and which types raise ValueError."
  },
  {
   "property": "C330",
   "status": "proved",
   "theorems": [
    "Verif.XmlSensor.C330_again",
    "Verif.XmlSensor.C330_only"
   ],
   "note": "Proved for all sensors; only the type can change, and only one that is missing or Bartington."
  },
  {
   "property": "C331",
   "status": "partial",
   "theorems": [
    "Verif.XmlSensor.C331_refuted",
    "Verif.XmlSensor.C331_length_partial"
   ],
   "note": "Refuted: no description raises AttributeError, a blank one IndexError. Proved: exactly what happens."
  },
  {
   "property": "C332",
   "status": "partial",
   "theorems": [
    "Verif.NormFreq.C332_middle_partial",
    "Verif.NormFreq.C332_small_partial",
    "Verif.NormFreq.C332_refuted"
   ],
   "note": "Refuted: it is rounded to three decimals, so it is 0 for low frequencies. Proved: it is the rounded geometric mean of the band, which lies in the band, and 0 for bands below half a millihertz."
  },
  {
   "property": "C333",
   "status": "partial",
   "theorems": [
    "Verif.NormFreq.C333_zero_partial",
    "Verif.NormFreq.C333_refuted"
   ],
   "note": "Refuted: the response is made without frequencies. Proved: it is always 0, and found once frequencies are assigned."
  },
  {
   "property": "C334",
   "status": "partial",
   "theorems": [
    "Verif.NormFreq.C334_kept_partial",
    "Verif.NormFreq.C334_found_partial",
    "Verif.NormFreq.C334_refuted"
   ],
   "note": "Refuted: once found it is kept. Proved: it is kept whatever is assigned after; while it is 0 it is looked for; assigning 0 finds it again."
  },
  {
   "property": "C335",
   "status": "partial",
   "theorems": [
    "Verif.Schema.C335_refuted",
    "Verif.Schema.C335_optional_partial",
    "Verif.Schema.C335_given_partial",
    "Verif.Schema.C335_flips_partial"
   ],
   "note": "Refuted: the default of a required text without one is 'none' and None in turn (also proved). Proved for attributes that are not required and for defaults that are values where texts are not lists."
  },
  {
   "property": "C336",
   "status": "partial",
   "theorems": [
    "Verif.Schema.C336_refuted",
    "Verif.Schema.C336_boolean_partial",
    "Verif.Schema.C336_given_partial"
   ],
   "note": "Refuted: for required attributes that are true or false a variable is not bound, since the type is called 'boolean' and looked for as 'bool'. Proved for texts and numbers."
  },
  {
   "property": "C337",
   "status": "partial",
   "theorems": [
    "Verif.Schema.C337_refuted",
    "Verif.Schema.C337_optional_partial",
    "Verif.Schema.C337_required_partial"
   ],
   "note": "Refuted: defaults of attributes that are not required are dropped, always. Proved for required attributes."
  },
  {
   "property": "C338",
   "status": "partial",
   "theorems": [
    "Verif.Schema.C338_refuted",
    "Verif.Schema.C338_text_partial",
    "Verif.Schema.C338_whole_partial",
    "Verif.Schema.C338_lost_partial"
   ],
   "note": "Refuted: numbers for booleans stay numbers, also proved; texts for lists and dictionaries are lost. Proved for all texts."
  },
  {
   "property": "C339",
   "status": "partial",
   "theorems": [
    "Verif.Schema.C339_refuted",
    "Verif.Schema.C339_names_partial",
    "Verif.Schema.C339_found_partial"
   ],
   "note": "Refuted: blanks are taken off after the comparison. Proved for texts without blanks."
  },
  {
   "property": "C340",
   "status": "partial",
   "theorems": [
    "Verif.Schema.C340_refuted",
    "Verif.Schema.C340_line_partial"
   ],
   "note": "Refuted: options come back with quotes. Proved for attributes that are not required: exactly the quotes at the ends of options and aliases are added."
  },
  {
   "property": "C341",
   "status": "proved",
   "theorems": [
    "Verif.Schema.C341_keys",
    "Verif.Schema.C341_order"
   ],
   "note": ""
  },
  {
   "property": "C342",
   "status": "partial",
   "theorems": [
    "Verif.Schema.C342_refuted",
    "Verif.Schema.C342_missing_partial",
    "Verif.Schema.C342_same_partial"
   ],
   "note": "Refuted: the description returned for unknown names has no aliases and is never accepted. Proved for attributes that are not required."
  },
  {
   "property": "C343",
   "status": "proved",
   "theorems": [
    "Verif.Schema.C343_added",
    "Verif.Schema.C343_rest"
   ],
   "note": ""
  },
  {
   "property": "C344",
   "status": "partial",
   "theorems": [
    "Verif.Schema.C344_refuted",
    "Verif.Schema.C344_same_partial"
   ],
   "note": "Refuted: a required number with a vocabulary and no default is a text first and a number later. Proved for attributes that are not required, with a value as default, or texts without one."
  },
  {
   "property": "C345",
   "status": "partial",
   "theorems": [
    "Verif.MTime.C345_refuted",
    "Verif.MTime.C345_midnight_partial",
    "Verif.MTime.C345_zone_partial",
    "Verif.MTime.C345_limit_partial"
   ],
   "note": "Refuted: with a zone it is refused. Proved: without a zone if the next day is in 1900 to 2200; otherwise the limits of times are returned, also for times that could be represented."
  },
  {
   "property": "C346",
   "status": "partial",
   "theorems": [
    "Verif.MTime.C346_refuted",
    "Verif.MTime.C346_later_partial",
    "Verif.MTime.C346_refused_partial"
   ],
   "note": "Refuted: they are times of the next day, also proved; larger hours are refused."
  },
  {
   "property": "C347",
   "status": "partial",
   "theorems": [
    "Verif.MTime.C347_refuted",
    "Verif.MTime.C347_swapped_partial",
    "Verif.MTime.C347_refused_partial"
   ],
   "note": "Refuted: month and day are exchanged if that gives a date. Proved: exactly then, for 1900 to 2200 without a zone; refused if not."
  },
  {
   "property": "C348",
   "status": "partial",
   "theorems": [
    "Verif.MTime.C348_refuted",
    "Verif.MTime.C348_none_partial",
    "Verif.MTime.C348_refused_partial"
   ],
   "note": "Refuted: 'null' is refused, since the time put for it has a zone. Proved: which words are read, all others are refused."
  },
  {
   "property": "C349",
   "status": "proved",
   "theorems": [
    "Verif.MTime.C349_inside",
    "Verif.MTime.C349_limits"
   ],
   "note": ""
  },
  {
   "property": "C350",
   "status": "partial",
   "theorems": [
    "Verif.EmtfSite.C350_range_partial",
    "Verif.EmtfSite.C350_text_partial",
    "Verif.EmtfSite.C350_none_partial",
    "Verif.EmtfSite.C350_refuted"
   ],
   "note": "Refuted: it is 1980. Proved: ranges a-b are the first year, other texts are the year of the time that they are, without the element the year stays."
  },
  {
   "property": "C351",
   "status": "partial",
   "theorems": [
    "Verif.Nomen.C351_names_partial",
    "Verif.Nomen.C351_unwritten_partial",
    "Verif.Nomen.C351_refuted"
   ],
   "note": "Refuted: the default dictionary is shared, names written through one object are those of all later ones. Proved: the names are those of the default dictionary at that time; they are the standard ones if it was not written to."
  },
  {
   "property": "C352",
   "status": "partial",
   "theorems": [
    "Verif.Nomen.C352_added_partial",
    "Verif.Nomen.C352_full_partial",
    "Verif.Nomen.C352_refuted"
   ],
   "note": "Refuted: missing names are added to it. Proved: exactly these; complete dictionaries stay."
  },
  {
   "property": "C353",
   "status": "partial",
   "theorems": [
    "Verif.Nomen.C353_clean_partial",
    "Verif.Nomen.C353_written_partial",
    "Verif.Nomen.C353_refuted"
   ],
   "note": "Refuted: writing to the dictionary changes no names in use. Proved for all programs without writing and without exceptions, with shared dictionaries."
  },
  {
   "property": "C354",
   "status": "partial",
   "theorems": [
    "Verif.Nomen.C354_taken_partial",
    "Verif.Nomen.C354_refuted"
   ],
   "note": "Refuted: the names before the missing one are taken, and the dictionary is. Proved: exactly these."
  },
  {
   "property": "C355",
   "status": "partial",
   "theorems": [
    "Verif.Nomen.C355_clean_partial",
    "Verif.Nomen.C355_periods_partial",
    "Verif.Nomen.C355_refuted"
   ],
   "note": "Refuted: templates are kept by the items of the dictionary and made with the names in use, which can differ (C353). Proved for programs without writing and exceptions if names and periods are not both given; with periods the data set has the default names."
  },
  {
   "property": "C356",
   "status": "partial",
   "theorems": [
    "Verif.Nomen.C356_kept_partial",
    "Verif.Nomen.C356_renewed_partial",
    "Verif.Nomen.C356_refuted"
   ],
   "note": "Refuted: the data set stays as it was. Proved: a new data set has the names."
  },
  {
   "property": "C357",
   "status": "partial",
   "theorems": [
    "Verif.Nomen.C357_first_partial",
    "Verif.Nomen.C357_kept_partial",
    "Verif.Nomen.C357_refuted"
   ],
   "note": "Refuted: the inverse is kept from the first time on. Proved: the first time; later it never changes."
  },
  {
   "property": "C358",
   "status": "proved",
   "theorems": [
    "Verif.Nomen.C358_copy",
    "Verif.Nomen.C358_apart"
   ],
   "note": ""
  },
  {
   "property": "C359",
   "status": "partial",
   "theorems": [
    "Verif.EmtfRest.C359_forms_partial",
    "Verif.EmtfRest.C359_refuted"
   ],
   "note": "Refuted: with doi: before it, every doi: in the DOI is removed. Proved: without one in it, and for links always."
  },
  {
   "property": "C360",
   "status": "proved",
   "theorems": [
    "Verif.EmtfRest.C360_stable",
    "Verif.EmtfRest.C360_refused",
    "Verif.EmtfRest.C360_plain"
   ],
   "note": ""
  },
  {
   "property": "C361",
   "status": "partial",
   "theorems": [
    "Verif.EmtfRest.C361_read_partial",
    "Verif.EmtfRest.C361_data_partial",
    "Verif.EmtfRest.C361_absent_partial",
    "Verif.EmtfRest.C361_refuted"
   ],
   "note": "Refuted: without estimates (data without errors) reading the file raises TypeError. Proved: exactly then; other lists are read as written."
  },
  {
   "property": "C362",
   "status": "partial",
   "theorems": [
    "Verif.EmtfRest.C362_read_partial",
    "Verif.EmtfRest.C362_data_partial",
    "Verif.EmtfRest.C362_refuted"
   ],
   "note": "Refuted: for data that are zero reading the file raises TypeError. Proved: exactly then; other lists are read as written with symbols of units, or not at all if a symbol is not known."
  },
  {
   "property": "C363",
   "status": "partial",
   "theorems": [
    "Verif.EmtfRest.C363_iff_partial",
    "Verif.EmtfRest.C363_survey_partial",
    "Verif.EmtfRest.C363_refuted"
   ],
   "note": "Refuted: a citation without title, authors, year and survey DOI is read as None and refused. Proved: exactly then, also for the citation of a survey."
  },
  {
   "property": "C364",
   "status": "partial",
   "theorems": [
    "Verif.EmtfRest.C364_read_partial",
    "Verif.EmtfRest.C364_plain_partial",
    "Verif.EmtfRest.C364_refuted"
   ],
   "note": "Refuted: journal, volume, pages and the other DOI are not written. Proved: exactly what is read; plain texts, years and DOIs without & come back."
  },
  {
   "property": "C365",
   "status": "partial",
   "theorems": [
    "Verif.EmtfRest.C365_full_partial",
    "Verif.EmtfRest.C365_kept_partial",
    "Verif.EmtfRest.C365_refuted"
   ],
   "note": "Refuted: texts that the later file does not have stay. Proved: exactly these; with all texts there is no difference."
  },
  {
   "property": "C366",
   "status": "partial",
   "theorems": [
    "Verif.RunLists.C366_read_partial",
    "Verif.RunLists.C366_none_partial",
    "Verif.RunLists.C366_array_partial",
    "Verif.RunLists.C366_refuted"
   ],
   "note": "Refuted: an array with two or more names raises ValueError. Proved: lists always, texts unless there are no names (the empty text is one empty name) or the text is a word for none; exactly which arrays are refused."
  },
  {
   "property": "C367",
   "status": "partial",
   "theorems": [
    "Verif.RunLists.C367_first_partial",
    "Verif.RunLists.C367_refuted"
   ],
   "note": "Refuted: with an electric name the magnetic and auxiliary names are lost, since add_channel clears the lists. Proved: exactly the channels of the first list that is not empty."
  },
  {
   "property": "C368",
   "status": "partial",
   "theorems": [
    "Verif.RunLists.C368_after_partial",
    "Verif.RunLists.C368_refuted"
   ],
   "note": "Refuted: without a new name the list stays as given, so an empty list is held while the channels stay. Proved: exactly what is there afterwards."
  },
  {
   "property": "C369",
   "status": "partial",
   "theorems": [
    "Verif.RunLists.C369_iff_partial",
    "Verif.RunLists.C369_left_partial",
    "Verif.RunLists.C369_input_partial",
    "Verif.RunLists.C369_refuted"
   ],
   "note": "Refuted: the names before the one that is refused have channels. Proved: when names are refused, and what is left then."
  },
  {
   "property": "C370",
   "status": "partial",
   "theorems": [
    "Verif.RunLists.C370_index_partial",
    "Verif.RunLists.C370_refuted"
   ],
   "note": "Refuted: the index is one of the sorted names, channels are stored in the order of adding. Proved: it is the number of channels with smaller names."
  },
  {
   "property": "C371",
   "status": "partial",
   "theorems": [
    "Verif.ListFields.C371_int_partial",
    "Verif.ListFields.C371_range_partial",
    "Verif.ListFields.C371_float_partial",
    "Verif.ListFields.C371_inf_partial",
    "Verif.ListFields.C371_refuted"
   ],
   "note": "Refuted: 5.9 is held as 5, and -0.5 as 0. Proved: integers exactly; other numbers towards zero; infinite ones raise OverflowError."
  },
  {
   "property": "C372",
   "status": "partial",
   "theorems": [
    "Verif.ListFields.C372_text_partial",
    "Verif.ListFields.C372_given_partial",
    "Verif.ListFields.C372_total_partial",
    "Verif.ListFields.C372_refuted"
   ],
   "note": "Refuted: negative indices are left out silently. Proved: exactly these; texts never raise."
  },
  {
   "property": "C373",
   "status": "partial",
   "theorems": [
    "Verif.ListFields.C373_iff_partial",
    "Verif.ListFields.C373_list_partial",
    "Verif.ListFields.C373_refuted"
   ],
   "note": "Refuted: a name with a comma is two names. Proved: exactly then; lists are taken as they are."
  },
  {
   "property": "C374",
   "status": "partial",
   "theorems": [
    "Verif.FieldCache.C374_iff_partial",
    "Verif.FieldCache.C374_same_partial",
    "Verif.FieldCache.C374_off_partial",
    "Verif.FieldCache.C374_refuted"
   ],
   "note": "Refuted: the fingerprint has the fields of the class itself, while the file has those of its parts too: after an update of a part the old description is given. Proved: for any set of versions this is so if and only if equal fingerprints mean equal descriptions; so it is with one version, or without files."
  },
  {
   "property": "C375",
   "status": "partial",
   "theorems": [
    "Verif.FieldCache.C375_order_partial",
    "Verif.FieldCache.C375_refuted"
   ],
   "note": "Refuted: of two classes that have each other the second is held with an empty part. Proved for classes that are not made of themselves, over all histories."
  },
  {
   "property": "C376",
   "status": "proved",
   "theorems": [
    "Verif.FieldCache.C376_dotted",
    "Verif.FieldCache.C376_only",
    "Verif.FieldCache.C376_once",
    "Verif.FieldCache.C376_class"
   ],
   "note": "For names that are not empty, have no dot and are distinct, as those of attributes of a class are. Also for what a class that is asked for says."
  },
  {
   "property": "C377",
   "status": "partial",
   "theorems": [
    "Verif.EmtfWrite.C377_iff_partial",
    "Verif.EmtfWrite.C377_first_partial",
    "Verif.EmtfWrite.C377_refuted"
   ],
   "note": "Refuted: write removes the parts from the order of the object for ever. Proved: exactly which parts are written, over all histories; the claim for the first file."
  },
  {
   "property": "C378",
   "status": "proved",
   "theorems": [
    "Verif.EmtfWrite.C378_keys"
   ],
   "note": "All elements but these, in their order."
  },
  {
   "property": "C379",
   "status": "partial",
   "theorems": [
    "Verif.EmtfWrite.C379_iff_partial",
    "Verif.EmtfWrite.C379_near_partial",
    "Verif.EmtfWrite.C379_refuted"
   ],
   "note": "Refuted: the range has six digits and is rounded to the nearest, the periods have thirteen. Proved: exactly when it has them (rounding keeps the order), and the range to five parts of a million."
  },
  {
   "property": "C380",
   "status": "partial",
   "theorems": [
    "Verif.EmtfWrite.C380_read_partial",
    "Verif.EmtfWrite.C380_refuted"
   ],
   "note": "Refuted: write does not look at the periods, so periods given to an object leave the range as it was. Proved: after reading, whatever range the file says."
  },
  {
   "property": "C381",
   "status": "partial",
   "theorems": [
    "Verif.ZmmUse.C381_all_partial",
    "Verif.ZmmUse.C381_stay_partial",
    "Verif.ZmmUse.C381_which_partial",
    "Verif.ZmmUse.C381_order_partial",
    "Verif.ZmmUse.C381_tipper_partial",
    "Verif.ZmmUse.C381_impedance_partial",
    "Verif.ZmmUse.C381_number_partial",
    "Verif.ZmmUse.C381_refuted"
   ],
   "note": "Refuted: channels of a file read before stay, and one with the same number hides another one. Proved: the claim if the file has all channels of those before; exactly which channels are recorded."
  },
  {
   "property": "C382",
   "status": "partial",
   "theorems": [
    "Verif.ZmmUse.C382_half",
    "Verif.ZmmUse.C382_two",
    "Verif.ZmmUse.C382_some",
    "Verif.ZmmUse.C382_all_partial",
    "Verif.ZmmUse.C382_refuted"
   ],
   "note": "Refuted: the periods of files read before count too. Proved: the claim if the file has all periods of those before (the median does not depend on the order)."
  },
  {
   "property": "C383",
   "status": "proved",
   "theorems": [
    "Verif.ZmmUse.C383_levels",
    "Verif.ZmmUse.C383_unknown"
   ],
   "note": "For files in which no two periods have the same text."
  },
  {
   "property": "C384",
   "status": "proved",
   "theorems": [
    "Verif.Copies.C384_own",
    "Verif.Copies.C384_same"
   ],
   "note": "On a heap of objects: nothing the copy can reach was there before; interleaved assignments do not interfere."
  },
  {
   "property": "C385",
   "status": "partial",
   "theorems": [
    "Verif.Copies.C385_given_partial",
    "Verif.Copies.C385_type_partial",
    "Verif.Copies.C385_reference_partial",
    "Verif.Copies.C385_rebuilt_partial",
    "Verif.Copies.C385_refuted"
   ],
   "note": "Refuted: mth5_type of the object and an empty hdf5_reference are put over the update. Proved: all other names, exactly these two, and that an object with an HDF5 reference is rebuilt and drops names it does not have."
  },
  {
   "property": "C386",
   "status": "partial",
   "theorems": [
    "Verif.Copies.C386_top_partial",
    "Verif.Copies.C386_shared_partial",
    "Verif.Copies.C386_refuted"
   ],
   "note": "Refuted: parts are shared. Proved: attributes of the copy itself are its own, all others lead to the parts of the object."
  },
  {
   "property": "C387",
   "status": "partial",
   "theorems": [
    "Verif.Copies.C387_shared_partial",
    "Verif.Copies.C387_kept_partial",
    "Verif.Copies.C387_top_partial",
    "Verif.Copies.C387_refuted"
   ],
   "note": "Refuted: items are not copied. Proved: every item of b is the same object in both; the rest of a stays; the list of b stays."
  },
  {
   "property": "C388",
   "status": "partial",
   "theorems": [
    "Verif.EdiUse.C388_first_partial",
    "Verif.EdiUse.C388_new_partial",
    "Verif.EdiUse.C388_remote_partial",
    "Verif.EdiUse.C388_refuted"
   ],
   "note": "Refuted: a channel that differs from that of a file before is taken for a remote channel. Proved: a channel is that of the first file that has it, for ever; which line becomes the remote channel; the claim for channels no file before had."
  },
  {
   "property": "C389",
   "status": "partial",
   "theorems": [
    "Verif.EdiUse.C389_given_partial",
    "Verif.EdiUse.C389_new_partial",
    "Verif.EdiUse.C389_stays_partial",
    "Verif.EdiUse.C389_zero_partial",
    "Verif.EdiUse.C389_refuted"
   ],
   "note": "Refuted: a position read before stays, so that the reference is not asked. Proved: the claim for a header with a position and for objects without one; what is taken in the other cases."
  },
  {
   "property": "C390",
   "status": "partial",
   "theorems": [
    "Verif.EdiUse.C390_any_partial",
    "Verif.EdiUse.C390_refuted"
   ],
   "note": "Refuted: it is never unset. Proved: it is set if and only if one of the files read was in the Phoenix format."
  },
  {
   "property": "C391",
   "status": "partial",
   "theorems": [
    "Verif.AvgUse.C391_all_partial",
    "Verif.AvgUse.C391_main_partial",
    "Verif.AvgUse.C391_stays_partial",
    "Verif.AvgUse.C391_which_partial",
    "Verif.AvgUse.C391_refuted"
   ],
   "note": "Refuted: the component zxx of a file before stays, which decides where everything is taken from. Proved: the claim if the file has all components read before; the instrument is that of the last zxx read; which channels there are."
  },
  {
   "property": "C392",
   "status": "partial",
   "theorems": [
    "Verif.AvgUse.C392_iff_partial",
    "Verif.AvgUse.C392_refuted"
   ],
   "note": "Refuted: whether a component is there is asked of zxx always. Proved: over all histories, exactly when there is a run, as to components (errors about values within a component are not modelled)."
  },
  {
   "property": "C393",
   "status": "partial",
   "theorems": [
    "Verif.AvgUse.C393_horizontal_partial",
    "Verif.AvgUse.C393_hz_partial",
    "Verif.AvgUse.C393_refuted",
    "Verif.AvgUse.C393_one_partial"
   ],
   "note": "Refuted: hz is never given a value, since lines with commas are held as lists and a comma is looked for in them. Proved: this for all lines; the claim for hx and hy; what they are given from a line with one value."
  },
  {
   "property": "C394",
   "status": "partial",
   "theorems": [
    "Verif.JUse.C394_last_partial",
    "Verif.JUse.C394_given_partial",
    "Verif.JUse.C394_stays_partial",
    "Verif.JUse.C394_blocks_partial",
    "Verif.JUse.C394_refuted"
   ],
   "note": "Refuted: parameters the file does not give stay. Proved: a parameter is the last one given in any file read; the claim for parameters the file gives; blocks and angles are those of the file alone."
  },
  {
   "property": "C395",
   "status": "partial",
   "theorems": [
    "Verif.JUse.C395_data_partial",
    "Verif.JUse.C395_history_partial",
    "Verif.JUse.C395_mixed_partial",
    "Verif.JUse.C395_refuted",
    "Verif.JUse.C395_empty_partial"
   ],
   "note": "Refuted: header and station are those of the file that could not be read, data those of another. Proved: the data stay, over all histories they are those of the last file read to the end; what else is taken from such a file."
  },
  {
   "property": "C396",
   "status": "partial",
   "theorems": [
    "Verif.Standards.C396_iff_partial",
    "Verif.Standards.C396_default_partial",
    "Verif.Standards.C396_refuted"
   ],
   "note": "Refuted: attributes are missing if the first table is short. Proved: there are all lines if and only if the remainder of their number has room in the first table, then each once; always so with the defaults."
  },
  {
   "property": "C397",
   "status": "partial",
   "theorems": [
    "Verif.Standards.C397_times_partial",
    "Verif.Standards.C397_none_partial",
    "Verif.Standards.C397_refuted"
   ],
   "note": "Refuted: options are added to the stored descriptions. Proved: the dictionary after any number of calls; a dictionary without options stays."
  },
  {
   "property": "C398",
   "status": "partial",
   "theorems": [
    "Verif.Standards.C398_rows_partial",
    "Verif.Standards.C398_cut_partial",
    "Verif.Standards.C398_values_partial",
    "Verif.Standards.C398_same_partial",
    "Verif.Standards.C398_refuted"
   ],
   "note": "Refuted: texts are cut to the widths of columns. Proved: number and order of rows; a value is kept if and only if it is short enough, else it is its beginning; when two attributes have the same name."
  },
  {
   "property": "C399",
   "status": "partial",
   "theorems": [
    "Verif.Standards.C399_iff_partial",
    "Verif.Standards.C399_own_partial",
    "Verif.Standards.C399_valid_partial",
    "Verif.Standards.C399_refuted"
   ],
   "note": "Refuted: fields after one that is not valid are missing. Proved: exactly which entries there are; they are those of their classes if names are different; classes whose fields are valid are complete whatever the others. Validation itself is in Schema."
  },
  {
   "property": "C400",
   "status": "partial",
   "theorems": [
    "Verif.Standards.C400_file_partial",
    "Verif.Standards.C400_error_partial",
    "Verif.Standards.C400_form_partial",
    "Verif.Standards.C400_refuted"
   ],
   "note": "Refuted: with arrays no file is written, and other forms without a file raise. Proved: when a file is written, when an error is raised, and that the form is right otherwise."
  },
  {
   "property": "C401",
   "status": "partial",
   "theorems": [
    "Verif.StdFields.C401_iff_partial",
    "Verif.StdFields.C401_all_partial",
    "Verif.StdFields.C401_optional_partial",
    "Verif.StdFields.C401_refuted"
   ],
   "note": "Refuted: names of members are shown, but values are taken, for instance for release states. Proved: when each option is taken, when all that is taken is shown, and that fields that may be None show none."
  },
  {
   "property": "C402",
   "status": "proved",
   "theorems": [
    "Verif.StdFields.C402_none",
    "Verif.StdFields.C402_first",
    "Verif.StdFields.C402_enum"
   ],
   "note": "For the annotations that occur, with names of classes in lower case."
  },
  {
   "property": "C403",
   "status": "partial",
   "theorems": [
    "Verif.EdiKept.C403_error_partial",
    "Verif.EdiKept.C403_partial",
    "Verif.EdiKept.C403_kind_partial",
    "Verif.EdiKept.C403_last_partial",
    "Verif.EdiKept.C403_refuted"
   ],
   "note": "Refuted: covariances of spectra stay when impedances are read, angles stay when spectra are read. Proved: each of the data is that of the last file that gives it, for all sequences of files whose sections say what they are, and errors do not depend on files before."
  },
  {
   "property": "C404",
   "status": "partial",
   "theorems": [
    "Verif.EdiKept.C404_none_partial",
    "Verif.EdiKept.C404_section_partial",
    "Verif.EdiKept.C404_open_partial",
    "Verif.EdiKept.C404_same_partial",
    "Verif.EdiKept.C404_refuted"
   ],
   "note": "Refuted: kind and first line of data stay from the file before. Proved: where the data begin and what they are taken for, in each case."
  },
  {
   "property": "C405",
   "status": "partial",
   "theorems": [
    "Verif.EdiKept.C405_partial",
    "Verif.EdiKept.C405_number_partial",
    "Verif.EdiKept.C405_refuted"
   ],
   "note": "Refuted: the order of channels is fixed by their number alone. Proved: the columns are right if and only if the section has that order; other numbers of channels cannot be read."
  },
  {
   "property": "C406",
   "status": "partial",
   "theorems": [
    "Verif.ToZmm.C406_iff_partial",
    "Verif.ToZmm.C406_changed_partial",
    "Verif.ToZmm.C406_rest_partial",
    "Verif.ToZmm.C406_refuted"
   ],
   "note": "Refuted: a first run without channels is replaced by a new one, with all it had. Proved: exactly when the runs stay, what they are otherwise, and that data and names stay."
  },
  {
   "property": "C407",
   "status": "partial",
   "theorems": [
    "Verif.ToZmm.C407_recorded_partial",
    "Verif.ToZmm.C407_again_partial",
    "Verif.ToZmm.C407_data_partial",
    "Verif.ToZmm.C407_same_partial",
    "Verif.ToZmm.C407_refuted"
   ],
   "note": "Refuted: with names of channels other than the standard ones a second conversion raises KeyError, and tippers assigned after a first conversion are left out of later ones. Proved: exactly when a second conversion succeeds and what it gives; no difference if the first run has channels."
  },
  {
   "property": "C408",
   "status": "partial",
   "theorems": [
    "Verif.TsStation.C408_field_partial",
    "Verif.TsStation.C408_says_partial",
    "Verif.TsStation.C408_stays_partial",
    "Verif.TsStation.C408_others_partial",
    "Verif.TsStation.C408_refuted"
   ],
   "note": "Refuted: values that are None or empty are not written, so what was there stays. Proved: what each field is afterwards; all values that say something arrive; fields of the transfer function stay."
  },
  {
   "property": "C409",
   "status": "proved",
   "theorems": [
    "Verif.TsStation.C409_values",
    "Verif.TsStation.C409_none",
    "Verif.TsStation.C409_back"
   ],
   "note": "As in Metadata, without runs and comments with an author."
  },
  {
   "property": "C410",
   "status": "partial",
   "theorems": [
    "Verif.RespUnits.C410_assigned_partial",
    "Verif.RespUnits.C410_taken_partial",
    "Verif.RespUnits.C410_partial",
    "Verif.RespUnits.C410_empty_partial",
    "Verif.RespUnits.C410_units_partial",
    "Verif.RespUnits.C410_refuted"
   ],
   "note": "Refuted: a filter added to the list in place is not looked at. Proved: the claim for all histories of assignments; after each assignment that succeeds the units are right; which lists are taken and that an error changes nothing; an empty list leaves the units; when units assigned are kept."
  },
  {
   "property": "C411",
   "status": "partial",
   "theorems": [
    "Verif.FieldShare.C411_names_partial",
    "Verif.FieldShare.C411_apart_partial",
    "Verif.FieldShare.C411_shared_partial",
    "Verif.FieldShare.C411_emptied_partial",
    "Verif.FieldShare.C411_refuted"
   ],
   "note": "Refuted: the dictionary is that of the object, but the summaries in it are shared by all objects of the class and of classes with fields of the class. Proved: the names stay; the claim for summaries that are not shared, and if none is changed; when a summary that is changed is seen; a dictionary that was emptied is made anew."
  },
  {
   "property": "C412",
   "status": "partial",
   "theorems": [
    "Verif.WebLinks.C412_emptied_partial",
    "Verif.WebLinks.C412_taken_partial",
    "Verif.WebLinks.C412_history_partial",
    "Verif.WebLinks.C412_refuted"
   ],
   "note": "Refuted: the validator looks for the link in info.data, which has the other fields only (trusted: pydantic). Proved: empty values always empty the link; what is taken and what is an error; the link after any history."
  },
  {
   "property": "C413",
   "status": "partial",
   "theorems": [
    "Verif.WebLinks.C413_partial",
    "Verif.WebLinks.C413_nulls_partial",
    "Verif.WebLinks.C413_refuted"
   ],
   "note": "Refuted: values of other types become None. Proved: the claim for texts, links and None; which texts say nothing."
  },
  {
   "property": "C414",
   "status": "proved",
   "theorems": [
    "Verif.PzNorm.C414_value",
    "Verif.PzNorm.C414_none",
    "Verif.PzNorm.C414_between",
    "Verif.PzNorm.C414_flat",
    "Verif.PzNorm.C414_whole",
    "Verif.PzNorm.C414_one"
   ],
   "note": "Trusted: numpy; amplitudes finite. The place of the band is proved below 2000 increasing frequencies (no decimation of the frequencies)."
  }
 ]
}
