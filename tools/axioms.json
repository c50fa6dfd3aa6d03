{
"Verif.Applied.C48_distinct_partial": [
"Classical.choice",
"Quot.sound",
"propext"
],
"Verif.Applied.C48_duplicate_refuted": [
"Classical.choice",
"Quot.sound",
"propext"
],
"Verif.Applied.C48_found_partial": [
"Classical.choice",
"Quot.sound",
"propext"
],
"Verif.Applied.C48_object_partial": [
"Quot.sound",
"propext"
],
"Verif.Applied.C48_ordered_by_name_partial": [
"Classical.choice",
"Quot.sound",
"propext"
],
"Verif.Applied.C48_ordered_partial": [
"Classical.choice",
"Quot.sound",
"propext"
],
"Verif.Applied.C48_refuted": [
"Classical.choice",
"Quot.sound",
"propext"
],
"Verif.Applied.C95_keep": [
"Quot.sound",
"propext"
],
"Verif.Applied.C95_remove": [
"Quot.sound",
"propext"
],
"Verif.Applied.C95_reset": [
"Quot.sound",
"propext"
],
"Verif.AttrNames.C308_read": [
"Classical.choice",
"Quot.sound",
"propext"
],
"Verif.AttrNames.C308_rejected": [
"Classical.choice",
"Quot.sound",
"propext"
],
"Verif.AttrNames.C309_others": [
"Classical.choice",
"Quot.sound",
"propext"
],
"Verif.AttrNames.C310_refuted": [
"propext"
],
"Verif.AttrNames.C310_way_partial": [
"Quot.sound",
"propext"
],
"Verif.AttrNames.C311_cases_partial": [
"Classical.choice",
"Quot.sound",
"propext"
],
"Verif.AttrNames.C311_refuted": [
"Classical.choice",
"Quot.sound",
"propext"
],
"Verif.AttrNames.C312_helper_partial": [
"Classical.choice",
"Quot.sound",
"propext"
],
"Verif.AttrNames.C312_nothing_partial": [],
"Verif.AttrNames.C312_refuted": [
"propext"
],
"Verif.AttrNames.C313_one_partial": [
"Classical.choice",
"Quot.sound",
"propext"
],
"Verif.AttrNames.C313_refuted": [
"Quot.sound",
"propext"
],
"Verif.Aurora.C100_appends_partial": [
"Classical.choice",
"Quot.sound",
"propext"
],
"Verif.Aurora.C100_needs_local": [
"Classical.choice",
"Quot.sound",
"propext"
],
"Verif.Aurora.C100_refuted": [
"Quot.sound",
"propext"
],
"Verif.Aurora.C100_round_trip_partial": [
"Classical.choice",
"Quot.sound",
"propext"
],
"Verif.Aurora.C103_get": [
"Quot.sound",
"propext"
],
"Verif.Aurora.C65_periods": [
"Classical.choice",
"Quot.sound",
"propext"
],
"Verif.Aurora.C65_refuted": [
"Quot.sound",
"propext"
],
"Verif.Aurora.C65_round_trip_partial": [
"Classical.choice",
"Quot.sound",
"propext"
],
"Verif.Aurora.C66_accepts": [
"Classical.choice",
"Quot.sound",
"propext"
],
"Verif.Aurora.C66_channels": [
"Classical.choice",
"Quot.sound",
"propext"
],
"Verif.Aurora.C66_construct": [
"Classical.choice",
"Quot.sound",
"propext"
],
"Verif.Aurora.C66_distinct": [
"Classical.choice",
"Quot.sound",
"propext"
],
"Verif.Aurora.C66_explicit_kept": [
"Classical.choice",
"Quot.sound",
"propext"
],
"Verif.Aurora.C66_field": [
"Classical.choice",
"Quot.sound",
"propext"
],
"Verif.Aurora.C66_history": [
"Classical.choice",
"Quot.sound",
"propext"
],
"Verif.Aurora.C66_keyword": [
"Classical.choice",
"Quot.sound",
"propext"
],
"Verif.Aurora.C66_none": [
"Classical.choice",
"Quot.sound",
"propext"
],
"Verif.Aurora.C66_refuted": [
"Classical.choice",
"Quot.sound",
"propext"
],
"Verif.AvgUse.C391_all_partial": [
"Classical.choice",
"Quot.sound",
"propext"
],
"Verif.AvgUse.C391_main_partial": [
"Quot.sound",
"propext"
],
"Verif.AvgUse.C391_refuted": [
"propext"
],
"Verif.AvgUse.C391_stays_partial": [
"Quot.sound",
"propext"
],
"Verif.AvgUse.C391_which_partial": [
"propext"
],
"Verif.AvgUse.C392_iff_partial": [
"Classical.choice",
"Quot.sound",
"propext"
],
"Verif.AvgUse.C392_refuted": [
"propext"
],
"Verif.AvgUse.C393_horizontal_partial": [
"Classical.choice",
"Quot.sound",
"propext"
],
"Verif.AvgUse.C393_hz_partial": [
"Classical.choice",
"Quot.sound",
"propext"
],
"Verif.AvgUse.C393_one_partial": [
"propext"
],
"Verif.AvgUse.C393_refuted": [
"Classical.choice",
"Quot.sound",
"propext"
],
"Verif.ChanFilt.C291_example": [
"Classical.choice",
"Quot.sound",
"propext"
],
"Verif.ChanFilt.C291_first_partial": [
"Classical.choice",
"Quot.sound",
"propext"
],
"Verif.ChanFilt.C291_iff_partial": [
"Classical.choice",
"Quot.sound",
"propext"
],
"Verif.ChanFilt.C291_reached": [
"Classical.choice",
"Quot.sound",
"propext"
],
"Verif.ChanFilt.C291_refuted": [
"Classical.choice",
"Quot.sound",
"propext"
],
"Verif.ChanFilt.C292_example": [
"Classical.choice",
"Quot.sound",
"propext"
],
"Verif.ChanFilt.C292_kept_partial": [
"Classical.choice",
"Quot.sound",
"propext"
],
"Verif.ChanFilt.C292_refuted": [
"Classical.choice",
"Quot.sound",
"propext"
],
"Verif.ChanFilt.C292_text_partial": [
"Classical.choice",
"Quot.sound",
"propext"
],
"Verif.ChanFilt.C293_again_partial": [
"Classical.choice",
"Quot.sound",
"propext"
],
"Verif.ChanFilt.C293_example": [
"Classical.choice",
"Quot.sound",
"propext"
],
"Verif.ChanFilt.C293_refuted": [
"Classical.choice",
"Quot.sound",
"propext"
],
"Verif.ChanFilt.C293_slash_partial": [
"Classical.choice",
"Quot.sound",
"propext"
],
"Verif.ChanFilt.C294_empty_partial": [
"Classical.choice",
"Quot.sound",
"propext"
],
"Verif.ChanFilt.C294_example": [
"Classical.choice",
"Quot.sound",
"propext"
],
"Verif.ChanFilt.C294_plain_partial": [
"Classical.choice",
"Quot.sound",
"propext"
],
"Verif.ChanFilt.C294_refuted": [
"Classical.choice",
"Quot.sound",
"propext"
],
"Verif.ChanFilt.C294_text_partial": [
"Classical.choice",
"Quot.sound",
"propext"
],
"Verif.ChanFilt.C295_example": [
"Classical.choice",
"Quot.sound",
"propext"
],
"Verif.ChanFilt.C295_lists": [
"Classical.choice",
"Quot.sound",
"propext"
],
"Verif.ChanFilt.C295_texts": [
"Classical.choice",
"Quot.sound",
"propext"
],
"Verif.ChanFilt.C296_example": [
"Classical.choice",
"Quot.sound",
"propext"
],
"Verif.ChanFilt.C296_length_partial": [
"Classical.choice",
"Quot.sound",
"propext"
],
"Verif.ChanFilt.C296_one_partial": [
"Classical.choice",
"Quot.sound",
"propext"
],
"Verif.ChanFilt.C296_refuted": [
"Classical.choice",
"Quot.sound",
"propext"
],
"Verif.Comment.C109_comments_partial": [
"propext"
],
"Verif.Comment.C109_own_string_partial": [
"Classical.choice",
"Quot.sound",
"propext"
],
"Verif.Comment.C109_refuted": [
"propext"
],
"Verif.Comment.C109_string_partial": [
"propext"
],
"Verif.Comment.C110_no_bar": [
"Classical.choice",
"Quot.sound",
"propext"
],
"Verif.Comment.C110_partial": [
"Classical.choice",
"Quot.sound",
"propext"
],
"Verif.Comment.C110_refuted": [
"Classical.choice",
"Quot.sound",
"propext"
],
"Verif.Comment.C110_required_partial": [
"Classical.choice",
"Quot.sound",
"propext"
],
"Verif.Comment.C111_partial": [
"propext"
],
"Verif.Comment.C111_refuted": [
"propext"
],
"Verif.Comment.C70_bad_time_partial": [
"Classical.choice",
"Quot.sound",
"propext"
],
"Verif.Comment.C70_format_partial": [
"propext"
],
"Verif.Comment.C70_iff_partial": [
"Classical.choice",
"Quot.sound",
"propext"
],
"Verif.Comment.C70_refuted": [
"Classical.choice",
"Quot.sound",
"propext"
],
"Verif.Comment.C70_stamped_partial": [
"Classical.choice",
"Quot.sound",
"propext"
],
"Verif.Copies.C384_own": [
"Classical.choice",
"Quot.sound",
"propext"
],
"Verif.Copies.C384_same": [
"Quot.sound",
"propext"
],
"Verif.Copies.C385_given_partial": [
"Quot.sound",
"propext"
],
"Verif.Copies.C385_rebuilt_partial": [
"Classical.choice",
"Quot.sound",
"propext"
],
"Verif.Copies.C385_reference_partial": [
"Quot.sound",
"propext"
],
"Verif.Copies.C385_refuted": [
"propext"
],
"Verif.Copies.C385_type_partial": [
"Quot.sound",
"propext"
],
"Verif.Copies.C386_refuted": [
"propext"
],
"Verif.Copies.C386_shared_partial": [
"Quot.sound",
"propext"
],
"Verif.Copies.C386_top_partial": [
"Classical.choice",
"Quot.sound",
"propext"
],
"Verif.Copies.C387_kept_partial": [
"Classical.choice",
"Quot.sound",
"propext"
],
"Verif.Copies.C387_refuted": [
"propext"
],
"Verif.Copies.C387_shared_partial": [
"Classical.choice",
"Quot.sound",
"propext"
],
"Verif.Copies.C387_top_partial": [
"Classical.choice",
"Quot.sound",
"propext"
],
"Verif.Dicts.C11_structure_flatten": [
"Quot.sound",
"propext"
],
"Verif.Dicts.C12_refuted": [
"Classical.choice",
"Quot.sound",
"propext"
],
"Verif.Dicts.C12_separator_partial": [
"Quot.sound",
"propext"
],
"Verif.Dicts.C13_flatten_structure": [
"Quot.sound",
"propext"
],
"Verif.Dicts.C13_prefix_raises": [
"Classical.choice",
"Quot.sound",
"propext"
],
"Verif.EdiData.C134_partial": [
"Classical.choice",
"Quot.sound",
"propext"
],
"Verif.EdiData.C134_read_partial": [
"Classical.choice",
"Quot.sound",
"propext"
],
"Verif.EdiData.C134_refuted": [
"Classical.choice",
"Quot.sound",
"propext"
],
"Verif.EdiData.C134_single_refuted": [
"Classical.choice",
"Quot.sound",
"propext"
],
"Verif.EdiData.C140_blocks": [
"Classical.choice",
"Quot.sound",
"propext"
],
"Verif.EdiData.C140_read": [
"Classical.choice",
"Quot.sound",
"propext"
],
"Verif.EdiGeometry.C314_electrodes": [
"Classical.choice",
"Quot.sound",
"propext"
],
"Verif.EdiGeometry.C315_polar": [
"Classical.choice",
"Quot.sound",
"propext"
],
"Verif.EdiGeometry.C316_refuted": [
"Classical.choice",
"Quot.sound",
"propext"
],
"Verif.EdiGeometry.C316_same_partial": [
"Classical.choice",
"Quot.sound",
"propext"
],
"Verif.EdiGeometry.C317_read_partial": [
"Classical.choice",
"Quot.sound",
"propext"
],
"Verif.EdiGeometry.C317_refuted": [
"Classical.choice",
"Quot.sound",
"propext"
],
"Verif.EdiGeometry.C317_tilt_partial": [
"Classical.choice",
"Quot.sound",
"propext"
],
"Verif.EdiGeometry.C318_only_partial": [
"Classical.choice",
"Quot.sound",
"propext"
],
"Verif.EdiGeometry.C318_refuted": [
"Classical.choice",
"Quot.sound",
"propext"
],
"Verif.EdiGeometry.C319_b_partial": [
"Classical.choice",
"Quot.sound",
"propext"
],
"Verif.EdiGeometry.C319_iff_partial": [
"Classical.choice",
"Quot.sound",
"propext"
],
"Verif.EdiGeometry.C319_refuted": [
"Classical.choice",
"Quot.sound",
"propext"
],
"Verif.EdiInfo.C200_info_partial": [
"Classical.choice",
"Quot.sound",
"propext"
],
"Verif.EdiInfo.C200_refuted": [
"Classical.choice",
"Quot.sound",
"propext"
],
"Verif.EdiInfo.C201_refuted": [
"Classical.choice",
"Quot.sound",
"propext"
],
"Verif.EdiInfo.C201_stable_partial": [
"Classical.choice",
"Quot.sound",
"propext"
],
"Verif.EdiInfo.C202_kept_partial": [
"Classical.choice",
"Quot.sound",
"propext"
],
"Verif.EdiInfo.C202_refuted": [
"Classical.choice",
"Quot.sound",
"propext"
],
"Verif.EdiInfo.C203_columns_partial": [
"Classical.choice",
"Quot.sound",
"propext"
],
"Verif.EdiInfo.C203_refuted": [
"Classical.choice",
"Quot.sound",
"propext"
],
"Verif.EdiInfo.C204_names_partial": [
"Classical.choice",
"Quot.sound",
"propext"
],
"Verif.EdiInfo.C204_refuted": [
"Classical.choice",
"Quot.sound",
"propext"
],
"Verif.EdiInfo.C204_sensors": [
"Classical.choice",
"Quot.sound",
"propext"
],
"Verif.EdiInfo.C204_voltages": [
"Classical.choice",
"Quot.sound",
"propext"
],
"Verif.EdiInfo.C205_filed_partial": [
"Classical.choice",
"Quot.sound",
"propext"
],
"Verif.EdiInfo.C205_refuted": [
"Classical.choice",
"Quot.sound",
"propext"
],
"Verif.EdiInfo.C206_refuted": [
"Classical.choice",
"Quot.sound",
"propext"
],
"Verif.EdiInfo.C206_units_partial": [
"Classical.choice",
"Quot.sound",
"propext"
],
"Verif.EdiKept.C403_error_partial": [
"Classical.choice",
"Quot.sound",
"propext"
],
"Verif.EdiKept.C403_kind_partial": [
"Classical.choice",
"Quot.sound",
"propext"
],
"Verif.EdiKept.C403_last_partial": [
"Classical.choice",
"Quot.sound",
"propext"
],
"Verif.EdiKept.C403_partial": [
"Classical.choice",
"Quot.sound",
"propext"
],
"Verif.EdiKept.C403_refuted": [
"Classical.choice",
"Quot.sound",
"propext"
],
"Verif.EdiKept.C404_none_partial": [
"Classical.choice",
"Quot.sound",
"propext"
],
"Verif.EdiKept.C404_open_partial": [
"Classical.choice",
"Quot.sound",
"propext"
],
"Verif.EdiKept.C404_refuted": [
"Classical.choice",
"Quot.sound",
"propext"
],
"Verif.EdiKept.C404_same_partial": [
"Classical.choice",
"Quot.sound",
"propext"
],
"Verif.EdiKept.C404_section_partial": [
"Classical.choice",
"Quot.sound",
"propext"
],
"Verif.EdiKept.C405_number_partial": [
"Classical.choice",
"Quot.sound",
"propext"
],
"Verif.EdiKept.C405_partial": [
"Classical.choice",
"Quot.sound",
"propext"
],
"Verif.EdiKept.C405_refuted": [
"Classical.choice",
"Quot.sound",
"propext"
],
"Verif.EdiMeta.C192_declination_partial": [
"Classical.choice",
"Quot.sound",
"propext"
],
"Verif.EdiMeta.C192_partial": [
"Classical.choice",
"Quot.sound",
"propext"
],
"Verif.EdiMeta.C192_refuted": [
"Classical.choice",
"Quot.sound",
"propext"
],
"Verif.EdiMeta.C192_signs_partial": [
"Classical.choice",
"Quot.sound",
"propext"
],
"Verif.EdiMeta.C193_b_refuted": [
"Classical.choice",
"Quot.sound",
"propext"
],
"Verif.EdiMeta.C193_partial": [
"Classical.choice",
"Quot.sound",
"propext"
],
"Verif.EdiMeta.C193_refuted": [
"Classical.choice",
"Quot.sound",
"propext"
],
"Verif.EdiMeta.C194_partial": [
"Classical.choice",
"Quot.sound",
"propext"
],
"Verif.EdiMeta.C194_refuted": [
"Classical.choice",
"Quot.sound",
"propext"
],
"Verif.EdiMeta.C195_partial": [
"Classical.choice",
"Quot.sound",
"propext"
],
"Verif.EdiMeta.C195_refuted": [
"Classical.choice",
"Quot.sound",
"propext"
],
"Verif.EdiMeta.C196_kept_partial": [
"Classical.choice",
"Quot.sound",
"propext"
],
"Verif.EdiMeta.C196_order_partial": [
"Classical.choice",
"Quot.sound",
"propext"
],
"Verif.EdiMeta.C196_partial": [
"Classical.choice",
"Quot.sound",
"propext"
],
"Verif.EdiMeta.C196_refuted": [
"Classical.choice",
"Quot.sound",
"propext"
],
"Verif.EdiMeta.C197_partial": [
"Classical.choice",
"Quot.sound",
"propext"
],
"Verif.EdiMeta.C197_refuted": [
"Classical.choice",
"Quot.sound",
"propext"
],
"Verif.EdiMeta.C197_spectra_partial": [
"Classical.choice",
"Quot.sound",
"propext"
],
"Verif.EdiMeta.C197_type_partial": [
"Classical.choice",
"Quot.sound",
"propext"
],
"Verif.EdiMeta.C197_values_partial": [
"Classical.choice",
"Quot.sound",
"propext"
],
"Verif.EdiMeta.C198_match": [
"Classical.choice",
"Quot.sound",
"propext"
],
"Verif.EdiMeta.C199_partial": [
"Classical.choice",
"Quot.sound",
"propext"
],
"Verif.EdiMeta.C199_refuted": [
"Classical.choice",
"Quot.sound",
"propext"
],
"Verif.EdiRho.C133_error_partial": [
"Classical.choice",
"Quot.sound",
"propext"
],
"Verif.EdiRho.C133_general_partial": [
"Classical.choice",
"Quot.sound",
"propext"
],
"Verif.EdiRho.C133_kept_partial": [
"Classical.choice",
"Quot.sound",
"propext"
],
"Verif.EdiRho.C133_partial": [
"Classical.choice",
"Quot.sound",
"propext"
],
"Verif.EdiRho.C133_refuted": [
"Classical.choice",
"Quot.sound",
"propext"
],
"Verif.EdiRho.C133_yx_refuted": [
"Classical.choice",
"Quot.sound",
"propext"
],
"Verif.EdiSpectra.C131_exact_partial": [
"Classical.choice",
"Quot.sound",
"propext"
],
"Verif.EdiSpectra.C131_partial": [
"Classical.choice",
"Quot.sound",
"propext"
],
"Verif.EdiSpectra.C131_refuted": [
"Classical.choice",
"Quot.sound",
"propext"
],
"Verif.EdiSpectra.C132_partial": [
"Classical.choice",
"Quot.sound",
"propext"
],
"Verif.EdiSpectra.C132_refuted": [
"Classical.choice",
"Quot.sound",
"propext"
],
"Verif.EdiStation.C217_attributes_partial": [
"Classical.choice",
"Quot.sound",
"propext"
],
"Verif.EdiStation.C217_refuted": [
"Classical.choice",
"Quot.sound",
"propext"
],
"Verif.EdiStation.C218_parameters_partial": [
"Classical.choice",
"Quot.sound",
"propext"
],
"Verif.EdiStation.C218_refuted": [
"Classical.choice",
"Quot.sound",
"propext"
],
"Verif.EdiStation.C219_refuted": [
"Classical.choice",
"Quot.sound",
"propext"
],
"Verif.EdiStation.C219_runs_partial": [
"Classical.choice",
"Quot.sound",
"propext"
],
"Verif.EdiStation.C220_place_partial": [
"Classical.choice",
"Quot.sound",
"propext"
],
"Verif.EdiStation.C220_refuted": [
"Classical.choice",
"Quot.sound",
"propext"
],
"Verif.EdiStation.C221_provenance_partial": [
"Classical.choice",
"Quot.sound",
"propext"
],
"Verif.EdiStation.C221_refuted": [
"Classical.choice",
"Quot.sound",
"propext"
],
"Verif.EdiStation.C222_parameter": [
"Classical.choice",
"Quot.sound",
"propext"
],
"Verif.EdiStation.C222_refuted": [
"Classical.choice",
"Quot.sound",
"propext"
],
"Verif.EdiStation.C222_succeeds_partial": [
"Classical.choice",
"Quot.sound",
"propext"
],
"Verif.EdiStation.C223_electric_partial": [
"Classical.choice",
"Quot.sound",
"propext"
],
"Verif.EdiStation.C223_refuted": [
"Classical.choice",
"Quot.sound",
"propext"
],
"Verif.EdiStation.C224_magnetic_partial": [
"Classical.choice",
"Quot.sound",
"propext"
],
"Verif.EdiStation.C224_refuted": [
"Classical.choice",
"Quot.sound",
"propext"
],
"Verif.EdiStation.C224_sensor_refuted": [
"Classical.choice",
"Quot.sound",
"propext"
],
"Verif.EdiStation.C224_type": [
"Classical.choice",
"Quot.sound",
"propext"
],
"Verif.EdiStation.C225_refuted": [
"Classical.choice",
"Quot.sound",
"propext"
],
"Verif.EdiStation.C225_survey_partial": [
"Classical.choice",
"Quot.sound",
"propext"
],
"Verif.EdiUse.C388_first_partial": [
"Quot.sound",
"propext"
],
"Verif.EdiUse.C388_new_partial": [
"Quot.sound",
"propext"
],
"Verif.EdiUse.C388_refuted": [
"Classical.choice",
"Quot.sound",
"propext"
],
"Verif.EdiUse.C388_remote_partial": [
"Quot.sound",
"propext"
],
"Verif.EdiUse.C389_given_partial": [
"Quot.sound",
"propext"
],
"Verif.EdiUse.C389_new_partial": [
"Quot.sound",
"propext"
],
"Verif.EdiUse.C389_refuted": [
"Classical.choice",
"Quot.sound",
"propext"
],
"Verif.EdiUse.C389_stays_partial": [
"Quot.sound",
"propext"
],
"Verif.EdiUse.C389_zero_partial": [
"Quot.sound",
"propext"
],
"Verif.EdiUse.C390_any_partial": [
"Quot.sound",
"propext"
],
"Verif.EdiUse.C390_refuted": [
"Classical.choice",
"Quot.sound",
"propext"
],
"Verif.EmtfBlocks.C275_files_partial": [
"Classical.choice",
"Quot.sound",
"propext"
],
"Verif.EmtfBlocks.C275_new_partial": [
"Classical.choice",
"Quot.sound",
"propext"
],
"Verif.EmtfBlocks.C275_read_partial": [
"Classical.choice",
"Quot.sound",
"propext"
],
"Verif.EmtfBlocks.C275_refuted": [
"Classical.choice",
"Quot.sound",
"propext"
],
"Verif.EmtfBlocks.C276_first_partial": [
"Classical.choice",
"Quot.sound",
"propext"
],
"Verif.EmtfBlocks.C276_gone_partial": [
"Classical.choice",
"Quot.sound",
"propext"
],
"Verif.EmtfBlocks.C276_refuted": [
"Classical.choice",
"Quot.sound",
"propext"
],
"Verif.EmtfBlocks.C276_writes_partial": [
"Classical.choice",
"Quot.sound",
"propext"
],
"Verif.EmtfBlocks.C277_absent_partial": [
"Classical.choice",
"Quot.sound",
"propext"
],
"Verif.EmtfBlocks.C277_info_partial": [
"Classical.choice",
"Quot.sound",
"propext"
],
"Verif.EmtfBlocks.C277_refuted": [
"Classical.choice",
"Quot.sound",
"propext"
],
"Verif.EmtfBlocks.C277_silent_partial": [
"Classical.choice",
"Quot.sound",
"propext"
],
"Verif.EmtfBlocks.C277_writable_partial": [
"Classical.choice",
"Quot.sound",
"propext"
],
"Verif.EmtfData.C176_file": [
"Classical.choice",
"Quot.sound",
"propext"
],
"Verif.EmtfData.C176_partial": [
"Classical.choice",
"Quot.sound",
"propext"
],
"Verif.EmtfData.C176_refuted": [
"Classical.choice",
"Quot.sound",
"propext"
],
"Verif.EmtfData.C176_single": [
"Classical.choice",
"Quot.sound",
"propext"
],
"Verif.EmtfData.C177_partial": [
"Classical.choice",
"Quot.sound",
"propext"
],
"Verif.EmtfData.C177_refuted": [
"Classical.choice",
"Quot.sound",
"propext"
],
"Verif.EmtfData.C177_sentinel": [
"Classical.choice",
"Quot.sound",
"propext"
],
"Verif.EmtfData.C178_partial": [
"Classical.choice",
"Quot.sound",
"propext"
],
"Verif.EmtfData.C178_refuted": [
"Classical.choice",
"Quot.sound",
"propext"
],
"Verif.EmtfData.C179_partial": [
"Classical.choice",
"Quot.sound",
"propext"
],
"Verif.EmtfData.C179_refuted": [
"Classical.choice",
"Quot.sound",
"propext"
],
"Verif.EmtfData.C180_types": [
"Classical.choice",
"Quot.sound",
"propext"
],
"Verif.EmtfData.C181_layout": [
"Classical.choice",
"Quot.sound",
"propext"
],
"Verif.EmtfData.C182_partial": [
"Classical.choice",
"Quot.sound",
"propext"
],
"Verif.EmtfData.C182_refuted": [
"Classical.choice",
"Quot.sound",
"propext"
],
"Verif.EmtfFile.C240_writable": [
"Classical.choice",
"Quot.sound",
"propext"
],
"Verif.EmtfFile.C241_notes_partial": [
"Classical.choice",
"Quot.sound",
"propext"
],
"Verif.EmtfFile.C241_refuted": [
"Classical.choice",
"Quot.sound",
"propext"
],
"Verif.EmtfFile.C242_layout_partial": [
"Classical.choice",
"Quot.sound",
"propext"
],
"Verif.EmtfFile.C242_refuted": [
"Classical.choice",
"Quot.sound",
"propext"
],
"Verif.EmtfFile.C243_refuted": [
"Classical.choice",
"Quot.sound",
"propext"
],
"Verif.EmtfFile.C243_text_partial": [
"Classical.choice",
"Quot.sound",
"propext"
],
"Verif.EmtfNotes.C323_case_partial": [
"Classical.choice",
"Quot.sound",
"propext"
],
"Verif.EmtfNotes.C323_known_partial": [
"Classical.choice",
"Quot.sound",
"propext"
],
"Verif.EmtfNotes.C323_refuted": [
"Classical.choice",
"Quot.sound",
"propext"
],
"Verif.EmtfNotes.C323_unknown_partial": [
"Classical.choice",
"Quot.sound",
"propext"
],
"Verif.EmtfNotes.C324_known_partial": [
"Classical.choice",
"Quot.sound",
"propext"
],
"Verif.EmtfNotes.C324_other_partial": [
"Classical.choice",
"Quot.sound",
"propext"
],
"Verif.EmtfNotes.C324_refuted": [
"Classical.choice",
"Quot.sound",
"propext"
],
"Verif.EmtfNotes.C325_outputs_partial": [
"Classical.choice",
"Quot.sound",
"propext"
],
"Verif.EmtfNotes.C325_refuted": [
"Classical.choice",
"Quot.sound",
"propext"
],
"Verif.EmtfNotes.C326_channel_partial": [
"Classical.choice",
"Quot.sound",
"propext"
],
"Verif.EmtfNotes.C326_refuted": [
"Classical.choice",
"Quot.sound",
"propext"
],
"Verif.EmtfRest.C359_forms_partial": [
"Classical.choice",
"Quot.sound",
"propext"
],
"Verif.EmtfRest.C359_refuted": [
"Classical.choice",
"Quot.sound",
"propext"
],
"Verif.EmtfRest.C360_plain": [
"Classical.choice",
"Quot.sound",
"propext"
],
"Verif.EmtfRest.C360_refused": [
"Classical.choice",
"Quot.sound",
"propext"
],
"Verif.EmtfRest.C360_stable": [
"Classical.choice",
"Quot.sound",
"propext"
],
"Verif.EmtfRest.C361_absent_partial": [
"Classical.choice",
"Quot.sound",
"propext"
],
"Verif.EmtfRest.C361_data_partial": [
"Classical.choice",
"Quot.sound",
"propext"
],
"Verif.EmtfRest.C361_read_partial": [
"Classical.choice",
"Quot.sound",
"propext"
],
"Verif.EmtfRest.C361_refuted": [
"Classical.choice",
"Quot.sound",
"propext"
],
"Verif.EmtfRest.C362_data_partial": [
"Classical.choice",
"Quot.sound",
"propext"
],
"Verif.EmtfRest.C362_read_partial": [
"Classical.choice",
"Quot.sound",
"propext"
],
"Verif.EmtfRest.C362_refuted": [
"Classical.choice",
"Quot.sound",
"propext"
],
"Verif.EmtfRest.C363_iff_partial": [
"Classical.choice",
"Quot.sound",
"propext"
],
"Verif.EmtfRest.C363_refuted": [
"Classical.choice",
"Quot.sound",
"propext"
],
"Verif.EmtfRest.C363_survey_partial": [
"Classical.choice",
"Quot.sound",
"propext"
],
"Verif.EmtfRest.C364_plain_partial": [
"Classical.choice",
"Quot.sound",
"propext"
],
"Verif.EmtfRest.C364_read_partial": [
"Classical.choice",
"Quot.sound",
"propext"
],
"Verif.EmtfRest.C364_refuted": [
"Classical.choice",
"Quot.sound",
"propext"
],
"Verif.EmtfRest.C365_full_partial": [
"Classical.choice",
"Quot.sound",
"propext"
],
"Verif.EmtfRest.C365_kept_partial": [
"Classical.choice",
"Quot.sound",
"propext"
],
"Verif.EmtfRest.C365_refuted": [
"Classical.choice",
"Quot.sound",
"propext"
],
"Verif.EmtfRunFile.C244_refuted": [
"Classical.choice",
"Quot.sound",
"propext"
],
"Verif.EmtfRunFile.C244_runs_partial": [
"Classical.choice",
"Quot.sound",
"propext"
],
"Verif.EmtfRuns.C226_empty": [
"Classical.choice",
"Quot.sound",
"propext"
],
"Verif.EmtfRuns.C226_partial": [
"Classical.choice",
"Quot.sound",
"propext"
],
"Verif.EmtfRuns.C226_refuted": [
"Classical.choice",
"Quot.sound",
"propext"
],
"Verif.EmtfRuns.C227_one": [
"Classical.choice",
"Quot.sound",
"propext"
],
"Verif.EmtfRuns.C227_partial": [
"Classical.choice",
"Quot.sound",
"propext"
],
"Verif.EmtfRuns.C227_refuted": [
"Classical.choice",
"Quot.sound",
"propext"
],
"Verif.EmtfRuns.C228_partial": [
"Classical.choice",
"Quot.sound",
"propext"
],
"Verif.EmtfRuns.C228_refuted": [
"Classical.choice",
"Quot.sound",
"propext"
],
"Verif.EmtfRuns.C229_electric": [
"Classical.choice",
"Quot.sound",
"propext"
],
"Verif.EmtfRuns.C229_partial": [
"Classical.choice",
"Quot.sound",
"propext"
],
"Verif.EmtfRuns.C229_refuted": [
"Classical.choice",
"Quot.sound",
"propext"
],
"Verif.EmtfRuns.C230_iff": [
"Classical.choice",
"Quot.sound",
"propext"
],
"Verif.EmtfRuns.C231_dotted": [
"Classical.choice",
"Quot.sound",
"propext"
],
"Verif.EmtfRuns.C231_partial": [
"Classical.choice",
"Quot.sound",
"propext"
],
"Verif.EmtfRuns.C231_refuted": [
"Classical.choice",
"Quot.sound",
"propext"
],
"Verif.EmtfSite.C270_refuted": [
"Classical.choice",
"Quot.sound",
"propext"
],
"Verif.EmtfSite.C270_site_partial": [
"Classical.choice",
"Quot.sound",
"propext"
],
"Verif.EmtfSite.C271_blanks_partial": [
"Classical.choice",
"Quot.sound",
"propext"
],
"Verif.EmtfSite.C271_names_partial": [
"Classical.choice",
"Quot.sound",
"propext"
],
"Verif.EmtfSite.C271_refuted": [
"Classical.choice",
"Quot.sound",
"propext"
],
"Verif.EmtfSite.C272_comments_partial": [
"Classical.choice",
"Quot.sound",
"propext"
],
"Verif.EmtfSite.C272_one_partial": [
"Classical.choice",
"Quot.sound",
"propext"
],
"Verif.EmtfSite.C272_refuted": [
"Classical.choice",
"Quot.sound",
"propext"
],
"Verif.EmtfSite.C272_unknown_partial": [
"Classical.choice",
"Quot.sound",
"propext"
],
"Verif.EmtfSite.C273_first": [
"Classical.choice",
"Quot.sound",
"propext"
],
"Verif.EmtfSite.C273_stable": [
"Classical.choice",
"Quot.sound",
"propext"
],
"Verif.EmtfSite.C274_full_partial": [
"Classical.choice",
"Quot.sound",
"propext"
],
"Verif.EmtfSite.C274_over_partial": [
"Classical.choice",
"Quot.sound",
"propext"
],
"Verif.EmtfSite.C274_refuted": [
"Classical.choice",
"Quot.sound",
"propext"
],
"Verif.EmtfSite.C350_none_partial": [
"Classical.choice",
"Quot.sound",
"propext"
],
"Verif.EmtfSite.C350_range_partial": [
"Classical.choice",
"Quot.sound",
"propext"
],
"Verif.EmtfSite.C350_refuted": [
"Classical.choice",
"Quot.sound",
"propext"
],
"Verif.EmtfSite.C350_text_partial": [
"Classical.choice",
"Quot.sound",
"propext"
],
"Verif.EmtfStation.C232_iff": [
"Classical.choice",
"Quot.sound",
"propext"
],
"Verif.EmtfStation.C233_partial": [
"Classical.choice",
"Quot.sound",
"propext"
],
"Verif.EmtfStation.C233_refuted": [
"Classical.choice",
"Quot.sound",
"propext"
],
"Verif.EmtfStation.C234_country": [
"Classical.choice",
"Quot.sound",
"propext"
],
"Verif.EmtfStation.C234_partial": [
"Classical.choice",
"Quot.sound",
"propext"
],
"Verif.EmtfStation.C234_refuted": [
"Classical.choice",
"Quot.sound",
"propext"
],
"Verif.EmtfStation.C235_partial": [
"Classical.choice",
"Quot.sound",
"propext"
],
"Verif.EmtfStation.C235_refuted": [
"Classical.choice",
"Quot.sound",
"propext"
],
"Verif.EmtfStation.C236_partial": [
"Classical.choice",
"Quot.sound",
"propext"
],
"Verif.EmtfStation.C236_refuted": [
"Classical.choice",
"Quot.sound",
"propext"
],
"Verif.EmtfStation.C237_partial": [
"Classical.choice",
"Quot.sound",
"propext"
],
"Verif.EmtfStation.C237_refuted": [
"Classical.choice",
"Quot.sound",
"propext"
],
"Verif.EmtfStation.C238_partial": [
"Classical.choice",
"Quot.sound",
"propext"
],
"Verif.EmtfStation.C238_refuted": [
"Classical.choice",
"Quot.sound",
"propext"
],
"Verif.EmtfStation.C239_exact": [
"Classical.choice",
"Quot.sound",
"propext"
],
"Verif.EmtfWrite.C377_first_partial": [
"Classical.choice",
"Quot.sound",
"propext"
],
"Verif.EmtfWrite.C377_iff_partial": [
"Classical.choice",
"Quot.sound",
"propext"
],
"Verif.EmtfWrite.C377_refuted": [
"Classical.choice",
"Quot.sound",
"propext"
],
"Verif.EmtfWrite.C378_keys": [
"Classical.choice",
"Quot.sound",
"propext"
],
"Verif.EmtfWrite.C379_iff_partial": [
"Classical.choice",
"Quot.sound",
"propext"
],
"Verif.EmtfWrite.C379_near_partial": [
"Classical.choice",
"Quot.sound",
"propext"
],
"Verif.EmtfWrite.C379_refuted": [
"Classical.choice",
"Quot.sound",
"propext"
],
"Verif.EmtfWrite.C380_read_partial": [
"Classical.choice",
"Quot.sound",
"propext"
],
"Verif.EmtfWrite.C380_refuted": [
"Classical.choice",
"Quot.sound",
"propext"
],
"Verif.Enums.C102_accepts": [
"Classical.choice",
"Quot.sound",
"propext"
],
"Verif.Enums.C102_kept": [
"Classical.choice",
"Quot.sound",
"propext"
],
"Verif.Enums.C71_accepts": [
"Quot.sound",
"propext"
],
"Verif.Enums.C71_case_irrelevant": [
"propext"
],
"Verif.Enums.C71_idempotent": [
"propext"
],
"Verif.Enums.C71_not_strings": [
"propext"
],
"Verif.Enums.C71_only_members": [
"propext"
],
"Verif.Enums.C71_rejects": [
"Quot.sound",
"propext"
],
"Verif.Enums.C71_returns_member": [
"propext"
],
"Verif.Enums.C71_that_member": [
"Classical.choice",
"Quot.sound",
"propext"
],
"Verif.ExpDict.C245_run": [
"Classical.choice",
"Quot.sound",
"propext"
],
"Verif.ExpDict.C246_adds_partial": [
"Classical.choice",
"Quot.sound",
"propext"
],
"Verif.ExpDict.C246_all_partial": [
"Classical.choice",
"Quot.sound",
"propext"
],
"Verif.ExpDict.C246_exact_partial": [
"Classical.choice",
"Quot.sound",
"propext"
],
"Verif.ExpDict.C246_refuted": [
"Classical.choice",
"Quot.sound",
"propext"
],
"Verif.ExpDict.C246_runs_partial": [
"Classical.choice",
"Quot.sound",
"propext"
],
"Verif.ExpDict.C247_experiment": [
"Classical.choice",
"Quot.sound",
"propext"
],
"Verif.ExpDict.C247_into": [
"Classical.choice",
"Quot.sound",
"propext"
],
"Verif.ExpDict.C248_dict_partial": [
"Classical.choice",
"Quot.sound",
"propext"
],
"Verif.ExpDict.C248_list_never_partial": [
"Classical.choice",
"Quot.sound",
"propext"
],
"Verif.ExpDict.C248_list_partial": [
"Classical.choice",
"Quot.sound",
"propext"
],
"Verif.ExpDict.C248_lost": [
"Classical.choice",
"Quot.sound",
"propext"
],
"Verif.ExpDict.C248_read_never_partial": [
"Classical.choice",
"Quot.sound",
"propext"
],
"Verif.ExpDict.C248_refuted": [
"Classical.choice",
"Quot.sound",
"propext"
],
"Verif.ExpDict.C248_slash": [
"Classical.choice",
"Quot.sound",
"propext"
],
"Verif.ExpDict.C249_copy": [
"Classical.choice",
"Quot.sound",
"propext"
],
"Verif.ExpDict.C249_inplace": [
"Classical.choice",
"Quot.sound",
"propext"
],
"Verif.ExpDict.C250_ignored_partial": [],
"Verif.ExpDict.C250_partial": [],
"Verif.ExpDict.C250_refuted": [
"Classical.choice",
"Quot.sound",
"propext"
],
"Verif.ExpDict.C251_refuted": [
"Classical.choice",
"Quot.sound",
"propext"
],
"Verif.ExpDict.C251_same_partial": [
"Classical.choice",
"Quot.sound",
"propext"
],
"Verif.ExpXml.C42_content_partial": [
"Classical.choice",
"Quot.sound",
"propext"
],
"Verif.ExpXml.C42_raises_iff_partial": [
"Classical.choice",
"Quot.sound",
"propext"
],
"Verif.ExpXml.C42_read_single": [
"Classical.choice",
"Quot.sound",
"propext"
],
"Verif.ExpXml.C42_refuted": [
"Classical.choice",
"Quot.sound",
"propext"
],
"Verif.ExpXml.C87_readable_partial": [
"Classical.choice",
"Quot.sound",
"propext"
],
"Verif.ExpXml.C87_refuted": [
"Classical.choice",
"Quot.sound",
"propext"
],
"Verif.ExpXml.C88_others_partial": [
"Classical.choice",
"Quot.sound",
"propext"
],
"Verif.ExpXml.C88_refuted": [
"Classical.choice",
"Quot.sound",
"propext"
],
"Verif.FCs.C61_add_partial": [
"Quot.sound",
"propext"
],
"Verif.FCs.C61_assign_partial": [
"Quot.sound",
"propext"
],
"Verif.FCs.C61_known_partial": [
"Quot.sound",
"propext"
],
"Verif.FCs.C61_merge_partial": [
"Quot.sound",
"propext"
],
"Verif.FCs.C61_refuted": [
"Quot.sound",
"propext"
],
"Verif.FCs.C61_remove_partial": [
"Classical.choice",
"Quot.sound",
"propext"
],
"Verif.FCs.C61_repeated_partial": [
"Quot.sound",
"propext"
],
"Verif.FCs.C61_reported_partial": [
"Classical.choice",
"Quot.sound",
"propext"
],
"Verif.FCs.C61_synced_partial": [
"Quot.sound",
"propext"
],
"Verif.FCs.C61_total_partial": [
"Classical.choice",
"Quot.sound",
"propext"
],
"Verif.FCs.C62_after_calls_partial": [
"Quot.sound",
"propext"
],
"Verif.FCs.C62_covers_partial": [
"Quot.sound",
"propext"
],
"Verif.FCs.C62_levels_partial": [
"Quot.sound",
"propext"
],
"Verif.FCs.C62_nested_partial": [
"Quot.sound",
"propext"
],
"Verif.FCs.C62_refuted": [
"propext"
],
"Verif.FCs.C63_effect": [
"Classical.choice",
"Quot.sound",
"propext"
],
"Verif.FCs.C63_known": [
"Quot.sound",
"propext"
],
"Verif.FCs.C63_repeated": [
"Quot.sound",
"propext"
],
"Verif.FCs.C63_sync": [
"Classical.choice",
"Quot.sound",
"propext"
],
"Verif.FCs.C63_total": [
"Classical.choice",
"Quot.sound",
"propext"
],
"Verif.Fdsn.C46_contains_partial": [
"Classical.choice",
"Quot.sound",
"propext"
],
"Verif.Fdsn.C46_covered_partial": [
"Classical.choice",
"Quot.sound",
"propext"
],
"Verif.Fdsn.C46_interval_partial": [
"Classical.choice",
"Quot.sound",
"propext"
],
"Verif.Fdsn.C46_monotone_partial": [
"Classical.choice",
"Quot.sound",
"propext"
],
"Verif.Fdsn.C46_refuted": [
"Classical.choice",
"Quot.sound",
"propext"
],
"Verif.Fdsn.C47_decode_partial": [
"Classical.choice",
"Quot.sound",
"propext"
],
"Verif.Fdsn.C47_orientation": [
"Classical.choice",
"Quot.sound",
"propext"
],
"Verif.Fdsn.C47_refuted": [
"Classical.choice",
"Quot.sound",
"propext"
],
"Verif.Fdsn.C47_tide_partial": [
"Classical.choice",
"Quot.sound",
"propext"
],
"Verif.Fdsn.C94_azimuth": [
"Classical.choice",
"Quot.sound",
"propext"
],
"Verif.Fdsn.C94_component": [
"Classical.choice",
"Quot.sound",
"propext"
],
"Verif.Features.C297_bounds": [
"Classical.choice",
"Quot.sound",
"propext"
],
"Verif.Features.C297_one": [
"Classical.choice",
"Quot.sound",
"propext"
],
"Verif.Features.C297_scale": [
"Classical.choice",
"Quot.sound",
"propext"
],
"Verif.Features.C297_symmetric": [
"Classical.choice",
"Quot.sound",
"propext"
],
"Verif.Features.C297_value": [
"Classical.choice",
"Quot.sound",
"propext"
],
"Verif.Features.C297_window": [
"Classical.choice",
"Quot.sound",
"propext"
],
"Verif.Features.C297_zero": [
"Classical.choice",
"Quot.sound",
"propext"
],
"Verif.Features.C298_cover": [
"Quot.sound",
"propext"
],
"Verif.Features.C298_rows": [
"Quot.sound",
"propext"
],
"Verif.Features.C299_refuted": [],
"Verif.Features.C299_same_partial": [
"Classical.choice",
"Quot.sound",
"propext"
],
"Verif.Features.C299_short_partial": [
"Quot.sound",
"propext"
],
"Verif.Features.C300_iff_partial": [
"Classical.choice",
"Quot.sound",
"propext"
],
"Verif.Features.C300_refuted": [
"Classical.choice",
"Quot.sound",
"propext"
],
"Verif.Features.C300_size_partial": [
"Classical.choice",
"Quot.sound",
"propext"
],
"Verif.Features.C301_refuted": [
"propext"
],
"Verif.Features.C301_remote_partial": [
"Classical.choice",
"Quot.sound",
"propext"
],
"Verif.Features.C301_single_partial": [
"Classical.choice",
"Quot.sound",
"propext"
],
"Verif.Features.C302_again": [
"Classical.choice",
"Quot.sound",
"propext"
],
"Verif.Features.C302_first": [
"Classical.choice",
"Quot.sound",
"propext"
],
"Verif.Features.C302_second": [
"Classical.choice",
"Quot.sound",
"propext"
],
"Verif.Features.C303_named": [
"Classical.choice",
"Quot.sound",
"propext"
],
"Verif.Features.C303_other": [
"Classical.choice",
"Quot.sound",
"propext"
],
"Verif.Features.C304_plain_partial": [
"Classical.choice",
"Quot.sound",
"propext"
],
"Verif.Features.C304_refuted": [
"Classical.choice",
"Quot.sound",
"propext"
],
"Verif.Features.C304_wrapped_partial": [
"Classical.choice",
"Quot.sound",
"propext"
],
"Verif.Features.C305_list_partial": [
"Quot.sound",
"propext"
],
"Verif.Features.C305_refuted": [],
"Verif.Features.C305_single_partial": [],
"Verif.Features.C305_text_partial": [
"Quot.sound",
"propext"
],
"Verif.Features.C306_levels": [
"Quot.sound",
"propext"
],
"Verif.Features.C306_local": [
"Quot.sound",
"propext"
],
"Verif.Features.C306_no_remote": [
"Quot.sound",
"propext"
],
"Verif.Features.C307_kept_partial": [
"Quot.sound",
"propext"
],
"Verif.Features.C307_refuted": [
"Quot.sound",
"propext"
],
"Verif.FieldCache.C374_iff_partial": [
"Classical.choice",
"Quot.sound",
"propext"
],
"Verif.FieldCache.C374_off_partial": [
"Classical.choice",
"Quot.sound",
"propext"
],
"Verif.FieldCache.C374_refuted": [
"Classical.choice",
"Quot.sound",
"propext"
],
"Verif.FieldCache.C374_same_partial": [
"Classical.choice",
"Quot.sound",
"propext"
],
"Verif.FieldCache.C375_order_partial": [
"Classical.choice",
"Quot.sound",
"propext"
],
"Verif.FieldCache.C375_refuted": [
"Classical.choice",
"Quot.sound",
"propext"
],
"Verif.FieldCache.C376_class": [
"Classical.choice",
"Quot.sound",
"propext"
],
"Verif.FieldCache.C376_dotted": [
"Classical.choice",
"Quot.sound",
"propext"
],
"Verif.FieldCache.C376_once": [
"Classical.choice",
"Quot.sound",
"propext"
],
"Verif.FieldCache.C376_only": [
"Quot.sound",
"propext"
],
"Verif.FieldShare.C411_apart_partial": [
"Quot.sound",
"propext"
],
"Verif.FieldShare.C411_emptied_partial": [
"Classical.choice",
"Quot.sound",
"propext"
],
"Verif.FieldShare.C411_names_partial": [
"propext"
],
"Verif.FieldShare.C411_refuted": [],
"Verif.FieldShare.C411_shared_partial": [
"Quot.sound",
"propext"
],
"Verif.FilterFile.C265_partial": [
"Classical.choice",
"Quot.sound",
"propext"
],
"Verif.FilterFile.C265_poles_partial": [
"Classical.choice",
"Quot.sound",
"propext"
],
"Verif.FilterFile.C265_refuted": [
"Classical.choice",
"Quot.sound",
"propext"
],
"Verif.FilterFile.C265_zero_partial": [
"Classical.choice",
"Quot.sound",
"propext"
],
"Verif.FilterFile.C266_partial": [
"Classical.choice",
"Quot.sound",
"propext"
],
"Verif.FilterFile.C266_pole_zero_partial": [
"Classical.choice",
"Quot.sound",
"propext"
],
"Verif.FilterFile.C266_refuted": [
"Classical.choice",
"Quot.sound",
"propext"
],
"Verif.FilterFile.C267_array": [
"Classical.choice",
"Quot.sound",
"propext"
],
"Verif.FilterFile.C267_list": [
"Classical.choice",
"Quot.sound",
"propext"
],
"Verif.FilterFile.C267_numbers": [
"Classical.choice",
"Quot.sound",
"propext"
],
"Verif.FilterFile.C267_single": [
"Classical.choice",
"Quot.sound",
"propext"
],
"Verif.FilterFile.C268_refuted": [
"Classical.choice",
"Quot.sound",
"propext"
],
"Verif.FilterFile.C268_two_partial": [
"Classical.choice",
"Quot.sound",
"propext"
],
"Verif.FilterFile.C269_refuted": [
"Classical.choice",
"Quot.sound",
"propext"
],
"Verif.FilterFile.C269_two_partial": [
"Classical.choice",
"Quot.sound",
"propext"
],
"Verif.Filters.C49_accepted": [
"Classical.choice",
"Quot.sound",
"propext"
],
"Verif.Filters.C49_units": [
"Classical.choice",
"Quot.sound",
"propext"
],
"Verif.Filters.C50_append": [
"Classical.choice",
"Quot.sound",
"propext"
],
"Verif.Filters.C50_delay": [
"Classical.choice",
"Quot.sound",
"propext"
],
"Verif.Filters.C50_factor": [
"Classical.choice",
"Quot.sound",
"propext"
],
"Verif.Filters.C50_normalized": [
"Classical.choice",
"Quot.sound",
"propext"
],
"Verif.Filters.C50_perm": [
"Classical.choice",
"Quot.sound",
"propext"
],
"Verif.Filters.C50_product": [
"Classical.choice",
"Quot.sound",
"propext"
],
"Verif.Filters.C50_selected": [
"Classical.choice",
"Quot.sound",
"propext"
],
"Verif.Filters.C50_total_delay": [
"Classical.choice",
"Quot.sound",
"propext"
],
"Verif.Filters.C51_exists": [
"Classical.choice",
"Quot.sound",
"propext"
],
"Verif.Filters.C51_intersection": [
"Classical.choice",
"Quot.sound",
"propext"
],
"Verif.Filters.C52_expansion_partial": [
"Classical.choice",
"Quot.sound",
"propext"
],
"Verif.Filters.C52_odd_partial": [
"Classical.choice",
"Quot.sound",
"propext"
],
"Verif.Filters.C52_refuted": [
"Classical.choice",
"Quot.sound",
"propext"
],
"Verif.Filters.C53_degrees_partial": [
"Classical.choice",
"Quot.sound",
"propext"
],
"Verif.Filters.C53_idempotent_partial": [
"Classical.choice",
"Quot.sound",
"propext"
],
"Verif.Filters.C53_milliradians_partial": [
"Classical.choice",
"Quot.sound",
"propext"
],
"Verif.Filters.C53_radians_partial": [
"Classical.choice",
"Quot.sound",
"propext"
],
"Verif.Filters.C53_refuted": [
"Classical.choice",
"Quot.sound",
"propext"
],
"Verif.Filters.C96_constant_partial": [
"Classical.choice",
"Quot.sound",
"propext"
],
"Verif.Filters.C96_from_given_partial": [
"Classical.choice",
"Quot.sound",
"propext"
],
"Verif.Filters.C96_ordered_partial": [
"Classical.choice",
"Quot.sound",
"propext"
],
"Verif.Filters.C96_refuted": [
"Classical.choice",
"Quot.sound",
"propext"
],
"Verif.Filters.C97_fir_gain": [
"Classical.choice",
"Quot.sound",
"propext"
],
"Verif.Filters.C97_fir_response": [
"Classical.choice",
"Quot.sound",
"propext"
],
"Verif.Filters.C98_table": [
"Classical.choice",
"Quot.sound",
"propext"
],
"Verif.Filters.C99_hermitian": [
"Classical.choice",
"Quot.sound",
"propext"
],
"Verif.FreqBand.C26_harmonics": [
"Classical.choice",
"Quot.sound",
"propext"
],
"Verif.FreqBand.C26_in_band_harmonics": [
"Classical.choice",
"Quot.sound",
"propext"
],
"Verif.FreqBand.C26_indices": [
"Classical.choice",
"Quot.sound",
"propext"
],
"Verif.FreqBand.C26_set_indices": [
"Classical.choice",
"Quot.sound",
"propext"
],
"Verif.FreqBand.C26_total": [
"Quot.sound",
"propext"
],
"Verif.FreqBand.C27_both_partial": [
"Quot.sound",
"propext"
],
"Verif.FreqBand.C27_contains_partial": [
"propext"
],
"Verif.FreqBand.C27_refuted": [
"Classical.choice",
"Quot.sound",
"propext"
],
"Verif.FreqBand.C27_sound_transitive": [
"propext"
],
"Verif.FreqBand.C28_shared": [
"propext"
],
"Verif.FreqBand.C28_symmetric": [
"propext"
],
"Verif.FreqBand.C29_center": [
"Classical.choice",
"Quot.sound",
"propext"
],
"Verif.FreqBand.C79_name_partial": [
"Classical.choice",
"Quot.sound",
"propext"
],
"Verif.FreqBand.C79_refuted": [
"Classical.choice",
"Quot.sound",
"propext"
],
"Verif.FreqBands.C64_accepts": [
"Classical.choice",
"Quot.sound",
"propext"
],
"Verif.FreqBands.C64_bands_as_stored": [
"Classical.choice",
"Quot.sound",
"propext"
],
"Verif.FreqBands.C64_bands_errors": [
"Classical.choice",
"Quot.sound",
"propext"
],
"Verif.FreqBands.C64_bands_sorted": [
"Classical.choice",
"Quot.sound",
"propext"
],
"Verif.FreqBands.C64_centers": [
"Classical.choice",
"Quot.sound",
"propext"
],
"Verif.FreqBands.C64_sort": [
"Classical.choice",
"Quot.sound",
"propext"
],
"Verif.FreqBands.C64_validate": [
"Classical.choice",
"Quot.sound",
"propext"
],
"Verif.IoTools.C112_lines": [
"Quot.sound",
"propext"
],
"Verif.IoTools.C112_single": [
"Classical.choice",
"Quot.sound",
"propext"
],
"Verif.IoTools.C72_empty_value_partial": [
"Classical.choice",
"Quot.sound",
"propext"
],
"Verif.IoTools.C72_pairs_partial": [
"Classical.choice",
"Quot.sound",
"propext"
],
"Verif.IoTools.C72_refuted": [
"Classical.choice",
"Quot.sound",
"propext"
],
"Verif.IoTools.C72_remark_partial": [
"Classical.choice",
"Quot.sound",
"propext"
],
"Verif.IoTools.C72_section_partial": [
"Classical.choice",
"Quot.sound",
"propext"
],
"Verif.IoTools.C72_spacing_partial": [
"Classical.choice",
"Quot.sound",
"propext"
],
"Verif.IoTools.C72_words_partial": [
"Classical.choice",
"Quot.sound",
"propext"
],
"Verif.IoTools.C73_channels_partial": [
"Quot.sound",
"propext"
],
"Verif.IoTools.C73_count_partial": [
"Classical.choice",
"Quot.sound",
"propext"
],
"Verif.IoTools.C73_count_refuted": [
"Classical.choice",
"Quot.sound",
"propext"
],
"Verif.IoTools.C73_error": [
"Quot.sound",
"propext"
],
"Verif.IoTools.C73_flags": [
"Quot.sound",
"propext"
],
"Verif.IoTools.C73_index": [
"Quot.sound",
"propext"
],
"Verif.IoTools.C73_refuted": [
"Classical.choice",
"Quot.sound",
"propext"
],
"Verif.IoTools.C73_remote": [
"Classical.choice",
"Quot.sound",
"propext"
],
"Verif.JFile.C143_values": [
"Classical.choice",
"Quot.sound",
"propext"
],
"Verif.JFile.C144_header": [
"Classical.choice",
"Quot.sound",
"propext"
],
"Verif.JFile.C145_partial": [
"Classical.choice",
"Quot.sound",
"propext"
],
"Verif.JFile.C145_refuted": [
"Classical.choice",
"Quot.sound",
"propext"
],
"Verif.JFile.C146_partial": [
"Classical.choice",
"Quot.sound",
"propext"
],
"Verif.JFile.C146_refuted": [
"Classical.choice",
"Quot.sound",
"propext"
],
"Verif.JFile.C147_partial": [
"Classical.choice",
"Quot.sound",
"propext"
],
"Verif.JFile.C147_refuted": [
"Classical.choice",
"Quot.sound",
"propext"
],
"Verif.JFile.C148_nopos_refuted": [
"Classical.choice",
"Quot.sound",
"propext"
],
"Verif.JFile.C148_partial": [
"Classical.choice",
"Quot.sound",
"propext"
],
"Verif.JFile.C148_refuted": [
"Classical.choice",
"Quot.sound",
"propext"
],
"Verif.JFile.C149_partial": [
"Classical.choice",
"Quot.sound",
"propext"
],
"Verif.JFile.C149_refuted": [
"Classical.choice",
"Quot.sound",
"propext"
],
"Verif.JFile.C150_blank_refuted": [
"Classical.choice",
"Quot.sound",
"propext"
],
"Verif.JFile.C150_partial": [
"Classical.choice",
"Quot.sound",
"propext"
],
"Verif.JFile.C150_refuted": [
"Classical.choice",
"Quot.sound",
"propext"
],
"Verif.JFile.C150_tipper_refuted": [
"Classical.choice",
"Quot.sound",
"propext"
],
"Verif.JUse.C394_blocks_partial": [
"Quot.sound",
"propext"
],
"Verif.JUse.C394_given_partial": [
"Quot.sound",
"propext"
],
"Verif.JUse.C394_last_partial": [
"Quot.sound",
"propext"
],
"Verif.JUse.C394_refuted": [],
"Verif.JUse.C394_stays_partial": [
"Quot.sound",
"propext"
],
"Verif.JUse.C395_data_partial": [
"Quot.sound",
"propext"
],
"Verif.JUse.C395_empty_partial": [],
"Verif.JUse.C395_history_partial": [
"Quot.sound",
"propext"
],
"Verif.JUse.C395_mixed_partial": [
"propext"
],
"Verif.JUse.C395_refuted": [],
"Verif.LevelBands.C260_each_partial": [
"Classical.choice",
"Quot.sound",
"propext"
],
"Verif.LevelBands.C260_missing_partial": [
"Quot.sound",
"propext"
],
"Verif.LevelBands.C260_partial": [
"Classical.choice",
"Quot.sound",
"propext"
],
"Verif.LevelBands.C260_refuted": [
"Quot.sound",
"propext"
],
"Verif.LevelBands.C261_frame": [
"Classical.choice",
"Quot.sound",
"propext"
],
"Verif.LevelBands.C261_missing": [
"Quot.sound",
"propext"
],
"Verif.LevelBands.C262_count": [
"Classical.choice",
"Quot.sound",
"propext"
],
"Verif.LevelBands.C262_once": [
"Classical.choice",
"Quot.sound",
"propext"
],
"Verif.LevelBands.C263_interval": [
"Classical.choice",
"Quot.sound",
"propext"
],
"Verif.LevelBands.C263_level": [
"Classical.choice",
"Quot.sound",
"propext"
],
"Verif.LevelBands.C264_add": [
"propext"
],
"Verif.LevelBands.C264_list": [
"Quot.sound",
"propext"
],
"Verif.LevelBands.C264_single": [],
"Verif.License.C124_becomes_partial": [
"Classical.choice",
"Quot.sound",
"propext"
],
"Verif.License.C124_family_partial": [
"Classical.choice",
"Quot.sound",
"propext"
],
"Verif.License.C124_refuted": [
"Classical.choice",
"Quot.sound",
"propext"
],
"Verif.License.C124_status_partial": [
"Classical.choice",
"Quot.sound",
"propext"
],
"Verif.License.C124_survivors_partial": [
"Classical.choice",
"Quot.sound",
"propext"
],
"Verif.License.C125_accepts_partial": [
"Classical.choice",
"Quot.sound",
"propext"
],
"Verif.License.C125_again_partial": [
"Classical.choice",
"Quot.sound",
"propext"
],
"Verif.License.C125_case_partial": [
"Classical.choice",
"Quot.sound",
"propext"
],
"Verif.License.C125_default_partial": [
"Classical.choice",
"Quot.sound",
"propext"
],
"Verif.License.C125_na_sa_partial": [
"Classical.choice",
"Quot.sound",
"propext"
],
"Verif.License.C125_refuted": [
"Classical.choice",
"Quot.sound",
"propext"
],
"Verif.License.C125_spelling_partial": [
"Classical.choice",
"Quot.sound",
"propext"
],
"Verif.ListDict.C01_views_coherent": [
"Classical.choice",
"Quot.sound",
"propext"
],
"Verif.ListDict.C02_append_keyed": [
"Quot.sound",
"propext"
],
"Verif.ListDict.C02_append_keyless": [
"Quot.sound",
"propext"
],
"Verif.ListDict.C02_key_choice": [
"propext"
],
"Verif.ListDict.C03_keyless_append_partial": [
"Classical.choice",
"Quot.sound",
"propext"
],
"Verif.ListDict.C03_refuted": [
"Classical.choice",
"Quot.sound",
"propext"
],
"Verif.ListDict.C04_remove_errors": [
"Classical.choice",
"Quot.sound",
"propext"
],
"Verif.ListDict.C04_remove_index": [
"Classical.choice",
"Quot.sound",
"propext"
],
"Verif.ListDict.C04_remove_key": [
"Classical.choice",
"Quot.sound",
"propext"
],
"Verif.ListDict.C05_pop_partial": [
"Quot.sound",
"propext"
],
"Verif.ListDict.C05_refuted": [
"Classical.choice",
"Quot.sound",
"propext"
],
"Verif.ListDict.C06_extend": [
"Classical.choice",
"Quot.sound",
"propext"
],
"Verif.ListDict.C06_update_eq_extend": [
"Quot.sound",
"propext"
],
"Verif.ListDict.C07_sort": [
"Classical.choice",
"Quot.sound",
"propext"
],
"Verif.ListDict.C07_sort_none": [
"Classical.choice",
"Quot.sound",
"propext"
],
"Verif.ListDict.C08_collision_loses": [
"Classical.choice",
"Quot.sound",
"propext"
],
"Verif.ListDict.C08_updateKeys": [
"Classical.choice",
"Quot.sound",
"propext"
],
"Verif.ListDict.C09_slice": [
"Classical.choice",
"Quot.sound",
"propext"
],
"Verif.ListDict.C09_slice_errors": [
"Quot.sound",
"propext"
],
"Verif.ListDict.C10_copy_partial": [
"Classical.choice",
"Quot.sound",
"propext"
],
"Verif.ListDict.C10_refuted": [
"Classical.choice",
"Quot.sound",
"propext"
],
"Verif.ListFields.C371_float_partial": [
"Classical.choice",
"Quot.sound",
"propext"
],
"Verif.ListFields.C371_inf_partial": [
"Classical.choice",
"Quot.sound",
"propext"
],
"Verif.ListFields.C371_int_partial": [
"Classical.choice",
"Quot.sound",
"propext"
],
"Verif.ListFields.C371_range_partial": [
"Classical.choice",
"Quot.sound",
"propext"
],
"Verif.ListFields.C371_refuted": [
"Classical.choice",
"Quot.sound",
"propext"
],
"Verif.ListFields.C372_given_partial": [
"Classical.choice",
"Quot.sound",
"propext"
],
"Verif.ListFields.C372_refuted": [
"Classical.choice",
"Quot.sound",
"propext"
],
"Verif.ListFields.C372_text_partial": [
"Classical.choice",
"Quot.sound",
"propext"
],
"Verif.ListFields.C372_total_partial": [
"Classical.choice",
"Quot.sound",
"propext"
],
"Verif.ListFields.C373_iff_partial": [
"Classical.choice",
"Quot.sound",
"propext"
],
"Verif.ListFields.C373_list_partial": [
"Classical.choice",
"Quot.sound",
"propext"
],
"Verif.ListFields.C373_refuted": [
"Classical.choice",
"Quot.sound",
"propext"
],
"Verif.Location.C43_refuted": [
"Classical.choice",
"Quot.sound",
"propext"
],
"Verif.Location.C43_roundtrip_partial": [
"Classical.choice",
"Quot.sound",
"propext"
],
"Verif.Location.C43_sign_lost_partial": [
"Classical.choice",
"Quot.sound",
"propext"
],
"Verif.Location.C43_wellformed": [
"Classical.choice",
"Quot.sound",
"propext"
],
"Verif.Location.C44_error": [
"Classical.choice",
"Quot.sound",
"propext"
],
"Verif.Location.C44_numbers": [
"Classical.choice",
"Quot.sound",
"propext"
],
"Verif.Location.C44_range": [
"Classical.choice",
"Quot.sound",
"propext"
],
"Verif.Location.C91_refuted": [
"Classical.choice",
"Quot.sound",
"propext"
],
"Verif.Location.C91_sign_partial": [
"Classical.choice",
"Quot.sound",
"propext"
],
"Verif.MTime.C15_defined_partial": [
"Classical.choice",
"Quot.sound",
"propext"
],
"Verif.MTime.C15_documented": [
"Classical.choice",
"Quot.sound",
"propext"
],
"Verif.MTime.C15_monotone": [
"Classical.choice",
"Quot.sound",
"propext"
],
"Verif.MTime.C15_refuted": [
"propext"
],
"Verif.MTime.C16_offsets_refuted": [],
"Verif.MTime.C16_order_partial": [
"Classical.choice",
"Quot.sound",
"propext"
],
"Verif.MTime.C16_refuted": [],
"Verif.MTime.C16_utc_partial": [
"Classical.choice",
"Quot.sound",
"propext"
],
"Verif.MTime.C17_clamp": [
"Quot.sound",
"propext"
],
"Verif.MTime.C17_idempotent": [
"Quot.sound",
"propext"
],
"Verif.MTime.C17_inside_partial": [
"Quot.sound",
"propext"
],
"Verif.MTime.C17_monotone": [
"Classical.choice",
"Quot.sound",
"propext"
],
"Verif.MTime.C17_refuted": [
"propext"
],
"Verif.MTime.C18_order": [
"Classical.choice",
"Quot.sound",
"propext"
],
"Verif.MTime.C18_rounding": [
"Classical.choice",
"Quot.sound",
"propext"
],
"Verif.MTime.C19_order_partial": [
"Classical.choice",
"Quot.sound",
"propext"
],
"Verif.MTime.C19_refuted": [
"propext"
],
"Verif.MTime.C19_same_leap_partial": [
"Classical.choice",
"Quot.sound",
"propext"
],
"Verif.MTime.C20_hash": [
"Classical.choice",
"Quot.sound",
"propext"
],
"Verif.MTime.C20_refuted": [
"propext"
],
"Verif.MTime.C20_utc_partial": [
"Classical.choice",
"Quot.sound",
"propext"
],
"Verif.MTime.C21_refuted": [
"propext"
],
"Verif.MTime.C21_units_partial": [
"Quot.sound",
"propext"
],
"Verif.MTime.C289_example": [
"propext"
],
"Verif.MTime.C289_iff": [
"Classical.choice",
"Quot.sound",
"propext"
],
"Verif.MTime.C289_only": [
"Classical.choice",
"Quot.sound",
"propext"
],
"Verif.MTime.C289_same": [
"Classical.choice",
"Quot.sound",
"propext"
],
"Verif.MTime.C289_sets": [
"Classical.choice",
"Quot.sound",
"propext"
],
"Verif.MTime.C290_date_partial": [
"Classical.choice",
"Quot.sound",
"propext"
],
"Verif.MTime.C290_example": [],
"Verif.MTime.C290_fails_partial": [
"Classical.choice",
"Quot.sound",
"propext"
],
"Verif.MTime.C290_refuted": [
"propext"
],
"Verif.MTime.C320_difference_partial": [
"Quot.sound",
"propext"
],
"Verif.MTime.C320_refuted": [
"propext"
],
"Verif.MTime.C321_days": [
"Classical.choice",
"Quot.sound",
"propext"
],
"Verif.MTime.C322_date_partial": [
"Quot.sound",
"propext"
],
"Verif.MTime.C322_refuted": [
"propext"
],
"Verif.MTime.C345_limit_partial": [
"Classical.choice",
"Quot.sound",
"propext"
],
"Verif.MTime.C345_midnight_partial": [
"Classical.choice",
"Quot.sound",
"propext"
],
"Verif.MTime.C345_refuted": [
"propext"
],
"Verif.MTime.C345_zone_partial": [
"Classical.choice",
"Quot.sound",
"propext"
],
"Verif.MTime.C346_later_partial": [
"Classical.choice",
"Quot.sound",
"propext"
],
"Verif.MTime.C346_refused_partial": [
"Classical.choice",
"Quot.sound",
"propext"
],
"Verif.MTime.C346_refuted": [
"propext"
],
"Verif.MTime.C347_refused_partial": [
"Quot.sound",
"propext"
],
"Verif.MTime.C347_refuted": [
"propext"
],
"Verif.MTime.C347_swapped_partial": [
"Classical.choice",
"Quot.sound",
"propext"
],
"Verif.MTime.C348_none_partial": [
"Classical.choice",
"Quot.sound",
"propext"
],
"Verif.MTime.C348_refused_partial": [
"Classical.choice",
"Quot.sound",
"propext"
],
"Verif.MTime.C348_refuted": [
"Classical.choice",
"Quot.sound",
"propext"
],
"Verif.MTime.C349_inside": [
"Classical.choice",
"Quot.sound",
"propext"
],
"Verif.MTime.C349_limits": [
"Classical.choice",
"Quot.sound",
"propext"
],
"Verif.MTime.C75_gps_shift": [
"Classical.choice",
"Quot.sound",
"propext"
],
"Verif.MTime.C75_refuted": [
"propext"
],
"Verif.MTime.C75_reload_partial": [
"Quot.sound",
"propext"
],
"Verif.MTime.C76_add_sub_partial": [
"Quot.sound",
"propext"
],
"Verif.MTime.C76_refuted": [
"propext"
],
"Verif.MTime.C77_dates_partial": [
"Classical.choice",
"Quot.sound",
"propext"
],
"Verif.MTime.C77_refuted": [],
"Verif.MTime.C78_from_dict_partial": [
"Quot.sound",
"propext"
],
"Verif.MTime.C78_refuted": [],
"Verif.ManyFiles.C278_channels_partial": [
"Classical.choice",
"Quot.sound",
"propext"
],
"Verif.ManyFiles.C278_named_partial": [
"Classical.choice",
"Quot.sound",
"propext"
],
"Verif.ManyFiles.C278_refuted": [
"Classical.choice",
"Quot.sound",
"propext"
],
"Verif.ManyFiles.C278_runs_partial": [
"Classical.choice",
"Quot.sound",
"propext"
],
"Verif.ManyFiles.C278_sound_partial": [
"Classical.choice",
"Quot.sound",
"propext"
],
"Verif.ManyFiles.C279_fails_partial": [
"Classical.choice",
"Quot.sound",
"propext"
],
"Verif.ManyFiles.C279_iff_partial": [
"Classical.choice",
"Quot.sound",
"propext"
],
"Verif.ManyFiles.C279_refuted": [
"Classical.choice",
"Quot.sound",
"propext"
],
"Verif.ManyFiles.C280_all": [
"Classical.choice",
"Quot.sound",
"propext"
],
"Verif.ManyFiles.C280_chosen": [
"Classical.choice",
"Quot.sound",
"propext"
],
"Verif.ManyFiles.C280_empty": [
"Classical.choice",
"Quot.sound",
"propext"
],
"Verif.ManyFiles.C281_first_partial": [
"Classical.choice",
"Quot.sound",
"propext"
],
"Verif.ManyFiles.C281_refuted": [
"Classical.choice",
"Quot.sound",
"propext"
],
"Verif.ManyFiles.C281_used_partial": [
"Classical.choice",
"Quot.sound",
"propext"
],
"Verif.Metadata.C22_fields": [
"Quot.sound",
"propext"
],
"Verif.Metadata.C22_idempotent": [
"Quot.sound",
"propext"
],
"Verif.Metadata.C22_match": [
"Quot.sound",
"propext"
],
"Verif.Metadata.C22_never_erases": [
"Classical.choice",
"Quot.sound",
"propext"
],
"Verif.Metadata.C22_refuted": [
"Quot.sound",
"propext"
],
"Verif.Metadata.C22_takes_partial": [
"Classical.choice",
"Quot.sound",
"propext"
],
"Verif.Metadata.C23_meaning": [
"Classical.choice",
"Quot.sound",
"propext"
],
"Verif.Metadata.C23_reflexive": [
"Classical.choice",
"Quot.sound",
"propext"
],
"Verif.Metadata.C23_symmetric_partial": [
"Classical.choice",
"Quot.sound",
"propext"
],
"Verif.Metadata.C23_symmetry_refuted": [
"Classical.choice",
"Quot.sound",
"propext"
],
"Verif.Metadata.C23_transitive_partial": [
"Classical.choice",
"Quot.sound",
"propext"
],
"Verif.Metadata.C23_transitivity_refuted": [
"Classical.choice",
"Quot.sound",
"propext"
],
"Verif.Metadata.C24_always_false": [
"Classical.choice",
"Quot.sound",
"propext"
],
"Verif.Metadata.C24_refuted": [
"Classical.choice",
"Quot.sound",
"propext"
],
"Verif.Metadata.C25_flat": [
"Quot.sound",
"propext"
],
"Verif.Metadata.C25_order": [
"Quot.sound",
"propext"
],
"Verif.Metadata.C25_replaced": [
"Quot.sound",
"propext"
],
"Verif.Metadata.C25_resolves": [
"Quot.sound",
"propext"
],
"Verif.Metadata.C80_kept_partial": [
"Classical.choice",
"Quot.sound",
"propext"
],
"Verif.Metadata.C80_refuted": [
"Classical.choice",
"Quot.sound",
"propext"
],
"Verif.Metadata.C81_required": [
"Quot.sound",
"propext"
],
"Verif.Metadata.C81_roundtrip": [
"Quot.sound",
"propext"
],
"Verif.Metadata.C81_skip_none": [
"Quot.sound",
"propext"
],
"Verif.Metadata.C82_dotted_literal": [
"Quot.sound",
"propext"
],
"Verif.Metadata.C82_nested_partial": [
"Quot.sound",
"propext"
],
"Verif.Metadata.C82_refuted": [
"Classical.choice",
"Quot.sound",
"propext"
],
"Verif.Names.C89_fails_iff": [
"Quot.sound",
"propext"
],
"Verif.Names.C89_idempotent": [
"Classical.choice",
"Quot.sound",
"propext"
],
"Verif.Names.C89_normal": [
"Quot.sound",
"propext"
],
"Verif.Names.C90_idempotent": [
"Quot.sound",
"propext"
],
"Verif.Names.C90_keeps": [
"Quot.sound",
"propext"
],
"Verif.Names.C90_word": [
"Quot.sound",
"propext"
],
"Verif.Nomen.C351_names_partial": [
"Classical.choice",
"Quot.sound",
"propext"
],
"Verif.Nomen.C351_refuted": [
"propext"
],
"Verif.Nomen.C351_unwritten_partial": [
"Classical.choice",
"Quot.sound",
"propext"
],
"Verif.Nomen.C352_added_partial": [
"Classical.choice",
"Quot.sound",
"propext"
],
"Verif.Nomen.C352_full_partial": [
"Quot.sound",
"propext"
],
"Verif.Nomen.C352_refuted": [
"propext"
],
"Verif.Nomen.C353_clean_partial": [
"Classical.choice",
"Quot.sound",
"propext"
],
"Verif.Nomen.C353_refuted": [
"propext"
],
"Verif.Nomen.C353_written_partial": [
"propext"
],
"Verif.Nomen.C354_refuted": [
"propext"
],
"Verif.Nomen.C354_taken_partial": [
"Quot.sound",
"propext"
],
"Verif.Nomen.C355_clean_partial": [
"Classical.choice",
"Quot.sound",
"propext"
],
"Verif.Nomen.C355_periods_partial": [
"Classical.choice",
"Quot.sound",
"propext"
],
"Verif.Nomen.C355_refuted": [
"propext"
],
"Verif.Nomen.C356_kept_partial": [
"propext"
],
"Verif.Nomen.C356_refuted": [
"propext"
],
"Verif.Nomen.C356_renewed_partial": [
"Classical.choice",
"Quot.sound",
"propext"
],
"Verif.Nomen.C357_first_partial": [
"Quot.sound",
"propext"
],
"Verif.Nomen.C357_kept_partial": [
"propext"
],
"Verif.Nomen.C357_refuted": [
"propext"
],
"Verif.Nomen.C358_apart": [
"Quot.sound",
"propext"
],
"Verif.Nomen.C358_copy": [
"Quot.sound",
"propext"
],
"Verif.NormFreq.C332_middle_partial": [
"Classical.choice",
"Quot.sound",
"propext"
],
"Verif.NormFreq.C332_refuted": [
"Classical.choice",
"Quot.sound",
"propext"
],
"Verif.NormFreq.C332_small_partial": [
"Classical.choice",
"Quot.sound",
"propext"
],
"Verif.NormFreq.C333_refuted": [
"Classical.choice",
"Quot.sound",
"propext"
],
"Verif.NormFreq.C333_zero_partial": [
"Classical.choice",
"Quot.sound",
"propext"
],
"Verif.NormFreq.C334_found_partial": [
"Classical.choice",
"Quot.sound",
"propext"
],
"Verif.NormFreq.C334_kept_partial": [
"Classical.choice",
"Quot.sound",
"propext"
],
"Verif.NormFreq.C334_refuted": [
"Classical.choice",
"Quot.sound",
"propext"
],
"Verif.Processing.C101_distinct_partial": [
"Classical.choice",
"Quot.sound",
"propext"
],
"Verif.Processing.C101_last": [
"Classical.choice",
"Quot.sound",
"propext"
],
"Verif.Processing.C101_refuted": [
"Classical.choice",
"Quot.sound",
"propext"
],
"Verif.Processing.C54_default_partial": [
"Classical.choice",
"Quot.sound",
"propext"
],
"Verif.Processing.C54_levels_partial": [
"Classical.choice",
"Quot.sound",
"propext"
],
"Verif.Processing.C54_refuted": [
"Classical.choice",
"Quot.sound",
"propext"
],
"Verif.Processing.C54_zero_factor": [
"Classical.choice",
"Quot.sound",
"propext"
],
"Verif.Processing.C55_bands": [
"Classical.choice",
"Quot.sound",
"propext"
],
"Verif.Processing.C55_gap": [
"Classical.choice",
"Quot.sound",
"propext"
],
"Verif.Processing.C55_level_bands": [
"Classical.choice",
"Quot.sound",
"propext"
],
"Verif.Processing.C55_order": [
"Quot.sound",
"propext"
],
"Verif.Processing.C55_rate_partial": [
"Classical.choice",
"Quot.sound",
"propext"
],
"Verif.Processing.C55_refuted": [
"Classical.choice",
"Quot.sound",
"propext"
],
"Verif.Processing.C55_uniform_partial": [
"Classical.choice",
"Quot.sound",
"propext"
],
"Verif.Processing.C56_dicts_partial": [
"Quot.sound",
"propext"
],
"Verif.Processing.C56_get": [
"Quot.sound",
"propext"
],
"Verif.Processing.C56_get_missing": [
"Quot.sound",
"propext"
],
"Verif.Processing.C56_iff": [
"Quot.sound",
"propext"
],
"Verif.Processing.C56_list_partial": [
"propext"
],
"Verif.Processing.C56_mapping": [
"propext"
],
"Verif.Processing.C56_other": [
"Quot.sound",
"propext"
],
"Verif.Processing.C56_refuted": [
"propext"
],
"Verif.Processing.C57_alias": [
"Classical.choice",
"Quot.sound",
"propext"
],
"Verif.Processing.C57_archive_partial": [
"Classical.choice",
"Quot.sound",
"propext"
],
"Verif.Processing.C57_harmonics": [
"Classical.choice",
"Quot.sound",
"propext"
],
"Verif.Processing.C57_iff": [
"Classical.choice",
"Quot.sound",
"propext"
],
"Verif.Processing.C57_refuted": [
"Classical.choice",
"Quot.sound",
"propext"
],
"Verif.Processing.C57_total": [
"Quot.sound",
"propext"
],
"Verif.Processing.C58_harmonics": [
"Classical.choice",
"Quot.sound",
"propext"
],
"Verif.Processing.C58_range": [
"Classical.choice",
"Quot.sound",
"propext"
],
"Verif.Processing.C59_current_partial": [
"Classical.choice",
"Quot.sound",
"propext"
],
"Verif.Processing.C59_normalized": [
"Classical.choice",
"Quot.sound",
"propext"
],
"Verif.Processing.C59_refuted": [
"Classical.choice",
"Quot.sound",
"propext"
],
"Verif.Processing.C59_taper_partial": [
"Classical.choice",
"Quot.sound",
"propext"
],
"Verif.Processing.C60_fit_partial": [
"Quot.sound",
"propext"
],
"Verif.Processing.C60_monotone": [
"Quot.sound",
"propext"
],
"Verif.Processing.C60_refuted": [
"Quot.sound",
"propext"
],
"Verif.Processing.C60_zero_partial": [
"Classical.choice",
"Quot.sound",
"propext"
],
"Verif.PzNorm.C414_between": [
"Classical.choice",
"Quot.sound",
"propext"
],
"Verif.PzNorm.C414_flat": [
"Classical.choice",
"Quot.sound",
"propext"
],
"Verif.PzNorm.C414_none": [
"Classical.choice",
"Quot.sound",
"propext"
],
"Verif.PzNorm.C414_one": [
"Classical.choice",
"Quot.sound",
"propext"
],
"Verif.PzNorm.C414_value": [
"Classical.choice",
"Quot.sound",
"propext"
],
"Verif.PzNorm.C414_whole": [
"Classical.choice",
"Quot.sound",
"propext"
],
"Verif.Rename.C252_after_partial": [
"Classical.choice",
"Quot.sound",
"propext"
],
"Verif.Rename.C252_exchange_partial": [
"Classical.choice",
"Quot.sound",
"propext"
],
"Verif.Rename.C252_keys_partial": [
"Classical.choice",
"Quot.sound",
"propext"
],
"Verif.Rename.C252_refuted": [
"Classical.choice",
"Quot.sound",
"propext"
],
"Verif.Rename.C253_runs": [
"Classical.choice",
"Quot.sound",
"propext"
],
"Verif.RespUnits.C410_assigned_partial": [
"Quot.sound",
"propext"
],
"Verif.RespUnits.C410_empty_partial": [],
"Verif.RespUnits.C410_partial": [
"Classical.choice",
"Quot.sound",
"propext"
],
"Verif.RespUnits.C410_refuted": [],
"Verif.RespUnits.C410_taken_partial": [
"Quot.sound",
"propext"
],
"Verif.RespUnits.C410_units_partial": [
"Quot.sound",
"propext"
],
"Verif.RunLists.C366_array_partial": [
"Classical.choice",
"Quot.sound",
"propext"
],
"Verif.RunLists.C366_none_partial": [
"Classical.choice",
"Quot.sound",
"propext"
],
"Verif.RunLists.C366_read_partial": [
"Classical.choice",
"Quot.sound",
"propext"
],
"Verif.RunLists.C366_refuted": [
"Classical.choice",
"Quot.sound",
"propext"
],
"Verif.RunLists.C367_first_partial": [
"Classical.choice",
"Quot.sound",
"propext"
],
"Verif.RunLists.C367_refuted": [
"Classical.choice",
"Quot.sound",
"propext"
],
"Verif.RunLists.C368_after_partial": [
"Classical.choice",
"Quot.sound",
"propext"
],
"Verif.RunLists.C368_refuted": [
"Classical.choice",
"Quot.sound",
"propext"
],
"Verif.RunLists.C369_iff_partial": [
"Classical.choice",
"Quot.sound",
"propext"
],
"Verif.RunLists.C369_input_partial": [
"Classical.choice",
"Quot.sound",
"propext"
],
"Verif.RunLists.C369_left_partial": [
"Classical.choice",
"Quot.sound",
"propext"
],
"Verif.RunLists.C369_refuted": [
"Classical.choice",
"Quot.sound",
"propext"
],
"Verif.RunLists.C370_index_partial": [
"Classical.choice",
"Quot.sound",
"propext"
],
"Verif.RunLists.C370_refuted": [
"Classical.choice",
"Quot.sound",
"propext"
],
"Verif.Runs.C30_assign": [
"Classical.choice",
"Quot.sound",
"propext"
],
"Verif.Runs.C30_has_channel": [
"Classical.choice",
"Quot.sound",
"propext"
],
"Verif.Runs.C30_lists": [
"Classical.choice",
"Quot.sound",
"propext"
],
"Verif.Runs.C30_total": [
"Classical.choice",
"Quot.sound",
"propext"
],
"Verif.Runs.C31_add": [
"Classical.choice",
"Quot.sound",
"propext"
],
"Verif.Runs.C31_carries_partial": [
"Classical.choice",
"Quot.sound",
"propext"
],
"Verif.Runs.C31_refuted": [
"Classical.choice",
"Quot.sound",
"propext"
],
"Verif.Runs.C31_remove": [
"Classical.choice",
"Quot.sound",
"propext"
],
"Verif.Runs.C32_agree_partial": [
"Classical.choice",
"Quot.sound",
"propext"
],
"Verif.Runs.C32_h_differs": [
"Classical.choice",
"Quot.sound",
"propext"
],
"Verif.Runs.C32_missing_type": [
"Classical.choice",
"Quot.sound",
"propext"
],
"Verif.Runs.C32_refuted": [
"Classical.choice",
"Quot.sound",
"propext"
],
"Verif.Runs.C33_add_channel": [
"Classical.choice",
"Quot.sound",
"propext"
],
"Verif.Runs.C33_covers": [
"Quot.sound",
"propext"
],
"Verif.Runs.C33_default_replaced": [
"Quot.sound",
"propext"
],
"Verif.Runs.C33_idempotent": [
"Quot.sound",
"propext"
],
"Verif.Runs.C34_merge_partial": [
"Classical.choice",
"Quot.sound",
"propext"
],
"Verif.Runs.C34_refuted": [
"Classical.choice",
"Quot.sound",
"propext"
],
"Verif.Schema.C335_flips_partial": [
"Classical.choice",
"Quot.sound",
"propext"
],
"Verif.Schema.C335_given_partial": [
"Classical.choice",
"Quot.sound",
"propext"
],
"Verif.Schema.C335_optional_partial": [
"Classical.choice",
"Quot.sound",
"propext"
],
"Verif.Schema.C335_refuted": [
"Classical.choice",
"Quot.sound",
"propext"
],
"Verif.Schema.C336_boolean_partial": [
"Classical.choice",
"Quot.sound",
"propext"
],
"Verif.Schema.C336_given_partial": [
"Classical.choice",
"Quot.sound",
"propext"
],
"Verif.Schema.C336_refuted": [
"Classical.choice",
"Quot.sound",
"propext"
],
"Verif.Schema.C337_optional_partial": [
"Classical.choice",
"Quot.sound",
"propext"
],
"Verif.Schema.C337_refuted": [
"Classical.choice",
"Quot.sound",
"propext"
],
"Verif.Schema.C337_required_partial": [
"Classical.choice",
"Quot.sound",
"propext"
],
"Verif.Schema.C338_lost_partial": [
"Classical.choice",
"Quot.sound",
"propext"
],
"Verif.Schema.C338_refuted": [
"Classical.choice",
"Quot.sound",
"propext"
],
"Verif.Schema.C338_text_partial": [
"Classical.choice",
"Quot.sound",
"propext"
],
"Verif.Schema.C338_whole_partial": [
"Classical.choice",
"Quot.sound",
"propext"
],
"Verif.Schema.C339_found_partial": [
"Classical.choice",
"Quot.sound",
"propext"
],
"Verif.Schema.C339_names_partial": [
"Classical.choice",
"Quot.sound",
"propext"
],
"Verif.Schema.C339_refuted": [
"Classical.choice",
"Quot.sound",
"propext"
],
"Verif.Schema.C340_line_partial": [
"Classical.choice",
"Quot.sound",
"propext"
],
"Verif.Schema.C340_refuted": [
"Classical.choice",
"Quot.sound",
"propext"
],
"Verif.Schema.C341_keys": [
"Classical.choice",
"Quot.sound",
"propext"
],
"Verif.Schema.C341_order": [
"Classical.choice",
"Quot.sound",
"propext"
],
"Verif.Schema.C342_missing_partial": [
"Classical.choice",
"Quot.sound",
"propext"
],
"Verif.Schema.C342_refuted": [
"Classical.choice",
"Quot.sound",
"propext"
],
"Verif.Schema.C342_same_partial": [
"Classical.choice",
"Quot.sound",
"propext"
],
"Verif.Schema.C343_added": [
"Classical.choice",
"Quot.sound",
"propext"
],
"Verif.Schema.C343_rest": [
"Classical.choice",
"Quot.sound",
"propext"
],
"Verif.Schema.C344_refuted": [
"Classical.choice",
"Quot.sound",
"propext"
],
"Verif.Schema.C344_same_partial": [
"Classical.choice",
"Quot.sound",
"propext"
],
"Verif.Stages.C207_refuted": [
"Classical.choice",
"Quot.sound",
"propext"
],
"Verif.Stages.C207_response_partial": [
"Classical.choice",
"Quot.sound",
"propext"
],
"Verif.Stages.C208_kept_partial": [
"Classical.choice",
"Quot.sound",
"propext"
],
"Verif.Stages.C208_refuted": [
"Classical.choice",
"Quot.sound",
"propext"
],
"Verif.Stages.C209_class_partial": [
"Classical.choice",
"Quot.sound",
"propext"
],
"Verif.Stages.C209_refuted": [
"Classical.choice",
"Quot.sound",
"propext"
],
"Verif.Stages.C210_coefficients_partial": [
"Classical.choice",
"Quot.sound",
"propext"
],
"Verif.Stages.C210_gains_partial": [
"Classical.choice",
"Quot.sound",
"propext"
],
"Verif.Stages.C210_refuted": [
"Classical.choice",
"Quot.sound",
"propext"
],
"Verif.Stages.C211_sensitivity": [
"Classical.choice",
"Quot.sound",
"propext"
],
"Verif.Stages.C212_names_partial": [
"Classical.choice",
"Quot.sound",
"propext"
],
"Verif.Stages.C212_refuted": [
"Classical.choice",
"Quot.sound",
"propext"
],
"Verif.Stages.C213_new_partial": [
"Classical.choice",
"Quot.sound",
"propext"
],
"Verif.Stages.C213_refuted": [
"Classical.choice",
"Quot.sound",
"propext"
],
"Verif.Stages.C213_type_error_partial": [
"Classical.choice",
"Quot.sound",
"propext"
],
"Verif.Stages.C214_last_partial": [
"Classical.choice",
"Quot.sound",
"propext"
],
"Verif.Stages.C214_none_partial": [
"Classical.choice",
"Quot.sound",
"propext"
],
"Verif.Stages.C214_refuted": [
"Classical.choice",
"Quot.sound",
"propext"
],
"Verif.Stages.C215_direction_partial": [
"Classical.choice",
"Quot.sound",
"propext"
],
"Verif.Stages.C215_refuted": [
"Classical.choice",
"Quot.sound",
"propext"
],
"Verif.Stages.C216_position_partial": [
"Classical.choice",
"Quot.sound",
"propext"
],
"Verif.Stages.C216_refuted": [
"Classical.choice",
"Quot.sound",
"propext"
],
"Verif.Standards.C396_default_partial": [
"Classical.choice",
"Quot.sound",
"propext"
],
"Verif.Standards.C396_iff_partial": [
"Classical.choice",
"Quot.sound",
"propext"
],
"Verif.Standards.C396_refuted": [
"Classical.choice",
"Quot.sound",
"propext"
],
"Verif.Standards.C397_none_partial": [
"Classical.choice",
"Quot.sound",
"propext"
],
"Verif.Standards.C397_refuted": [
"Classical.choice",
"Quot.sound",
"propext"
],
"Verif.Standards.C397_times_partial": [
"Classical.choice",
"Quot.sound",
"propext"
],
"Verif.Standards.C398_cut_partial": [
"Classical.choice",
"Quot.sound",
"propext"
],
"Verif.Standards.C398_refuted": [
"Classical.choice",
"Quot.sound",
"propext"
],
"Verif.Standards.C398_rows_partial": [
"Classical.choice",
"Quot.sound",
"propext"
],
"Verif.Standards.C398_same_partial": [
"propext"
],
"Verif.Standards.C398_values_partial": [
"Classical.choice",
"Quot.sound",
"propext"
],
"Verif.Standards.C399_iff_partial": [
"Quot.sound",
"propext"
],
"Verif.Standards.C399_own_partial": [
"Quot.sound",
"propext"
],
"Verif.Standards.C399_refuted": [
"Classical.choice",
"Quot.sound",
"propext"
],
"Verif.Standards.C399_valid_partial": [
"Quot.sound",
"propext"
],
"Verif.Standards.C400_error_partial": [
"propext"
],
"Verif.Standards.C400_file_partial": [
"propext"
],
"Verif.Standards.C400_form_partial": [
"propext"
],
"Verif.Standards.C400_refuted": [
"Classical.choice",
"Quot.sound",
"propext"
],
"Verif.Stations.C35_order_partial": [
"Classical.choice",
"Quot.sound",
"propext"
],
"Verif.Stations.C35_refuted": [
"Classical.choice",
"Quot.sound",
"propext"
],
"Verif.Stations.C35_run_list_partial": [
"Classical.choice",
"Quot.sound",
"propext"
],
"Verif.Stations.C35_total_partial": [
"Classical.choice",
"Quot.sound",
"propext"
],
"Verif.Stations.C36_adds_exact": [
"Classical.choice",
"Quot.sound",
"propext"
],
"Verif.Stations.C36_covered_partial": [
"Classical.choice",
"Quot.sound",
"propext"
],
"Verif.Stations.C36_names_survive": [
"Classical.choice",
"Quot.sound",
"propext"
],
"Verif.Stations.C36_others_partial": [
"Classical.choice",
"Quot.sound",
"propext"
],
"Verif.Stations.C36_refuted": [
"Classical.choice",
"Quot.sound",
"propext"
],
"Verif.Stations.C36_stale_recorded": [
"Classical.choice",
"Quot.sound",
"propext"
],
"Verif.Stations.C37_never_partial": [
"Quot.sound",
"propext"
],
"Verif.Stations.C37_refuted": [
"propext"
],
"Verif.Stations.C38_after_add": [
"Classical.choice",
"Quot.sound",
"propext"
],
"Verif.Stations.C38_covers": [
"Quot.sound",
"propext"
],
"Verif.Stations.C38_grows": [
"Quot.sound",
"propext"
],
"Verif.Stations.C38_idempotent": [
"Quot.sound",
"propext"
],
"Verif.Stations.C83_default_partial": [
"Classical.choice",
"Quot.sound",
"propext"
],
"Verif.Stations.C83_refuted": [
"Classical.choice",
"Quot.sound",
"propext"
],
"Verif.StdFields.C401_all_partial": [
"Quot.sound",
"propext"
],
"Verif.StdFields.C401_iff_partial": [
"Quot.sound",
"propext"
],
"Verif.StdFields.C401_optional_partial": [
"propext"
],
"Verif.StdFields.C401_refuted": [
"Classical.choice",
"Quot.sound",
"propext"
],
"Verif.StdFields.C402_enum": [
"Classical.choice",
"Quot.sound",
"propext"
],
"Verif.StdFields.C402_first": [
"Classical.choice",
"Quot.sound",
"propext"
],
"Verif.StdFields.C402_none": [
"Classical.choice",
"Quot.sound",
"propext"
],
"Verif.Surveys.C39_order": [
"Classical.choice",
"Quot.sound",
"propext"
],
"Verif.Surveys.C39_tight": [
"Classical.choice",
"Quot.sound",
"propext"
],
"Verif.Surveys.C39_unchanged": [
"Quot.sound",
"propext"
],
"Verif.Surveys.C40_add": [
"Classical.choice",
"Quot.sound",
"propext"
],
"Verif.Surveys.C40_has_get": [
"Quot.sound",
"propext"
],
"Verif.Surveys.C40_last_op": [
"Classical.choice",
"Quot.sound",
"propext"
],
"Verif.Surveys.C40_remove": [
"Classical.choice",
"Quot.sound",
"propext"
],
"Verif.Surveys.C40_remove_box": [
"Classical.choice",
"Quot.sound",
"propext"
],
"Verif.Surveys.C40_total": [
"Classical.choice",
"Quot.sound",
"propext"
],
"Verif.Surveys.C41_add": [
"Quot.sound",
"propext"
],
"Verif.Surveys.C41_distinct": [
"Quot.sound",
"propext"
],
"Verif.Surveys.C41_merge": [
"Quot.sound",
"propext"
],
"Verif.Surveys.C84_own_runs_partial": [
"Classical.choice",
"Quot.sound",
"propext"
],
"Verif.Surveys.C84_refuted": [
"Classical.choice",
"Quot.sound",
"propext"
],
"Verif.Surveys.C85_effect_partial": [
"Quot.sound",
"propext"
],
"Verif.Surveys.C85_refuted": [
"Quot.sound",
"propext"
],
"Verif.Surveys.C86_covers": [
"Quot.sound",
"propext"
],
"Verif.Surveys.C86_grows": [
"propext"
],
"Verif.Tf.C135_order_refuted": [
"Classical.choice",
"Quot.sound",
"propext"
],
"Verif.Tf.C135_partial": [
"Classical.choice",
"Quot.sound",
"propext"
],
"Verif.Tf.C135_refuted": [
"Classical.choice",
"Quot.sound",
"propext"
],
"Verif.Tf.C135_set_get_partial": [
"Classical.choice",
"Quot.sound",
"propext"
],
"Verif.Tf.C136_partial": [
"Classical.choice",
"Quot.sound",
"propext"
],
"Verif.Tf.C136_refuted": [
"Classical.choice",
"Quot.sound",
"propext"
],
"Verif.Tf.C137_errors": [
"Classical.choice",
"Quot.sound",
"propext"
],
"Verif.Tf.C138_labels_partial": [
"Classical.choice",
"Quot.sound",
"propext"
],
"Verif.Tf.C138_refuse_partial": [
"Classical.choice",
"Quot.sound",
"propext"
],
"Verif.Tf.C138_refuted": [
"Classical.choice",
"Quot.sound",
"propext"
],
"Verif.Tf.C139_default_partial": [
"Classical.choice",
"Quot.sound",
"propext"
],
"Verif.Tf.C139_partial": [
"Classical.choice",
"Quot.sound",
"propext"
],
"Verif.Tf.C139_refuted": [
"Classical.choice",
"Quot.sound",
"propext"
],
"Verif.TfConvert.C183_missing": [
"Classical.choice",
"Quot.sound",
"propext"
],
"Verif.TfConvert.C183_partial": [
"Classical.choice",
"Quot.sound",
"propext"
],
"Verif.TfConvert.C183_refuted": [
"Classical.choice",
"Quot.sound",
"propext"
],
"Verif.TfConvert.C184_partial": [
"Classical.choice",
"Quot.sound",
"propext"
],
"Verif.TfConvert.C184_refuted": [
"Classical.choice",
"Quot.sound",
"propext"
],
"Verif.TfConvert.C185_partial": [
"Classical.choice",
"Quot.sound",
"propext"
],
"Verif.TfConvert.C185_refuted": [
"Classical.choice",
"Quot.sound",
"propext"
],
"Verif.TfConvert.C186_edi": [
"Classical.choice",
"Quot.sound",
"propext"
],
"Verif.TfConvert.C187_partial": [
"Classical.choice",
"Quot.sound",
"propext"
],
"Verif.TfConvert.C187_refuted": [
"Classical.choice",
"Quot.sound",
"propext"
],
"Verif.TfConvert.C188_partial": [
"Classical.choice",
"Quot.sound",
"propext"
],
"Verif.TfConvert.C188_refuted": [
"Classical.choice",
"Quot.sound",
"propext"
],
"Verif.TfConvert.C189_empty": [
"Classical.choice",
"Quot.sound",
"propext"
],
"Verif.TfConvert.C189_partial": [
"Classical.choice",
"Quot.sound",
"propext"
],
"Verif.TfConvert.C189_refuted": [
"Classical.choice",
"Quot.sound",
"propext"
],
"Verif.TfConvert.C190_partial": [
"Classical.choice",
"Quot.sound",
"propext"
],
"Verif.TfConvert.C190_refuted": [
"Classical.choice",
"Quot.sound",
"propext"
],
"Verif.TfConvert.C190_zero": [
"Classical.choice",
"Quot.sound",
"propext"
],
"Verif.TfConvert.C191_never": [
"Classical.choice",
"Quot.sound",
"propext"
],
"Verif.TfConvert.C191_partial": [
"Classical.choice",
"Quot.sound",
"propext"
],
"Verif.TfConvert.C191_refuted": [
"Classical.choice",
"Quot.sound",
"propext"
],
"Verif.TfMerge.C166_descending": [
"Classical.choice",
"Quot.sound",
"propext"
],
"Verif.TfMerge.C166_partial": [
"Classical.choice",
"Quot.sound",
"propext"
],
"Verif.TfMerge.C166_refuted": [
"Quot.sound",
"propext"
],
"Verif.TfMerge.C166_rows": [
"Classical.choice",
"Quot.sound",
"propext"
],
"Verif.TfMerge.C167_lost": [
"Classical.choice",
"Quot.sound",
"propext"
],
"Verif.TfMerge.C167_partial": [
"Classical.choice",
"Quot.sound",
"propext"
],
"Verif.TfMerge.C167_refuted": [
"Classical.choice",
"Quot.sound",
"propext"
],
"Verif.TfMerge.C168_never": [
"Classical.choice",
"Quot.sound",
"propext"
],
"Verif.TfMerge.C168_partial": [
"Classical.choice",
"Quot.sound",
"propext"
],
"Verif.TfMerge.C168_refuted": [
"Quot.sound",
"propext"
],
"Verif.TfMerge.C169_partial": [
"Classical.choice",
"Quot.sound",
"propext"
],
"Verif.TfMerge.C169_refuted": [
"Quot.sound",
"propext"
],
"Verif.TfMerge.C170_partial": [
"propext"
],
"Verif.TfMerge.C170_refuted": [
"propext"
],
"Verif.TfMerge.C170_sorted": [
"Quot.sound",
"propext"
],
"Verif.TfMerge.C171_partial": [
"Classical.choice",
"Quot.sound",
"propext"
],
"Verif.TfMerge.C171_refuted": [
"Classical.choice",
"Quot.sound",
"propext"
],
"Verif.TfMerge.C172_inplace": [
"Quot.sound",
"propext"
],
"Verif.TfMerge.C173_errors": [
"Classical.choice",
"Quot.sound",
"propext"
],
"Verif.TfMerge.C173_other": [
"Classical.choice",
"Quot.sound",
"propext"
],
"Verif.TfMerge.C173_partial": [
"Classical.choice",
"Quot.sound",
"propext"
],
"Verif.TfMerge.C173_refuted": [
"Classical.choice",
"Quot.sound",
"propext"
],
"Verif.TfMerge.C173_same": [
"Classical.choice",
"Quot.sound",
"propext"
],
"Verif.TfMerge.C174_partial": [
"Classical.choice",
"Quot.sound",
"propext"
],
"Verif.TfMerge.C174_refuted": [
"Classical.choice",
"Quot.sound",
"propext"
],
"Verif.TfMerge.C174_suffix": [
"Classical.choice",
"Quot.sound",
"propext"
],
"Verif.TfMerge.C174_types": [
"Classical.choice",
"Quot.sound",
"propext"
],
"Verif.TfMerge.C175_partial": [
"Classical.choice",
"Quot.sound",
"propext"
],
"Verif.TfMerge.C175_path": [
"Classical.choice",
"Quot.sound",
"propext"
],
"Verif.TfMerge.C175_refuted": [
"Classical.choice",
"Quot.sound",
"propext"
],
"Verif.TfMerge.C175_suffix": [
"Classical.choice",
"Quot.sound",
"propext"
],
"Verif.TfMeta.C254_survey": [
"Classical.choice",
"Quot.sound",
"propext"
],
"Verif.TfMeta.C255_first_partial": [
"Classical.choice",
"Quot.sound",
"propext"
],
"Verif.TfMeta.C255_refuted": [
"Classical.choice",
"Quot.sound",
"propext"
],
"Verif.TfMeta.C255_stations_partial": [
"Classical.choice",
"Quot.sound",
"propext"
],
"Verif.TfMeta.C256_empty_partial": [
"Classical.choice",
"Quot.sound",
"propext"
],
"Verif.TfMeta.C256_old_partial": [
"Classical.choice",
"Quot.sound",
"propext"
],
"Verif.TfMeta.C256_refuted": [
"Classical.choice",
"Quot.sound",
"propext"
],
"Verif.TfMeta.C256_runs_partial": [
"Classical.choice",
"Quot.sound",
"propext"
],
"Verif.TfMeta.C257_edi": [
"Classical.choice",
"Quot.sound",
"propext"
],
"Verif.TfMeta.C257_emtfxml": [
"Classical.choice",
"Quot.sound",
"propext"
],
"Verif.TfMeta.C257_zmm": [
"Classical.choice",
"Quot.sound",
"propext"
],
"Verif.TfMeta.C258_kept_partial": [
"Classical.choice",
"Quot.sound",
"propext"
],
"Verif.TfMeta.C258_partial": [
"Classical.choice",
"Quot.sound",
"propext"
],
"Verif.TfMeta.C258_refuted": [
"Classical.choice",
"Quot.sound",
"propext"
],
"Verif.TfMeta.C259_never_partial": [
"propext"
],
"Verif.TfMeta.C259_refuted": [
"Classical.choice",
"Quot.sound",
"propext"
],
"Verif.ToZmm.C406_changed_partial": [
"Quot.sound",
"propext"
],
"Verif.ToZmm.C406_iff_partial": [
"Quot.sound",
"propext"
],
"Verif.ToZmm.C406_refuted": [],
"Verif.ToZmm.C406_rest_partial": [
"propext"
],
"Verif.ToZmm.C407_again_partial": [
"Classical.choice",
"Quot.sound",
"propext"
],
"Verif.ToZmm.C407_data_partial": [
"Quot.sound",
"propext"
],
"Verif.ToZmm.C407_recorded_partial": [
"Quot.sound",
"propext"
],
"Verif.ToZmm.C407_refuted": [
"Classical.choice",
"Quot.sound",
"propext"
],
"Verif.ToZmm.C407_same_partial": [
"Quot.sound",
"propext"
],
"Verif.TsStation.C408_field_partial": [
"Quot.sound",
"propext"
],
"Verif.TsStation.C408_others_partial": [
"Quot.sound",
"propext"
],
"Verif.TsStation.C408_refuted": [
"Classical.choice",
"Quot.sound",
"propext"
],
"Verif.TsStation.C408_says_partial": [
"Quot.sound",
"propext"
],
"Verif.TsStation.C408_stays_partial": [
"Classical.choice",
"Quot.sound",
"propext"
],
"Verif.TsStation.C409_back": [
"Classical.choice",
"Quot.sound",
"propext"
],
"Verif.TsStation.C409_none": [
"Classical.choice",
"Quot.sound",
"propext"
],
"Verif.TsStation.C409_values": [
"Classical.choice",
"Quot.sound",
"propext"
],
"Verif.Units.C45_combined": [
"Classical.choice",
"Quot.sound",
"propext"
],
"Verif.Units.C45_parse": [
"Classical.choice",
"Quot.sound",
"propext"
],
"Verif.Units.C92_name_partial": [
"Classical.choice",
"Quot.sound",
"propext"
],
"Verif.Units.C92_refuted": [
"Classical.choice",
"Quot.sound",
"propext"
],
"Verif.Units.C92_si_partial": [
"Classical.choice",
"Quot.sound",
"propext"
],
"Verif.Units.C92_symbol_partial": [
"Classical.choice",
"Quot.sound",
"propext"
],
"Verif.Units.C93_refuted": [
"Classical.choice",
"Quot.sound",
"propext"
],
"Verif.Units.C93_stable_partial": [
"Classical.choice",
"Quot.sound",
"propext"
],
"Verif.WebLinks.C412_emptied_partial": [],
"Verif.WebLinks.C412_history_partial": [
"propext"
],
"Verif.WebLinks.C412_refuted": [
"propext"
],
"Verif.WebLinks.C412_taken_partial": [
"propext"
],
"Verif.WebLinks.C413_nulls_partial": [
"Classical.choice",
"Quot.sound",
"propext"
],
"Verif.WebLinks.C413_partial": [
"Classical.choice",
"Quot.sound",
"propext"
],
"Verif.WebLinks.C413_refuted": [
"Classical.choice",
"Quot.sound",
"propext"
],
"Verif.Weights.C104_flag_partial": [
"Classical.choice",
"Quot.sound",
"propext"
],
"Verif.Weights.C104_refuted": [
"Classical.choice",
"Quot.sound",
"propext"
],
"Verif.Weights.C105_kept_partial": [
"Classical.choice",
"Quot.sound",
"propext"
],
"Verif.Weights.C105_refuted": [
"Classical.choice",
"Quot.sound",
"propext"
],
"Verif.Weights.C106_cut_partial": [
"Classical.choice",
"Quot.sound",
"propext"
],
"Verif.Weights.C106_monotone": [
"Classical.choice",
"Quot.sound",
"propext"
],
"Verif.Weights.C106_range": [
"Classical.choice",
"Quot.sound",
"propext"
],
"Verif.Weights.C106_refuted": [
"Classical.choice",
"Quot.sound",
"propext"
],
"Verif.Weights.C107_band": [
"Classical.choice",
"Quot.sound",
"propext"
],
"Verif.Weights.C107_range": [
"Classical.choice",
"Quot.sound",
"propext"
],
"Verif.Weights.C107_refused": [
"Classical.choice",
"Quot.sound",
"propext"
],
"Verif.Weights.C108_closest": [
"Classical.choice",
"Quot.sound",
"propext"
],
"Verif.Weights.C108_empty": [
"Classical.choice",
"Quot.sound",
"propext"
],
"Verif.Weights.C67_hann_complement": [
"Classical.choice",
"Quot.sound",
"propext"
],
"Verif.Weights.C67_monotone": [
"Classical.choice",
"Quot.sound",
"propext"
],
"Verif.Weights.C67_nan": [
"Classical.choice",
"Quot.sound",
"propext"
],
"Verif.Weights.C67_outside_hamming": [
"Classical.choice",
"Quot.sound",
"propext"
],
"Verif.Weights.C67_outside_partial": [
"Classical.choice",
"Quot.sound",
"propext"
],
"Verif.Weights.C67_range": [
"Classical.choice",
"Quot.sound",
"propext"
],
"Verif.Weights.C67_refuted": [
"Classical.choice",
"Quot.sound",
"propext"
],
"Verif.Weights.C68_elementwise": [
"Classical.choice",
"Quot.sound",
"propext"
],
"Verif.Weights.C68_feature": [
"Classical.choice",
"Quot.sound",
"propext"
],
"Verif.Weights.C68_missing": [
"Classical.choice",
"Quot.sound",
"propext"
],
"Verif.Weights.C68_nan": [
"Classical.choice",
"Quot.sound",
"propext"
],
"Verif.Weights.C68_neutral_partial": [
"Classical.choice",
"Quot.sound",
"propext"
],
"Verif.Weights.C68_no_features": [
"Classical.choice",
"Quot.sound",
"propext"
],
"Verif.Weights.C68_order": [
"Classical.choice",
"Quot.sound",
"propext"
],
"Verif.Weights.C68_range": [
"Classical.choice",
"Quot.sound",
"propext"
],
"Verif.Weights.C68_range_feature": [
"Classical.choice",
"Quot.sound",
"propext"
],
"Verif.Weights.C68_refuted": [
"Classical.choice",
"Quot.sound",
"propext"
],
"Verif.Weights.C69_refuted": [
"Classical.choice",
"Quot.sound",
"propext"
],
"Verif.Weights.C69_taper_partial": [
"Classical.choice",
"Quot.sound",
"propext"
],
"Verif.Xml.C14_normal_form": [
"Quot.sound",
"propext"
],
"Verif.Xml.C14_refuted": [
"Classical.choice",
"Quot.sound",
"propext"
],
"Verif.Xml.C14_xml_roundtrip_partial": [
"Classical.choice",
"Quot.sound",
"propext"
],
"Verif.XmlEpochs.C126_partial": [
"Classical.choice",
"Quot.sound",
"propext"
],
"Verif.XmlEpochs.C126_refuted": [
"Classical.choice",
"Quot.sound",
"propext"
],
"Verif.XmlEpochs.C126_stale_partial": [
"Classical.choice",
"Quot.sound",
"propext"
],
"Verif.XmlEpochs.C127_by_time": [
"Classical.choice",
"Quot.sound",
"propext"
],
"Verif.XmlEpochs.C127_one_run_partial": [
"Classical.choice",
"Quot.sound",
"propext"
],
"Verif.XmlEpochs.C127_refuted": [
"Classical.choice",
"Quot.sound",
"propext"
],
"Verif.XmlEpochs.C74_apart_partial": [
"Classical.choice",
"Quot.sound",
"propext"
],
"Verif.XmlEpochs.C74_apart_refuted": [
"Classical.choice",
"Quot.sound",
"propext"
],
"Verif.XmlEpochs.C74_equivalence": [
"propext"
],
"Verif.XmlEpochs.C74_held": [
"Classical.choice",
"Quot.sound",
"propext"
],
"Verif.XmlEpochs.C74_made": [
"Classical.choice",
"Quot.sound",
"propext"
],
"Verif.XmlEpochs.C74_refuted": [
"Classical.choice",
"Quot.sound",
"propext"
],
"Verif.XmlEpochs.C74_same_partial": [
"Classical.choice",
"Quot.sound",
"propext"
],
"Verif.XmlSensor.C327_iff_partial": [
"Classical.choice",
"Quot.sound",
"propext"
],
"Verif.XmlSensor.C327_refuted": [
"Classical.choice",
"Quot.sound",
"propext"
],
"Verif.XmlSensor.C327_trip_partial": [
"Classical.choice",
"Quot.sound",
"propext"
],
"Verif.XmlSensor.C328_blank_partial": [
"Classical.choice",
"Quot.sound",
"propext"
],
"Verif.XmlSensor.C328_known_partial": [
"Classical.choice",
"Quot.sound",
"propext"
],
"Verif.XmlSensor.C328_none_partial": [
"Classical.choice",
"Quot.sound",
"propext"
],
"Verif.XmlSensor.C328_other_partial": [
"Classical.choice",
"Quot.sound",
"propext"
],
"Verif.XmlSensor.C328_refuted": [
"Classical.choice",
"Quot.sound",
"propext"
],
"Verif.XmlSensor.C329_grows_partial": [
"Classical.choice",
"Quot.sound",
"propext"
],
"Verif.XmlSensor.C329_other_partial": [
"Classical.choice",
"Quot.sound",
"propext"
],
"Verif.XmlSensor.C329_refuted": [
"Classical.choice",
"Quot.sound",
"propext"
],
"Verif.XmlSensor.C329_trip_partial": [
"Classical.choice",
"Quot.sound",
"propext"
],
"Verif.XmlSensor.C330_again": [
"Classical.choice",
"Quot.sound",
"propext"
],
"Verif.XmlSensor.C330_only": [
"Classical.choice",
"Quot.sound",
"propext"
],
"Verif.XmlSensor.C331_length_partial": [
"Classical.choice",
"Quot.sound",
"propext"
],
"Verif.XmlSensor.C331_refuted": [
"Classical.choice",
"Quot.sound",
"propext"
],
"Verif.XmlStation.C282_colon_partial": [
"Classical.choice",
"Quot.sound",
"propext"
],
"Verif.XmlStation.C282_read_partial": [
"Classical.choice",
"Quot.sound",
"propext"
],
"Verif.XmlStation.C282_refuted": [
"Classical.choice",
"Quot.sound",
"propext"
],
"Verif.XmlStation.C282_same_partial": [
"Classical.choice",
"Quot.sound",
"propext"
],
"Verif.XmlStation.C283_again_partial": [
"Classical.choice",
"Quot.sound",
"propext"
],
"Verif.XmlStation.C283_changes_partial": [],
"Verif.XmlStation.C283_refuted": [
"Classical.choice",
"Quot.sound",
"propext"
],
"Verif.XmlStation.C284_alike": [
"Classical.choice",
"Quot.sound",
"propext"
],
"Verif.XmlStation.C284_null": [
"Classical.choice",
"Quot.sound",
"propext"
],
"Verif.XmlStation.C284_runs": [
"Classical.choice",
"Quot.sound",
"propext"
],
"Verif.XmlSurvey.C285_read_partial": [
"Classical.choice",
"Quot.sound",
"propext"
],
"Verif.XmlSurvey.C285_refuted": [
"Classical.choice",
"Quot.sound",
"propext"
],
"Verif.XmlSurvey.C286_doi_partial": [
"Classical.choice",
"Quot.sound",
"propext"
],
"Verif.XmlSurvey.C286_grows_partial": [
"Classical.choice",
"Quot.sound",
"propext"
],
"Verif.XmlSurvey.C286_refuted": [
"Classical.choice",
"Quot.sound",
"propext"
],
"Verif.XmlSurvey.C287_iff_partial": [
"Classical.choice",
"Quot.sound",
"propext"
],
"Verif.XmlSurvey.C287_refuted": [
"Classical.choice",
"Quot.sound",
"propext"
],
"Verif.XmlSurvey.C288_own_partial": [
"Classical.choice",
"Quot.sound",
"propext"
],
"Verif.XmlSurvey.C288_refuted": [
"Classical.choice",
"Quot.sound",
"propext"
],
"Verif.XmlText.C113_partial": [
"Classical.choice",
"Quot.sound",
"propext"
],
"Verif.XmlText.C113_refuted": [
"Classical.choice",
"Quot.sound",
"propext"
],
"Verif.XmlText.C114_brackets_partial": [
"Classical.choice",
"Quot.sound",
"propext"
],
"Verif.XmlText.C114_dropped_partial": [
"Classical.choice",
"Quot.sound",
"propext"
],
"Verif.XmlText.C114_refuted": [
"Classical.choice",
"Quot.sound",
"propext"
],
"Verif.XmlText.C114_two_colons_partial": [
"Classical.choice",
"Quot.sound",
"propext"
],
"Verif.XmlText.C115_colon_partial": [
"Classical.choice",
"Quot.sound",
"propext"
],
"Verif.XmlText.C115_cut_partial": [
"Classical.choice",
"Quot.sound",
"propext"
],
"Verif.XmlText.C115_partial": [
"Classical.choice",
"Quot.sound",
"propext"
],
"Verif.XmlText.C115_refuted": [
"Classical.choice",
"Quot.sound",
"propext"
],
"Verif.XmlText.C115_truncated_partial": [
"Classical.choice",
"Quot.sound",
"propext"
],
"Verif.XmlText.C116_both_partial": [
"Classical.choice",
"Quot.sound",
"propext"
],
"Verif.XmlText.C116_one_partial": [
"Classical.choice",
"Quot.sound",
"propext"
],
"Verif.XmlText.C116_refuted": [
"Classical.choice",
"Quot.sound",
"propext"
],
"Verif.XmlText.C117_case_partial": [
"Classical.choice",
"Quot.sound",
"propext"
],
"Verif.XmlText.C117_partial": [
"Classical.choice",
"Quot.sound",
"propext"
],
"Verif.XmlText.C117_plain_partial": [
"Classical.choice",
"Quot.sound",
"propext"
],
"Verif.XmlText.C117_refuted": [
"Classical.choice",
"Quot.sound",
"propext"
],
"Verif.XmlText.C118_error_partial": [
"Classical.choice",
"Quot.sound",
"propext"
],
"Verif.XmlText.C118_partial": [
"Classical.choice",
"Quot.sound",
"propext"
],
"Verif.XmlText.C118_refuted": [
"Classical.choice",
"Quot.sound",
"propext"
],
"Verif.XmlText.C119_failures_partial": [
"Classical.choice",
"Quot.sound",
"propext"
],
"Verif.XmlText.C119_partial": [
"Classical.choice",
"Quot.sound",
"propext"
],
"Verif.XmlText.C119_refuted": [
"Classical.choice",
"Quot.sound",
"propext"
],
"Verif.XmlText.C120_inverse_partial": [
"Classical.choice",
"Quot.sound",
"propext"
],
"Verif.XmlText.C120_refuted": [
"Classical.choice",
"Quot.sound",
"propext"
],
"Verif.XmlText.C120_sound": [
"Classical.choice",
"Quot.sound",
"propext"
],
"Verif.XmlText.C121_grows_partial": [
"Classical.choice",
"Quot.sound",
"propext"
],
"Verif.XmlText.C121_none_partial": [
"Classical.choice",
"Quot.sound",
"propext"
],
"Verif.XmlText.C121_prefix_partial": [
"Classical.choice",
"Quot.sound",
"propext"
],
"Verif.XmlText.C121_refuted": [
"Classical.choice",
"Quot.sound",
"propext"
],
"Verif.XmlText.C122_model_partial": [
"Classical.choice",
"Quot.sound",
"propext"
],
"Verif.XmlText.C122_refuted": [
"Classical.choice",
"Quot.sound",
"propext"
],
"Verif.XmlText.C122_stable_partial": [
"Classical.choice",
"Quot.sound",
"propext"
],
"Verif.XmlText.C123_iff_partial": [
"Classical.choice",
"Quot.sound",
"propext"
],
"Verif.XmlText.C123_refuted": [
"Classical.choice",
"Quot.sound",
"propext"
],
"Verif.Zmm.C128_angle": [
"Classical.choice",
"Quot.sound",
"propext"
],
"Verif.Zmm.C128_invariants": [
"Classical.choice",
"Quot.sound",
"propext"
],
"Verif.Zmm.C128_north": [
"Classical.choice",
"Quot.sound",
"propext"
],
"Verif.Zmm.C128_partial": [
"Classical.choice",
"Quot.sound",
"propext"
],
"Verif.Zmm.C128_present": [
"Classical.choice",
"Quot.sound",
"propext"
],
"Verif.Zmm.C128_refuted": [
"Classical.choice",
"Quot.sound",
"propext"
],
"Verif.Zmm.C128_tipper": [
"Classical.choice",
"Quot.sound",
"propext"
],
"Verif.Zmm.C128_unique": [
"Classical.choice",
"Quot.sound",
"propext"
],
"Verif.Zmm.C128_vector": [
"Classical.choice",
"Quot.sound",
"propext"
],
"Verif.Zmm.C129_errors": [
"Classical.choice",
"Quot.sound",
"propext"
],
"Verif.Zmm.C129_power": [
"Classical.choice",
"Quot.sound",
"propext"
],
"Verif.Zmm.C129_real": [
"Classical.choice",
"Quot.sound",
"propext"
],
"Verif.Zmm.C129_residual": [
"Classical.choice",
"Quot.sound",
"propext"
],
"Verif.Zmm.C130_partial": [
"Classical.choice",
"Quot.sound",
"propext"
],
"Verif.Zmm.C130_refuted": [
"Classical.choice",
"Quot.sound",
"propext"
],
"Verif.Zmm.C130_twice": [
"Classical.choice",
"Quot.sound",
"propext"
],
"Verif.ZmmText.C141_roundtrip": [
"Classical.choice",
"Quot.sound",
"propext"
],
"Verif.ZmmText.C142_colon_refuted": [
"Classical.choice",
"Quot.sound",
"propext"
],
"Verif.ZmmText.C142_numbers_refuted": [
"Classical.choice",
"Quot.sound",
"propext"
],
"Verif.ZmmText.C142_partial": [
"Classical.choice",
"Quot.sound",
"propext"
],
"Verif.ZmmText.C142_refuted": [
"Classical.choice",
"Quot.sound",
"propext"
],
"Verif.ZmmUse.C381_all_partial": [
"Classical.choice",
"Quot.sound",
"propext"
],
"Verif.ZmmUse.C381_impedance_partial": [
"Classical.choice",
"Quot.sound",
"propext"
],
"Verif.ZmmUse.C381_number_partial": [
"Classical.choice",
"Quot.sound",
"propext"
],
"Verif.ZmmUse.C381_order_partial": [
"Classical.choice",
"Quot.sound",
"propext"
],
"Verif.ZmmUse.C381_refuted": [
"Classical.choice",
"Quot.sound",
"propext"
],
"Verif.ZmmUse.C381_stay_partial": [
"Classical.choice",
"Quot.sound",
"propext"
],
"Verif.ZmmUse.C381_tipper_partial": [
"Classical.choice",
"Quot.sound",
"propext"
],
"Verif.ZmmUse.C381_which_partial": [
"Classical.choice",
"Quot.sound",
"propext"
],
"Verif.ZmmUse.C382_all_partial": [
"Classical.choice",
"Quot.sound",
"propext"
],
"Verif.ZmmUse.C382_half": [
"Classical.choice",
"Quot.sound",
"propext"
],
"Verif.ZmmUse.C382_refuted": [
"Classical.choice",
"Quot.sound",
"propext"
],
"Verif.ZmmUse.C382_some": [
"Classical.choice",
"Quot.sound",
"propext"
],
"Verif.ZmmUse.C382_two": [
"Classical.choice",
"Quot.sound",
"propext"
],
"Verif.ZmmUse.C383_levels": [
"Classical.choice",
"Quot.sound",
"propext"
],
"Verif.ZmmUse.C383_unknown": [
"Classical.choice",
"Quot.sound",
"propext"
],
"Verif.Zonge.C151_values": [
"Classical.choice",
"Quot.sound",
"propext"
],
"Verif.Zonge.C152_amp_phase": [
"Classical.choice",
"Quot.sound",
"propext"
],
"Verif.Zonge.C153_partial": [
"Classical.choice",
"Quot.sound",
"propext"
],
"Verif.Zonge.C153_refuted": [
"Classical.choice",
"Quot.sound",
"propext"
],
"Verif.Zonge.C154_partial": [
"Classical.choice",
"Quot.sound",
"propext"
],
"Verif.Zonge.C154_refuted": [
"Classical.choice",
"Quot.sound",
"propext"
],
"Verif.Zonge.C155_partial": [
"Classical.choice",
"Quot.sound",
"propext"
],
"Verif.Zonge.C155_refuted": [
"Classical.choice",
"Quot.sound",
"propext"
],
"Verif.Zonge.C156_arrays": [
"Classical.choice",
"Quot.sound",
"propext"
],
"Verif.Zonge.C157_partial": [
"Classical.choice",
"Quot.sound",
"propext"
],
"Verif.Zonge.C157_refuted": [
"Classical.choice",
"Quot.sound",
"propext"
],
"Verif.Zonge.C157_rows": [
"Classical.choice",
"Quot.sound",
"propext"
],
"Verif.Zonge.C157_to_avg": [
"Classical.choice",
"Quot.sound",
"propext"
],
"Verif.Zonge.C158_partial": [
"Classical.choice",
"Quot.sound",
"propext"
],
"Verif.Zonge.C158_refuted": [
"Classical.choice",
"Quot.sound",
"propext"
],
"Verif.Zonge.C158_to_avg": [
"Classical.choice",
"Quot.sound",
"propext"
],
"Verif.Zonge.C159_arrays": [
"Classical.choice",
"Quot.sound",
"propext"
],
"Verif.Zonge.C159_table": [
"Classical.choice",
"Quot.sound",
"propext"
],
"Verif.Zonge.C160_partial": [
"Classical.choice",
"Quot.sound",
"propext"
],
"Verif.Zonge.C160_refuted": [
"Classical.choice",
"Quot.sound",
"propext"
],
"Verif.Zonge.C161_never": [
"Classical.choice",
"Quot.sound",
"propext"
],
"Verif.Zonge.C161_refuted": [
"Classical.choice",
"Quot.sound",
"propext"
],
"Verif.Zonge.C161_smooth": [
"Classical.choice",
"Quot.sound",
"propext"
],
"Verif.Zonge.C162_partial": [
"Classical.choice",
"Quot.sound",
"propext"
],
"Verif.Zonge.C162_refuted": [
"Classical.choice",
"Quot.sound",
"propext"
],
"Verif.Zonge.C163_partial": [
"Classical.choice",
"Quot.sound",
"propext"
],
"Verif.Zonge.C163_refuted": [
"Classical.choice",
"Quot.sound",
"propext"
],
"Verif.Zonge.C164_partial": [
"Classical.choice",
"Quot.sound",
"propext"
],
"Verif.Zonge.C164_refuted": [
"Classical.choice",
"Quot.sound",
"propext"
],
"Verif.Zonge.C165_partial": [
"Classical.choice",
"Quot.sound",
"propext"
],
"Verif.Zonge.C165_refuted": [
"Classical.choice",
"Quot.sound",
"propext"
],
"Verif.Zonge.C165_run": [
"Classical.choice",
"Quot.sound",
"propext"
]
}