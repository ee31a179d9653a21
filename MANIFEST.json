{
 "claims": [
  {
   "property": "C01",
   "status": "proved",
   "theorems": [
    "Verif.Props.C01_value_roundtrip_signed",
    "Verif.Props.C01_value_format"
   ],
   "note": ""
  },
  {
   "property": "C02",
   "status": "proved",
   "theorems": [
    "Verif.Props.C02_value_roundtrip_unsigned",
    "Verif.Props.C02_value_mixed_modes"
   ],
   "note": ""
  },
  {
   "property": "C03",
   "status": "proved",
   "theorems": [
    "Verif.Props.C03_value_shortest",
    "Verif.Props.C03_value_long_form"
   ],
   "note": ""
  },
  {
   "property": "C04",
   "status": "proved",
   "theorems": [
    "Verif.Props.C04_value_sequence",
    "Verif.Props.C04_value_prefix_free",
    "Verif.Props.C04_value_sequence_injective"
   ],
   "note": ""
  },
  {
   "property": "C05",
   "status": "proved",
   "theorems": [
    "Verif.Props.C05_read_conforming",
    "Verif.Props.C05_read_errors",
    "Verif.Props.C05_read_range",
    "Verif.Props.C05_read_truncated_undetected"
   ],
   "note": ""
  },
  {
   "property": "C06",
   "status": "proved",
   "theorems": [
    "Verif.Props.C06_fixed_width",
    "Verif.Props.C06_fixed_width_truncated"
   ],
   "note": ""
  },
  {
   "property": "C07",
   "status": "proved",
   "theorems": [
    "Verif.Props.C07_text_roundtrip",
    "Verif.Props.C07_text_encoding",
    "Verif.Props.C07_text_padding"
   ],
   "note": ""
  },
  {
   "property": "C08",
   "status": "proved",
   "theorems": [
    "Verif.Props.C08_entry_framing",
    "Verif.Props.C08_header_size",
    "Verif.Props.C08_too_big",
    "Verif.Props.C08_large_id"
   ],
   "note": ""
  },
  {
   "property": "C09",
   "status": "proved",
   "theorems": [
    "Verif.Props.C09_header_roundtrip",
    "Verif.Props.C09_header_checked",
    "Verif.Props.C09_offset_normalised"
   ],
   "note": ""
  },
  {
   "property": "C10",
   "status": "proved",
   "theorems": [
    "Verif.Props.C10_every_file",
    "Verif.Props.C10_second_read",
    "Verif.Props.C10_vfb_second_read",
    "Verif.Props.C10_any_size",
    "Verif.Props.C10_read",
    "Verif.Props.C10_untouched_lossless",
    "Verif.Props.C10_written_format"
   ],
   "note": ""
  },
  {
   "property": "C11",
   "status": "proved",
   "theorems": [
    "Verif.Props.C11_finishes_or_runs_forever",
    "Verif.Props.C11_missing_end_entry",
    "Verif.Props.C11_truncated_payload"
   ],
   "note": ""
  },
  {
   "property": "C12",
   "status": "proved",
   "theorems": [
    "Verif.Props.C12_drop_keys",
    "Verif.Props.C12_decompile_skips"
   ],
   "note": ""
  },
  {
   "property": "C13",
   "status": "proved",
   "theorems": [
    "Verif.Props.C13_decompile_idempotent",
    "Verif.Props.C13_compile_idempotent",
    "Verif.Props.C13_failed_decompile",
    "Verif.Props.C13_failed_compile",
    "Verif.Props.C13_decompile_font",
    "Verif.Props.C13_decompile_header",
    "Verif.Props.C13_failed_write_truncates"
   ],
   "note": ""
  },
  {
   "property": "C14",
   "status": "proved",
   "theorems": [
    "Verif.Props.C14_every_entry_written",
    "Verif.Props.C14_header_first_access",
    "Verif.Props.C14_header_stale",
    "Verif.Props.C14_history_fresh",
    "Verif.Props.C14_history_stale",
    "Verif.Props.C14_second_write"
   ],
   "note": ""
  },
  {
   "property": "C15",
   "status": "proved",
   "theorems": [
    "Verif.Props.C15_no_data",
    "Verif.Props.C15_entry_stable",
    "Verif.Props.C15_unknown_id",
    "Verif.Props.C15_table",
    "Verif.Props.C15_layout",
    "Verif.Props.C15_string_hex_lost"
   ],
   "note": ""
  },
  {
   "property": "C16",
   "status": "proved",
   "theorems": [
    "Verif.Props.C16_every_file",
    "Verif.Props.C16_cycle",
    "Verif.Props.C16_vfb_file"
   ],
   "note": ""
  },
  {
   "property": "C17",
   "status": "proved",
   "theorems": [
    "Verif.Props.C17_hex_lossless",
    "Verif.Props.C17_hex_injective",
    "Verif.Props.C17_hex_format",
    "Verif.Props.C17_hex_text"
   ],
   "note": ""
  },
  {
   "property": "C18",
   "status": "proved",
   "theorems": [
    "Verif.Props.C18_bits_of_int",
    "Verif.Props.C18_int_of_bits_of_int",
    "Verif.Props.C18_bits_of_int_of_bits",
    "Verif.Props.C18_negative_diverges"
   ],
   "note": ""
  },
  {
   "property": "C19",
   "status": "proved",
   "theorems": [
    "Verif.Props.C19_value_list_roundtrip",
    "Verif.Props.C19_value_list_stable",
    "Verif.Props.C19_value_list_rejected",
    "Verif.Props.C19_value_list_terminates"
   ],
   "note": ""
  },
  {
   "property": "C20",
   "status": "proved",
   "theorems": [
    "Verif.Props.C20_glyph_encoding_roundtrip",
    "Verif.Props.C20_glyph_encoding_stable"
   ],
   "note": ""
  },
  {
   "property": "C21",
   "status": "proved",
   "theorems": [
    "Verif.Props.C21_mapping_mode_roundtrip",
    "Verif.Props.C21_mapping_mode_unknown",
    "Verif.Props.C21_mapping_mode_stable_when",
    "Verif.Props.C21_mapping_mode_incomplete",
    "Verif.Props.C21_mapping_mode_stable"
   ],
   "note": ""
  },
  {
   "property": "C22",
   "status": "proved",
   "theorems": [
    "Verif.Props.C22_kerning_flags_roundtrip",
    "Verif.Props.C22_metrics_flags_roundtrip",
    "Verif.Props.C22_class_flags_stable_when",
    "Verif.Props.C22_class_flags_not_stable",
    "Verif.Props.C22_class_flags_wrap",
    "Verif.Props.C22_class_flags_stable"
   ],
   "note": ""
  },
  {
   "property": "C23",
   "status": "proved",
   "theorems": [
    "Verif.Props.C23_encode_packs",
    "Verif.Props.C23_decode_packs",
    "Verif.Props.C23_rle_lossless",
    "Verif.Props.C23_stream",
    "Verif.Props.C23_reader_bounded",
    "Verif.Props.C23_bad_byte"
   ],
   "note": ""
  },
  {
   "property": "C24",
   "status": "proved",
   "theorems": [
    "Verif.Props.C24_background_roundtrip",
    "Verif.Props.C24_glyph_bitmaps_roundtrip",
    "Verif.Props.C24_bitmap_stable",
    "Verif.Props.C24_windows_rejected",
    "Verif.Props.C24_windows_glyph_rejected",
    "Verif.Props.C24_windows_inverts",
    "Verif.Props.C24_windows_empty",
    "Verif.Props.C24_windows_stable"
   ],
   "note": ""
  },
  {
   "property": "C25",
   "status": "proved",
   "theorems": [
    "Verif.Props.C25_int16",
    "Verif.Props.C25_signed_int16",
    "Verif.Props.C25_signed_int32",
    "Verif.Props.C25_int_stable",
    "Verif.Props.C25_double",
    "Verif.Props.C25_double_stable",
    "Verif.Props.C25_double_short",
    "Verif.Props.C25_double_list",
    "Verif.Props.C25_double_list_stable",
    "Verif.Props.C25_int_list",
    "Verif.Props.C25_int_list_stable",
    "Verif.Props.C25_panose",
    "Verif.Props.C25_panose_stable",
    "Verif.Props.C25_list_incomplete_item"
   ],
   "note": ""
  },
  {
   "property": "C26",
   "status": "proved",
   "theorems": [
    "Verif.Props.C26_unicode_ranges_stable",
    "Verif.Props.C26_unicode_ranges",
    "Verif.Props.C26_unicode_ranges_rejected",
    "Verif.Props.C26_unicode_ranges_stable_when",
    "Verif.Props.C26_unicode_ranges_long",
    "Verif.Props.C26_unicode_ranges_duplicates"
   ],
   "note": ""
  },
  {
   "property": "C27",
   "status": "proved",
   "theorems": [
    "Verif.Props.C27_string_roundtrip",
    "Verif.Props.C27_string_stable",
    "Verif.Props.C27_string_content",
    "Verif.Props.C27_vendor_roundtrip",
    "Verif.Props.C27_vendor_stable",
    "Verif.Props.C27_string_hex_mismatch",
    "Verif.Props.C27_fea_roundtrip",
    "Verif.Props.C27_fea_stable",
    "Verif.Props.C27_fea_keeps_code",
    "Verif.Props.C27_fea_only_newlines"
   ],
   "note": ""
  },
  {
   "property": "C28",
   "status": "proved",
   "theorems": [
    "Verif.Props.C28_names_stable",
    "Verif.Props.C28_names_roundtrip",
    "Verif.Props.C28_names_stable_when",
    "Verif.Props.C28_names_not_stable",
    "Verif.Props.C28_names_mac_overflow",
    "Verif.Props.C28_names_mac_replacement"
   ],
   "note": ""
  },
  {
   "property": "C29",
   "status": "proved",
   "theorems": [
    "Verif.Props.C29_flversion_roundtrip",
    "Verif.Props.C29_flversion_stable",
    "Verif.Props.C29_flversion_rejected"
   ],
   "note": ""
  },
  {
   "property": "C30",
   "status": "proved",
   "theorems": [
    "Verif.Props.C30_guides_compile",
    "Verif.Props.C30_guides_roundtrip",
    "Verif.Props.C30_guides_stable",
    "Verif.Props.C30_guides_missing_master"
   ],
   "note": ""
  },
  {
   "property": "C31",
   "status": "proved",
   "theorems": [
    "Verif.Props.C31_guide_properties_roundtrip",
    "Verif.Props.C31_guide_properties_stable_when",
    "Verif.Props.C31_guide_properties_not_stable",
    "Verif.Props.C31_guide_properties_index0"
   ],
   "note": ""
  },
  {
   "property": "C32",
   "status": "proved",
   "theorems": [
    "Verif.Props.C32_ps_info_roundtrip",
    "Verif.Props.C32_ps_info_stable",
    "Verif.Props.C32_ps_info_rejected",
    "Verif.Props.C32_global_options_roundtrip",
    "Verif.Props.C32_glyph_options_roundtrip",
    "Verif.Props.C32_options_stable",
    "Verif.Props.C32_options_double_bit",
    "Verif.Props.C32_glyph_option_bits",
    "Verif.Props.C32_global_option_bits"
   ],
   "note": ""
  },
  {
   "property": "C33",
   "status": "proved",
   "theorems": [
    "Verif.Props.C33_pclt_stable",
    "Verif.Props.C33_pclt_roundtrip",
    "Verif.Props.C33_pclt_padding",
    "Verif.Props.C33_pclt_stable_when",
    "Verif.Props.C33_pclt_negative_rejected",
    "Verif.Props.C33_pclt_negative_read"
   ],
   "note": ""
  },
  {
   "property": "C34",
   "status": "proved",
   "theorems": [
    "Verif.Props.C34_options_stable",
    "Verif.Props.C34_export_options_roundtrip",
    "Verif.Props.C34_export_options_stable",
    "Verif.Props.C34_export_options_unknown",
    "Verif.Props.C34_font_options_roundtrip",
    "Verif.Props.C34_font_options_stable",
    "Verif.Props.C34_font_options_unknown",
    "Verif.Props.C34_font_options_reported",
    "Verif.Props.C34_autohint_bits_lost",
    "Verif.Props.C34_font_options_marker"
   ],
   "note": ""
  },
  {
   "property": "C35",
   "status": "proved",
   "theorems": [
    "Verif.Props.C35_gasp",
    "Verif.Props.C35_gasp_stable",
    "Verif.Props.C35_gasp_incomplete",
    "Verif.Props.C35_vdmx",
    "Verif.Props.C35_vdmx_stable"
   ],
   "note": ""
  },
  {
   "property": "C36",
   "status": "proved",
   "theorems": [
    "Verif.Props.C36_keys",
    "Verif.Props.C36_tt_info",
    "Verif.Props.C36_tt_info_stable",
    "Verif.Props.C36_mandatory",
    "Verif.Props.C36_unknown_settings_lost",
    "Verif.Props.C36_missing_end_diverges",
    "Verif.Props.C36_duplicate_key",
    "Verif.Props.C36_panose_rejected"
   ],
   "note": ""
  },
  {
   "property": "C37",
   "status": "proved",
   "theorems": [
    "Verif.Props.C37_stems",
    "Verif.Props.C37_stems_same",
    "Verif.Props.C37_stems_stable",
    "Verif.Props.C37_stems_rejected",
    "Verif.Props.C37_ppems",
    "Verif.Props.C37_ppems23",
    "Verif.Props.C37_ppems1",
    "Verif.Props.C37_stored_same",
    "Verif.Props.C37_ppems_stable",
    "Verif.Props.C37_ppems_rejected",
    "Verif.Props.C37_stem_number_lost"
   ],
   "note": ""
  },
  {
   "property": "C38",
   "status": "proved",
   "theorems": [
    "Verif.Props.C38_zones",
    "Verif.Props.C38_zones_stable",
    "Verif.Props.C38_deltas",
    "Verif.Props.C38_deltas_stable",
    "Verif.Props.C38_deltas_canonical",
    "Verif.Props.C38_deltas_sorted",
    "Verif.Props.C38_empty_zone_lost"
   ],
   "note": ""
  },
  {
   "property": "C39",
   "status": "proved",
   "theorems": [
    "Verif.Props.C39_aniso",
    "Verif.Props.C39_aniso_stable",
    "Verif.Props.C39_aniso_truncated",
    "Verif.Props.C39_axis_counts",
    "Verif.Props.C39_axis_counts_stable",
    "Verif.Props.C39_axis_counts_length",
    "Verif.Props.C39_axis_mappings",
    "Verif.Props.C39_axis_mappings_stable",
    "Verif.Props.C39_master_location",
    "Verif.Props.C39_master_location_stable",
    "Verif.Props.C39_instances",
    "Verif.Props.C39_coordinate_error",
    "Verif.Props.C39_coordinate_whole",
    "Verif.Props.C39_instances_whole",
    "Verif.Props.C39_instances_cycle",
    "Verif.Props.C39_instances_not_stable"
   ],
   "note": ""
  },
  {
   "property": "C40",
   "status": "proved",
   "theorems": [
    "Verif.Props.C40_cmaps",
    "Verif.Props.C40_cmaps_stable",
    "Verif.Props.C40_cmaps_rejected",
    "Verif.Props.C40_binary",
    "Verif.Props.C40_binary_lossless",
    "Verif.Props.C40_binary_unpadded"
   ],
   "note": ""
  },
  {
   "property": "C41",
   "status": "proved",
   "theorems": [
    "Verif.Props.C41_outlines",
    "Verif.Props.C41_outlines_read",
    "Verif.Props.C41_outlines_stable",
    "Verif.Props.C41_outlines_no_master",
    "Verif.Props.C41_outlines_many_masters",
    "Verif.Props.C41_flags_rejected",
    "Verif.Props.C41_outlines_exact",
    "Verif.Props.C41_wrong_point_count"
   ],
   "note": ""
  },
  {
   "property": "C42",
   "status": "proved",
   "theorems": [
    "Verif.Props.C42_compile",
    "Verif.Props.C42_roundtrip",
    "Verif.Props.C42_stable",
    "Verif.Props.C42_terminates",
    "Verif.Props.C42_no_masters",
    "Verif.Props.C42_imported_incomplete",
    "Verif.Props.C42_instruction_rejected",
    "Verif.Props.C42_constants_ignored",
    "Verif.Props.C42_empty_name_guides",
    "Verif.Props.C42_empty_lost",
    "Verif.Props.C42_command_layout"
   ],
   "note": ""
  },
  {
   "property": "C43",
   "status": "proved",
   "theorems": [
    "Verif.Props.C43_single_master",
    "Verif.Props.C43_merge",
    "Verif.Props.C43_rejects",
    "Verif.Props.C43_again",
    "Verif.Props.C43_not_merged",
    "Verif.Props.C43_merged",
    "Verif.Props.C43_temporary_wins",
    "Verif.Props.C43_surplus_ignored",
    "Verif.Props.C43_failure_not_atomic",
    "Verif.Props.C43_compile",
    "Verif.Props.C43_compile_rejects",
    "Verif.Props.C43_other_entries"
   ],
   "note": ""
  },
  {
   "property": "C44",
   "status": "proved",
   "theorems": [
    "Verif.Props.C44_anchors",
    "Verif.Props.C44_anchors_stable",
    "Verif.Props.C44_anchors_missing",
    "Verif.Props.C44_anchors_extra",
    "Verif.Props.C44_anchor_props",
    "Verif.Props.C44_anchor_props_stable",
    "Verif.Props.C44_anchor_props_negative",
    "Verif.Props.C44_origin",
    "Verif.Props.C44_origin_stable",
    "Verif.Props.C44_origin_rejected",
    "Verif.Props.C44_sketch",
    "Verif.Props.C44_sketch_stable",
    "Verif.Props.C44_unicodes",
    "Verif.Props.C44_unicodes_supp",
    "Verif.Props.C44_unicodes_stable",
    "Verif.Props.C44_unicodes_supp_stable",
    "Verif.Props.C44_unicodes_odd",
    "Verif.Props.C44_links",
    "Verif.Props.C44_links_stable"
   ],
   "note": ""
  },
  {
   "property": "C45",
   "status": "proved",
   "theorems": [
    "Verif.Props.C45_gdef_compile",
    "Verif.Props.C45_gdef",
    "Verif.Props.C45_gdef_stable",
    "Verif.Props.C45_gdef_unknown_class",
    "Verif.Props.C45_gdef_negative_class",
    "Verif.Props.C45_layout"
   ],
   "note": ""
  },
  {
   "property": "C46",
   "status": "proved",
   "theorems": [
    "Verif.Props.C46_mask_metrics",
    "Verif.Props.C46_mask_metrics_stable",
    "Verif.Props.C46_mask_metrics_mm",
    "Verif.Props.C46_mask_metrics_mm_stable",
    "Verif.Props.C46_mask_metrics_mm_count",
    "Verif.Props.C46_global_mask",
    "Verif.Props.C46_global_mask_stable",
    "Verif.Props.C46_mask",
    "Verif.Props.C46_mask_stable",
    "Verif.Props.C46_weight_error"
   ],
   "note": ""
  },
  {
   "property": "C47",
   "status": "proved",
   "theorems": [
    "Verif.Props.C47_layout",
    "Verif.Props.C47_range",
    "Verif.Props.C47_never_compiled",
    "Verif.Props.C47_ints"
   ],
   "note": ""
  },
  {
   "property": "C48",
   "status": "proved",
   "theorems": [
    "Verif.Props.C48_timestamp_meaning",
    "Verif.Props.C48_timestamp_overflow",
    "Verif.Props.C48_date_round_trip",
    "Verif.Props.C48_timestamp_round_trip",
    "Verif.Props.C48_date_early",
    "Verif.Props.C48_date_late",
    "Verif.Props.C48_date_order"
   ],
   "note": ""
  },
  {
   "property": "C49",
   "status": "proved",
   "theorems": [
    "Verif.Props.C49_members",
    "Verif.Props.C49_other_groups",
    "Verif.Props.C49_no_side_dropped",
    "Verif.Props.C49_nodup",
    "Verif.Props.C49_first_wins",
    "Verif.Props.C49_disjoint",
    "Verif.Props.C49_no_glyph_lost",
    "Verif.Props.C49_maps",
    "Verif.Props.C49_idempotent"
   ],
   "note": ""
  },
  {
   "property": "C50",
   "status": "proved",
   "theorems": [
    "Verif.Props.C50_pairs",
    "Verif.Props.C50_effective_kerning",
    "Verif.Props.C50_font_kerning",
    "Verif.Props.C50_key_in_two_classes",
    "Verif.Props.C50_index",
    "Verif.Props.C50_no_dangling"
   ],
   "note": ""
  },
  {
   "property": "C51",
   "status": "proved",
   "theorems": [
    "Verif.Props.C51_normalize",
    "Verif.Props.C51_normalize_idempotent",
    "Verif.Props.C51_master_hints",
    "Verif.Props.C51_link_defect",
    "Verif.Props.C51_hint_sets",
    "Verif.Props.C51_no_masks",
    "Verif.Props.C51_succeeds"
   ],
   "note": ""
  },
  {
   "property": "C52",
   "status": "proved",
   "theorems": [
    "Verif.Props.C52_unique",
    "Verif.Props.C52_stable",
    "Verif.Props.C52_point_name",
    "Verif.Props.C52_side_bearings",
    "Verif.Props.C52_succeeds",
    "Verif.Props.C52_unknown_code",
    "Verif.Props.C52_composite",
    "Verif.Props.C52_order"
   ],
   "note": ""
  },
  {
   "property": "C53",
   "status": "proved",
   "theorems": [
    "Verif.Props.C53_every_file",
    "Verif.Props.C53_read_replaces",
    "Verif.Props.C53_stale_glyph_names",
    "Verif.Props.C53_stale_master_count"
   ],
   "note": ""
  },
  {
   "property": "C54",
   "status": "proved",
   "theorems": [
    "Verif.Props.C54_keys",
    "Verif.Props.C54_glyphs_lost",
    "Verif.Props.C54_keys_again",
    "Verif.Props.C54_failure_forgotten"
   ],
   "note": ""
  },
  {
   "property": "C55",
   "status": "proved",
   "theorems": [
    "Verif.Props.C55_contours",
    "Verif.Props.C55_split",
    "Verif.Props.C55_names",
    "Verif.Props.C55_tt_commands",
    "Verif.Props.C55_mask",
    "Verif.Props.C55_malformed"
   ],
   "note": ""
  },
  {
   "property": "C56",
   "status": "proved",
   "theorems": [
    "Verif.Props.C56_fea_dict_complete",
    "Verif.Props.C56_fea_dict_prefix_only_lost"
   ],
   "note": ""
  },
  {
   "property": "C57",
   "status": "proved",
   "theorems": [
    "Verif.Props.C57_decompile_terminates",
    "Verif.Props.C57_negative_flags_diverge"
   ],
   "note": ""
  },
  {
   "property": "C58",
   "status": "proved",
   "theorems": [
    "Verif.Props.C58_transform",
    "Verif.Props.C58_names_unique",
    "Verif.Props.C58_all_glyphs",
    "Verif.Props.C58_skip_missing",
    "Verif.Props.C58_collision"
   ],
   "note": ""
  },
  {
   "property": "C59",
   "status": "proved",
   "theorems": [
    "Verif.Props.C59_commands",
    "Verif.Props.C59_index_commands",
    "Verif.Props.C59_unknown",
    "Verif.Props.C59_succeeds",
    "Verif.Props.C59_index_succeeds",
    "Verif.Props.C59_point_identity",
    "Verif.Props.C59_well_formed",
    "Verif.Props.C59_points_exist",
    "Verif.Props.C59_lib_defect"
   ],
   "note": ""
  },
  {
   "property": "C60",
   "status": "proved",
   "theorems": [
    "Verif.Props.C60_program"
   ],
   "note": ""
  },
  {
   "property": "C61",
   "status": "proved",
   "theorems": [
    "Verif.Props.C61_parsed_ppms",
    "Verif.Props.C61_parsed_ppms1",
    "Verif.Props.C61_parsed_stems",
    "Verif.Props.C61_from_file",
    "Verif.Props.C61_rounds",
    "Verif.Props.C61_stems_first",
    "Verif.Props.C61_numbers",
    "Verif.Props.C61_lib_exact",
    "Verif.Props.C61_no_empty_key",
    "Verif.Props.C61_third_duplicate",
    "Verif.Props.C61_example"
   ],
   "note": ""
  },
  {
   "property": "C62",
   "status": "proved",
   "theorems": [
    "Verif.Props.C62_parsed_deltas",
    "Verif.Props.C62_zones",
    "Verif.Props.C62_commands",
    "Verif.Props.C62_duplicate",
    "Verif.Props.C62_deltas",
    "Verif.Props.C62_delta_range",
    "Verif.Props.C62_example"
   ],
   "note": ""
  },
  {
   "property": "C63",
   "status": "proved",
   "theorems": [
    "Verif.Props.C63_export",
    "Verif.Props.C63_no_deltas",
    "Verif.Props.C63_no_stems",
    "Verif.Props.C63_no_zones",
    "Verif.Props.C63_ppems1",
    "Verif.Props.C63_values",
    "Verif.Props.C63_example",
    "Verif.Props.C63_six_loses",
    "Verif.Props.C63_from_file"
   ],
   "note": ""
  },
  {
   "property": "C64",
   "status": "proved",
   "theorems": [
    "Verif.Props.C64_content",
    "Verif.Props.C64_success"
   ],
   "note": ""
  },
  {
   "property": "C65",
   "status": "proved",
   "theorems": [
    "Verif.Props.C65_indices",
    "Verif.Props.C65_distinct",
    "Verif.Props.C65_last_duplicate",
    "Verif.Props.C65_dropped",
    "Verif.Props.C65_kerning",
    "Verif.Props.C65_kerning_names"
   ],
   "note": ""
  },
  {
   "property": "C66",
   "status": "proved",
   "theorems": [
    "Verif.Props.C66_unchanged",
    "Verif.Props.C66_hintmasks_lost",
    "Verif.Props.C66_again"
   ],
   "note": ""
  },
  {
   "property": "C67",
   "status": "proved",
   "theorems": [
    "Verif.Props.C67_round_trip",
    "Verif.Props.C67_only",
    "Verif.Props.C67_unsupported",
    "Verif.Props.C67_points",
    "Verif.Props.C67_off_curve_start",
    "Verif.Props.C67_rounded",
    "Verif.Props.C67_masters",
    "Verif.Props.C67_component",
    "Verif.Props.C67_component_drawn",
    "Verif.Props.C67_skew_lost",
    "Verif.Props.C67_rejected",
    "Verif.Props.C67_pen_needs_clear"
   ],
   "note": ""
  },
  {
   "property": "C68",
   "status": "proved",
   "theorems": [
    "Verif.Props.C68_drawn",
    "Verif.Props.C68_last_run_lost",
    "Verif.Props.C68_run_goes_on",
    "Verif.Props.C68_mixed"
   ],
   "note": ""
  },
  {
   "property": "C69",
   "status": "proved",
   "theorems": [
    "Verif.Props.C69_drawn",
    "Verif.Props.C69_open_only",
    "Verif.Props.C69_closed_lost",
    "Verif.Props.C69_run_goes_on"
   ],
   "note": ""
  },
  {
   "property": "C70",
   "status": "proved",
   "theorems": [
    "Verif.Props.C70_same_hints",
    "Verif.Props.C70_hints",
    "Verif.Props.C70_no_masks",
    "Verif.Props.C70_hint_sets",
    "Verif.Props.C70_negative_replacement"
   ],
   "note": ""
  },
  {
   "property": "C71",
   "status": "proved",
   "theorems": [
    "Verif.Props.C71_masters",
    "Verif.Props.C71_at_least_one",
    "Verif.Props.C71_axes_defect"
   ],
   "note": ""
  },
  {
   "property": "C72",
   "status": "proved",
   "theorems": [
    "Verif.Props.C72_paths",
    "Verif.Props.C72_sources",
    "Verif.Props.C72_written",
    "Verif.Props.C72_path_plain",
    "Verif.Props.C72_path_form",
    "Verif.Props.C72_success"
   ],
   "note": ""
  },
  {
   "property": "C73",
   "status": "proved",
   "theorems": [
    "Verif.Props.C73_instances",
    "Verif.Props.C73_names",
    "Verif.Props.C73_labels"
   ],
   "note": ""
  },
  {
   "property": "C74",
   "status": "proved",
   "theorems": [
    "Verif.Props.C74_order",
    "Verif.Props.C74_mappings",
    "Verif.Props.C74_special",
    "Verif.Props.C74_bad_coordinate",
    "Verif.Props.C74_success",
    "Verif.Props.C74_file",
    "Verif.Props.C74_tags",
    "Verif.Props.C74_anisotropic"
   ],
   "note": ""
  },
  {
   "property": "C75",
   "status": "proved",
   "theorems": [
    "Verif.Props.C75_plain",
    "Verif.Props.C75_classes",
    "Verif.Props.C75_success",
    "Verif.Props.C75_code"
   ],
   "note": ""
  },
  {
   "property": "C76",
   "status": "proved",
   "theorems": [
    "Verif.Props.C76_text",
    "Verif.Props.C76_other_groups",
    "Verif.Props.C76_kerning_groups",
    "Verif.Props.C76_nothing_lost",
    "Verif.Props.C76_no_dangling",
    "Verif.Props.C76_group_order",
    "Verif.Props.C76_success",
    "Verif.Props.C76_dangling_defect"
   ],
   "note": ""
  },
  {
   "property": "C77",
   "status": "proved",
   "theorems": [
    "Verif.Props.C77_line",
    "Verif.Props.C77_lines",
    "Verif.Props.C77_reference",
    "Verif.Props.C77_idempotent",
    "Verif.Props.C77_defects"
   ],
   "note": ""
  },
  {
   "property": "C78",
   "status": "proved",
   "theorems": [
    "Verif.Props.C78_attributes",
    "Verif.Props.C78_underline",
    "Verif.Props.C78_unambiguous",
    "Verif.Props.C78_success",
    "Verif.Props.C78_style_name",
    "Verif.Props.C78_document_family"
   ],
   "note": ""
  },
  {
   "property": "C79",
   "status": "proved",
   "theorems": [
    "Verif.Props.C79_unambiguous",
    "Verif.Props.C79_truetype",
    "Verif.Props.C79_numbers",
    "Verif.Props.C79_numbers_unambiguous"
   ],
   "note": ""
  },
  {
   "property": "C80",
   "status": "proved",
   "theorems": [
    "Verif.Props.C80_attributes",
    "Verif.Props.C80_unambiguous",
    "Verif.Props.C80_success"
   ],
   "note": ""
  },
  {
   "property": "C81",
   "status": "proved",
   "theorems": [
    "Verif.Props.C81_angle",
    "Verif.Props.C81_color",
    "Verif.Props.C81_color_fallback",
    "Verif.Props.C81_color_faithful",
    "Verif.Props.C81_guides",
    "Verif.Props.C81_success"
   ],
   "note": ""
  },
  {
   "property": "C82",
   "status": "proved",
   "theorems": [
    "Verif.Props.C82_compatible",
    "Verif.Props.C82_contour_count",
    "Verif.Props.C82_defect"
   ],
   "note": ""
  },
  {
   "property": "C83",
   "status": "proved",
   "theorems": [
    "Verif.Props.C83_base64",
    "Verif.Props.C83_master",
    "Verif.Props.C83_hints",
    "Verif.Props.C83_success",
    "Verif.Props.C83_note_defect"
   ],
   "note": ""
  },
  {
   "property": "C84",
   "status": "proved",
   "theorems": [
    "Verif.Props.C84_fonts",
    "Verif.Props.C84_glyphs",
    "Verif.Props.C84_complete",
    "Verif.Props.C84_shared",
    "Verif.Props.C84_background",
    "Verif.Props.C84_info"
   ],
   "note": ""
  },
  {
   "property": "C85",
   "status": "proved",
   "theorems": [
    "Verif.Props.C85_names",
    "Verif.Props.C85_zones",
    "Verif.Props.C85_defect"
   ],
   "note": ""
  },
  {
   "property": "C86",
   "status": "proved",
   "theorems": [
    "Verif.Props.C86_on_disk",
    "Verif.Props.C86_old_lost",
    "Verif.Props.C86_cut_file",
    "Verif.Props.C86_cut_read",
    "Verif.Props.C86_ids",
    "Verif.Props.C86_interrupted",
    "Verif.Props.C86_failed_save"
   ],
   "note": ""
  },
  {
   "property": "C87",
   "status": "proved",
   "theorems": [
    "Verif.Props.C87_decode",
    "Verif.Props.C87_roundtrip",
    "Verif.Props.C87_encode_range",
    "Verif.Props.C87_terminates",
    "Verif.Props.C87_long_ignored",
    "Verif.Props.C87_stops_at_zero"
   ],
   "note": ""
  },
  {
   "property": "C88",
   "status": "proved",
   "theorems": [
    "Verif.Props.C88_every_file",
    "Verif.Props.C88_every_entry",
    "Verif.Props.C88_keys",
    "Verif.Props.C88_complete",
    "Verif.Props.C88_binary",
    "Verif.Props.C88_recoverable",
    "Verif.Props.C88_header_only",
    "Verif.Props.C88_unreadable",
    "Verif.Props.C88_cut_file",
    "Verif.Props.C88_roundtrip",
    "Verif.Props.C88_roundtrip_font"
   ],
   "note": ""
  },
  {
   "property": "C89",
   "status": "proved",
   "theorems": [
    "Verif.Props.C89_outcome",
    "Verif.Props.C89_paths",
    "Verif.Props.C89_success",
    "Verif.Props.C89_success_iff",
    "Verif.Props.C89_no_overwrite",
    "Verif.Props.C89_other_files",
    "Verif.Props.C89_json_unprotected",
    "Verif.Props.C89_outputpath_ignored"
   ],
   "note": ""
  },
  {
   "property": "C90",
   "status": "proved",
   "theorems": [
    "Verif.Props.C90_every_file",
    "Verif.Props.C90_read",
    "Verif.Props.C90_typed",
    "Verif.Props.C90_files",
    "Verif.Props.C90_glyphs",
    "Verif.Props.C90_glyph_payloads",
    "Verif.Props.C90_kerning",
    "Verif.Props.C90_sources",
    "Verif.Props.C90_options",
    "Verif.Props.C90_info"
   ],
   "note": ""
  },
  {
   "property": "C91",
   "status": "proved",
   "theorems": [
    "Verif.Props.C91_reads",
    "Verif.Props.C91_current",
    "Verif.Props.C91_first",
    "Verif.Props.C91_stale_defect",
    "Verif.Props.C91_failed_defect",
    "Verif.Props.C91_name_defect",
    "Verif.Props.C91_failed_parts_defect",
    "Verif.Props.C91_outline",
    "Verif.Props.C91_index_defect",
    "Verif.Props.C91_hidden_defect",
    "Verif.Props.C91_len",
    "Verif.Props.C91_accepted",
    "Verif.Props.C91_pen_defect",
    "Verif.Props.C91_master"
   ],
   "note": ""
  },
  {
   "property": "C92",
   "status": "proved",
   "theorems": [
    "Verif.Props.C92_every_file",
    "Verif.Props.C92_nothing_written_defect",
    "Verif.Props.C92_outcome",
    "Verif.Props.C92_path",
    "Verif.Props.C92_save"
   ],
   "note": ""
  },
  {
   "property": "C93",
   "status": "proved",
   "theorems": [
    "Verif.Props.C93_value",
    "Verif.Props.C93_failure",
    "Verif.Props.C93_stale_defect",
    "Verif.Props.C93_current",
    "Verif.Props.C93_file"
   ],
   "note": ""
  },
  {
   "property": "C94",
   "status": "proved",
   "theorems": [
    "Verif.Props.C94_lines",
    "Verif.Props.C94_recover",
    "Verif.Props.C94_distinct",
    "Verif.Props.C94_inputs"
   ],
   "note": ""
  },
  {
   "property": "C95",
   "status": "proved",
   "theorems": [
    "Verif.Props.C95_compares",
    "Verif.Props.C95_same",
    "Verif.Props.C95_html",
    "Verif.Props.C95_reads_twice_defect",
    "Verif.Props.C95_every_file"
   ],
   "note": ""
  },
  {
   "property": "C96",
   "status": "proved",
   "theorems": [
    "Verif.Props.C96_hints",
    "Verif.Props.C96_parts",
    "Verif.Props.C96_command",
    "Verif.Props.C96_converts",
    "Verif.Props.C96_axes",
    "Verif.Props.C96_stems",
    "Verif.Props.C96_zones"
   ],
   "note": ""
  },
  {
   "property": "C97",
   "status": "proved",
   "theorems": [
    "Verif.Props.C97_every_file",
    "Verif.Props.C97_path",
    "Verif.Props.C97_outcome",
    "Verif.Props.C97_success",
    "Verif.Props.C97_which_files",
    "Verif.Props.C97_independent",
    "Verif.Props.C97_format",
    "Verif.Props.C97_example",
    "Verif.Props.C97_instructions",
    "Verif.Props.C97_ready"
   ],
   "note": ""
  },
  {
   "property": "C98",
   "status": "proved",
   "theorems": [
    "Verif.Props.C98_every_file",
    "Verif.Props.C98_path",
    "Verif.Props.C98_success",
    "Verif.Props.C98_failure",
    "Verif.Props.C98_again",
    "Verif.Props.C98_minimal",
    "Verif.Props.C98_font"
   ],
   "note": ""
  },
  {
   "property": "C99",
   "status": "proved",
   "theorems": [
    "Verif.Props.C99_convert",
    "Verif.Props.C99_document",
    "Verif.Props.C99_one_list",
    "Verif.Props.C99_format1",
    "Verif.Props.C99_fails",
    "Verif.Props.C99_errors",
    "Verif.Props.C99_other"
   ],
   "note": ""
  },
  {
   "property": "C100",
   "status": "proved",
   "theorems": [
    "Verif.Props.C100_entry",
    "Verif.Props.C100_font",
    "Verif.Props.C100_add_entries",
    "Verif.Props.C100_no_header",
    "Verif.Props.C100_no_end",
    "Verif.Props.C100_anchors_lost"
   ],
   "note": ""
  },
  {
   "property": "C101",
   "status": "proved",
   "theorems": [
    "Verif.Props.C101_edit",
    "Verif.Props.C101_rework"
   ],
   "note": ""
  },
  {
   "property": "C102",
   "status": "proved",
   "theorems": [
    "Verif.Props.C102_refines",
    "Verif.Props.C102_lookup",
    "Verif.Props.C102_unreadable",
    "Verif.Props.C102_history",
    "Verif.Props.C102_stale",
    "Verif.Props.C102_order_before",
    "Verif.Props.C102_no_glyphs",
    "Verif.Props.C102_masters",
    "Verif.Props.C102_keys"
   ],
   "note": ""
  },
  {
   "property": "C103",
   "status": "proved",
   "theorems": [
    "Verif.Props.C103_redraw"
   ],
   "note": ""
  },
  {
   "property": "C104",
   "status": "proved",
   "theorems": [
    "Verif.Props.C104_convert",
    "Verif.Props.C104_designspace",
    "Verif.Props.C104_unused",
    "Verif.Props.C104_order",
    "Verif.Props.C104_files",
    "Verif.Props.C104_every_file"
   ],
   "note": ""
  },
  {
   "property": "C105",
   "status": "proved",
   "theorems": [
    "Verif.Props.C105_no_effect",
    "Verif.Props.C105_json",
    "Verif.Props.C105_ufo",
    "Verif.Props.C105_setting",
    "Verif.Props.C105_utf8_text"
   ],
   "note": ""
  },
  {
   "property": "C106",
   "status": "proved",
   "theorems": [
    "Verif.Props.C106_same_id",
    "Verif.Props.C106_ids",
    "Verif.Props.C106_cycle",
    "Verif.Props.C106_large"
   ],
   "note": ""
  },
  {
   "property": "C107",
   "status": "proved",
   "theorems": [
    "Verif.Props.C107_master_alone",
    "Verif.Props.C107_files",
    "Verif.Props.C107_names"
   ],
   "note": ""
  },
  {
   "property": "C108",
   "status": "proved",
   "theorems": [
    "Verif.Props.C108_every_file",
    "Verif.Props.C108_saved_copy",
    "Verif.Props.C108_entries"
   ],
   "note": ""
  },
  {
   "property": "C109",
   "status": "proved",
   "theorems": [
    "Verif.Props.C109_drawn",
    "Verif.Props.C109_cubic_rejected",
    "Verif.Props.C109_cubic_closing",
    "Verif.Props.C109_unfinished",
    "Verif.Props.C109_order",
    "Verif.Props.C109_copy"
   ],
   "note": ""
  }
 ]
}