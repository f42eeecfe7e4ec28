# Axioms per theorem

Output of `#print axioms` for the theorems of MANIFEST.json (namespace `Tmf.Props`).

## propext

* C05_read2_width32_violated
* C05_read3_width0_violated
* C05_read_pair_violated
* C07_large_index_violated
* C07_large_max_violated
* C07_small_max_violated
* C08_empty
* C13_failed_add_unchanged
* C18_violated_capacity
* C18_violated_min
* C18_violated_shift
* C22_sequence_violated
* C23_width32_violated
* C28_tangent_violated
* C31_empty_normals
* C31_empty_vertices
* C42_long_violated
* C42_short_violated
* C42_structure
* C42_zero_violated
* C43_minimum_violated
* C43_size_violated
* C45_length_needed
* C45_width64_violated
* C47_small_rejected
* C51_long_violated
* C51_short_violated
* C53_default
* C64_load_differs
* C84_decode
* C84_guards
* C99_panic_violated

## propext, Quot.sound

* C09_laws_ieee
* C102_every_text
* C13_add_fails_exactly
* C24_file
* C24_panic
* C24_schedule
* C26_get_after_history
* C26_set_returns_previous
* C27_normal_buffer
* C27_uv_buffer
* C27_vertex_buffer
* C28_index_violated
* C28_law_ieee
* C28_report_violated
* C30_unused_violated
* C32_prune
* C32_prune_first
* C34_buffers_present
* C36_checked_violated
* C37_checked_violated
* C38_checked_violated
* C40_checked_violated
* C46_unequal_lengths
* C53_incomplete
* C63_fits
* C63_into_largest
* C64_bytes
* C64_compressed
* C64_save
* C69_bytes
* C69_cut
* C69_default
* C69_same
* C69_verify
* C69_verify_violated
* C73_faces
* C73_prune
* C73_prune_same
* C73_unify
* C73_unify_same
* C74_size
* C77_violated
* C84_merge
* C97_async
* C98_bounded_partial
* C99_width_violated

## propext, Classical.choice, Quot.sound

* C01_bit_roundtrip
* C02_bit_layout
* C02_truncates
* C03_bit_reads
* C03_fails_exactly_at_end
* C03_single_bit
* C04_chunk_independent
* C05_read2_partial
* C05_read3_partial
* C05_read_pair_partial
* C06_width_minimal
* C07_custom_roundtrip_partial
* C07_triangles_roundtrip_partial
* C08_opt_tris
* C09_assertion
* C09_bounded
* C09_debug_partial
* C09_debug_violated
* C09_release
* C100_file
* C100_room_needed
* C100_saved
* C101_file
* C101_within_an_array
* C102_comments
* C102_last_return
* C102_lines
* C102_triangulation_limit
* C103_bytes
* C103_loaded
* C103_triangles_matter
* C104_custom_partial
* C104_pieces_violated
* C104_uvs_partial
* C104_uvs_violated
* C104_vertices_partial
* C104_vertices_violated
* C105_alone
* C105_arrays
* C105_vertices_partial
* C105_vertices_violated
* C106_near_partial
* C106_violated
* C107_normals_partial
* C107_partial
* C107_vertices_violated
* C108_accurate_partial
* C108_quads_partial
* C108_violated
* C109_degenerate
* C10_any_build
* C10_index_arrays
* C110_colors_partial
* C110_uvs_partial
* C110_violated
* C111_file
* C111_lost
* C111_refused_partial
* C111_sunk_refused_partial
* C111_sunk_violated
* C111_violated
* C112_file
* C112_filled
* C113_file
* C113_filled
* C114_refused
* C114_unsaved
* C115_file
* C115_stored
* C116_blank_stored
* C116_blank_unsaved
* C116_file
* C116_stored
* C11_any_build_partial
* C11_builds_agree
* C11_names_and_sizes
* C11_wide_violated
* C12_any_build_partial
* C12_custom_data_partial
* C12_violated_duplicate_names
* C13_lookup_first
* C13_lookup_none
* C14_truncated
* C15_trailing
* C16_chunking
* C17_failing_sink
* C17_prefix
* C18_panic_only_bait_partial
* C18_wrapping_only_colors_partial
* C19_foreign
* C19_newer
* C19_written
* C20_array_length
* C20_segment_length
* C21_unknown_segment
* C22_unknown_compression
* C22_unsupported_compression_partial
* C23_old_layout
* C23_old_layout_partial
* C23_wide_violated
* C25_read_one
* C28_accepts_exactly_partial
* C28_reports_partial
* C28_uv_violated
* C28_valid_accepted
* C29_saved_partial
* C29_violated_degenerate
* C29_violated_empty
* C29_violated_incomplete
* C29_violated_index
* C30_reorder_any
* C30_reorder_partial
* C31_empty_tangents_panics
* C31_unify_partial
* C31_violated_wide
* C33_one_total
* C33_only_faces
* C33_total
* C33_triangulation_violated
* C34_decimal_text
* C34_no_meshes_violated
* C34_roundtrip_ieee_partial
* C34_roundtrip_partial
* C34_roundtrip_triangulation_partial
* C34_shortest_text
* C34_slash_violated
* C34_without_normals_violated
* C35_own_elements_partial
* C35_point_cloud_violated
* C35_unambiguous_partial
* C36_above_one_violated
* C36_collapse_violated
* C36_file_partial
* C36_one_violated
* C36_pixel_partial
* C36_pixel_violated
* C36_pixel_zero
* C36_within_step_partial
* C37_collapse_violated
* C37_file_partial
* C37_infinite_violated
* C37_partial
* C37_top_violated
* C37_violated
* C37_wide_partial
* C37_width_violated
* C38_angle_violated
* C38_collapse_violated
* C38_decoded_tangents
* C38_decoded_unit
* C38_file_partial
* C38_file_tangents_partial
* C38_normals_partial
* C38_normals_wide_partial
* C38_side_violated
* C38_sign_violated
* C38_tangents_collapse_violated
* C38_tangents_partial
* C38_tangents_wide_partial
* C38_up_violated
* C38_wrap_violated
* C39_any_build
* C39_handedness
* C39_handedness_file
* C40_color_collapse_violated
* C40_color_one_violated
* C40_color_partial
* C40_color_zero_violated
* C40_constant
* C40_file_partial
* C40_float_collapse_violated
* C40_float_partial
* C40_float_top_violated
* C40_float_violated
* C40_float_wide_partial
* C40_float_wide_violated
* C40_infinite_violated
* C40_nan_violated
* C41_color_panic_violated
* C41_color_value_violated
* C41_color_width_violated
* C41_float_width_violated
* C41_uv_cycles
* C41_uv_partial
* C41_uv_violated
* C42_every
* C42_normals_partial
* C42_too_long_violated
* C42_too_short_violated
* C43_few_cuts_partial
* C43_file_violated
* C43_four_times_partial
* C43_no_cut
* C43_size_bounded_partial
* C44_decoded_size_partial
* C44_violated_file
* C44_violated_indices
* C44_violated_uvs
* C45_roundtrip_partial
* C45_triangles_partial
* C46_permutes
* C46_same_indices
* C47_degenerate
* C47_triangulate
* C48_any_build_partial
* C48_segment_count
* C48_small_partial
* C48_stored_partial
* C48_violated_name
* C48_violated_segments
* C49_accepted_iff
* C49_readable_partial
* C49_rejected
* C49_violated_degenerate
* C49_violated_empty_normals
* C50_accepted_iff
* C51_normalize_verifies
* C52_degrees
* C52_degrees_special
* C52_radians_partial
* C52_radians_violated
* C52_uv
* C53_range
* C53_shortest
* C54_file_partial
* C54_partial
* C54_violated
* C55_bounds
* C55_box
* C55_exact
* C55_meaning
* C55_special
* C55_written
* C56_file
* C56_linear
* C56_segment
* C57_double_blank_violated
* C57_no_normal_violated
* C57_no_uv_violated
* C57_one
* C57_optional_uv_partial
* C57_optional_uv_triangulation_partial
* C57_plain_violated
* C57_scene_partial
* C57_scene_triangulation_partial
* C58_corners_partial
* C58_double_blank_violated
* C58_missing_uv_violated
* C58_negative_violated
* C58_nine_violated
* C58_not_numbers_violated
* C58_slashes
* C58_whole
* C58_whole_triangulation
* C58_zero_violated
* C59_debug
* C59_incomplete_violated
* C59_numbers
* C59_refused_iff
* C60_color_bits
* C60_color_partial
* C60_color_violated
* C60_float_bits
* C60_float_partial
* C60_float_violated
* C61_numbers
* C61_sound
* C61_violated
* C62_any_reading
* C62_layout
* C62_numbers_partial
* C62_unambiguous
* C63_answers
* C64_load
* C64_load_one
* C64_read_obj
* C64_read_obj_one
* C64_round_trip
* C65_accurate_partial
* C65_correct_partial
* C65_saved
* C66_decoded_tangents
* C66_decoded_unit
* C66_file
* C66_file_tangents
* C66_normals
* C66_read
* C66_sine
* C66_tangents
* C66_written
* C67_across
* C67_custom
* C67_saved_across
* C67_saved_across_custom
* C67_uvs
* C67_vertices
* C68_infinite
* C68_nearest
* C68_only
* C68_special
* C68_vertex
* C69_long_array
* C69_saved
* C69_saved_cut
* C69_short_violated
* C70_failing_target
* C70_refused
* C70_success
* C70_unlimited
* C71_chunk_independent
* C71_failing_reader
* C71_no_meshes
* C72_accurate_partial
* C72_converted
* C72_empty_violated
* C73_chunk_independent
* C73_default
* C73_export
* C73_export_violated
* C73_export_zero_violated
* C73_failing_reader
* C73_failing_target
* C73_import
* C73_import_same
* C73_import_short_violated
* C73_import_violated
* C73_no_meshes
* C73_prune_violated
* C73_reader_same
* C73_refused
* C73_reorder
* C73_streams_default
* C73_success
* C73_target_same
* C73_unify_violated
* C73_unlimited
* C74_loadable
* C74_no_panic
* C74_report
* C74_saved
* C75_accurate_partial
* C75_prepared
* C75_same
* C76_cover_partial
* C76_quad
* C76_violated
* C77_settled
* C77_stays_unified_partial
* C77_unify_again
* C78_read_partial
* C78_saved
* C78_violated
* C79_exported
* C79_reexported
* C80_polygons
* C81_decoded_tangents
* C81_decoded_unit
* C81_normals
* C81_tangents
* C82_angles
* C82_file
* C82_segment
* C82_texture
* C83_default
* C83_initialised
* C83_memory
* C83_same
* C85_linear_partial
* C85_partial
* C85_stack
* C85_violated
* C86_again_partial
* C86_again_triangulation_partial
* C86_loose_violated
* C86_tidy
* C86_violated
* C87_one_line
* C87_told_apart
* C88_linear_partial
* C88_partial
* C88_stack
* C88_violated
* C89_tris_partial
* C89_tris_violated
* C89_vertices_partial
* C89_vertices_violated
* C90_angle_violated
* C90_kept_partial
* C90_length_accepted
* C90_length_partial
* C90_nan_violated
* C91_bits
* C91_correct_partial
* C91_edges_violated
* C91_file_partial
* C91_normals_violated
* C92_partial
* C92_violated
* C93_clouds_partial
* C93_violated
* C94_partial
* C94_violated
* C95_end
* C95_files
* C95_saved
* C96_colors_partial
* C96_colors_violated
* C96_floats_partial
* C96_floats_violated
* C96_white_violated
* C97_count
* C97_obj_partial
* C97_obj_stream
* C97_obj_violated
* C97_tmf
* C98_colors_violated
* C98_data_violated
* C98_empty_violated
* C98_exact
* C98_loaded_partial
* C98_normals_violated
* C99_file
* C99_segment_partial
