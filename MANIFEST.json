{
 "claims": [
  {
   "property": "C01",
   "status": "proved",
   "theorems": [
    "Tmf.Props.C01_bit_roundtrip"
   ],
   "note": ""
  },
  {
   "property": "C02",
   "status": "proved",
   "theorems": [
    "Tmf.Props.C02_bit_layout",
    "Tmf.Props.C02_truncates"
   ],
   "note": ""
  },
  {
   "property": "C03",
   "status": "proved",
   "theorems": [
    "Tmf.Props.C03_bit_reads",
    "Tmf.Props.C03_fails_exactly_at_end",
    "Tmf.Props.C03_single_bit"
   ],
   "note": ""
  },
  {
   "property": "C04",
   "status": "proved",
   "theorems": [
    "Tmf.Props.C04_chunk_independent"
   ],
   "note": ""
  },
  {
   "property": "C05",
   "status": "partial",
   "theorems": [
    "Tmf.Props.C05_read2_partial",
    "Tmf.Props.C05_read2_width32_violated",
    "Tmf.Props.C05_read3_partial",
    "Tmf.Props.C05_read3_width0_violated",
    "Tmf.Props.C05_read_pair_partial",
    "Tmf.Props.C05_read_pair_violated"
   ],
   "note": "false as stated: width 32 double reads, width 0 triple reads and unequal pair reads are broken in the code; proved for all other widths"
  },
  {
   "property": "C06",
   "status": "proved",
   "theorems": [
    "Tmf.Props.C06_width_minimal"
   ],
   "note": ""
  },
  {
   "property": "C07",
   "status": "partial",
   "theorems": [
    "Tmf.Props.C07_triangles_roundtrip_partial",
    "Tmf.Props.C07_custom_roundtrip_partial",
    "Tmf.Props.C07_large_index_violated",
    "Tmf.Props.C07_large_max_violated",
    "Tmf.Props.C07_small_max_violated"
   ],
   "note": "false from 2^31 on (width 32) and for declared maxima of 2^63 on or too small; proved otherwise"
  },
  {
   "property": "C08",
   "status": "proved",
   "theorems": [
    "Tmf.Props.C08_opt_tris",
    "Tmf.Props.C08_empty"
   ],
   "note": ""
  },
  {
   "property": "C09",
   "status": "partial",
   "theorems": [
    "Tmf.Props.C09_assertion",
    "Tmf.Props.C09_release",
    "Tmf.Props.C09_debug_partial",
    "Tmf.Props.C09_bounded",
    "Tmf.Props.C09_laws_ieee",
    "Tmf.Props.C09_debug_violated"
   ],
   "note": "Release builds: every vertex array is cut into consecutive non-empty pieces. Debug builds: when the u8 bit counts fit, which is proved for finite coordinates up to 2^76 (C09_bounded, both builds cut alike); the full claim is false there (coordinates of 2^100 overflow, C09_debug_violated)."
  },
  {
   "property": "C10",
   "status": "proved",
   "theorems": [
    "Tmf.Props.C10_any_build",
    "Tmf.Props.C10_index_arrays",
    "Tmf.Props.C11_builds_agree"
   ],
   "note": "Whole files, any build for writing and reading, any reader schedule, trailing bytes. C10_any_build covers every file written that is accepted again (which ones: C49_accepted_iff). Limits: Spec/AnyBuild.lean, Spec/RoundTrip.lean."
  },
  {
   "property": "C100",
   "status": "proved",
   "theorems": [
    "Tmf.Props.C100_file",
    "Tmf.Props.C100_saved",
    "Tmf.Props.C100_room_needed"
   ],
   "note": "C100_file for any file (both layouts, all widths), C100_saved for files the writer makes within the limits of the format, read by either build; C100_room_needed shows the condition on the minimum cannot be dropped."
  },
  {
   "property": "C101",
   "status": "proved",
   "theorems": [
    "Tmf.Props.C101_file",
    "Tmf.Props.C101_within_an_array"
   ],
   "note": "C101_file for any file in both layouts; C101_within_an_array shows that the order inside one array cannot be dropped from the condition."
  },
  {
   "property": "C102",
   "status": "proved",
   "theorems": [
    "Tmf.Props.C102_lines",
    "Tmf.Props.C102_comments",
    "Tmf.Props.C102_every_text",
    "Tmf.Props.C102_triangulation_limit",
    "Tmf.Props.C102_last_return"
   ],
   "note": "For all texts, also malformed ones. Error kinds and texts are not told apart by the model, so two refused texts may be refused with different messages."
  },
  {
   "property": "C103",
   "status": "proved",
   "theorems": [
    "Tmf.Props.C103_bytes",
    "Tmf.Props.C103_loaded",
    "Tmf.Props.C103_triangles_matter"
   ],
   "note": "Bytes: for all pairs of files that one build saves. Loaded arrays: within the limits of the format, for one reading build that accepts both files. C103_triangles_matter shows that the dependence of vertices on triangles is real."
  },
  {
   "property": "C104",
   "status": "partial",
   "theorems": [
    "Tmf.Props.C104_uvs_partial",
    "Tmf.Props.C104_custom_partial",
    "Tmf.Props.C104_vertices_partial",
    "Tmf.Props.C104_uvs_violated",
    "Tmf.Props.C104_vertices_violated",
    "Tmf.Props.C104_pieces_violated"
   ],
   "note": "False as stated: C104_uvs_violated (25 bits or more, the coordinate 1), C104_vertices_violated (last vertex outside the box), C104_pieces_violated (vertices stored in different segments, whole file with the default settings). Proved for whole files for all other numbers: uvs and colours in [0,1], floats and coordinates up to 2^120 in arrays that are not constant, below the upper end where 25 bits or more are used. Not covered: normals, boxes narrower than a millionth with 25 bits or more."
  },
  {
   "property": "C105",
   "status": "partial",
   "theorems": [
    "Tmf.Props.C105_arrays",
    "Tmf.Props.C105_alone",
    "Tmf.Props.C105_vertices_partial",
    "Tmf.Props.C105_vertices_violated"
   ],
   "note": "False as stated for vertices: C105_vertices_violated (whole file, default settings, every build). Proved for normals, uvs, tangents and custom data in C105_arrays and C105_alone, for vertices of one segment in C105_vertices_partial."
  },
  {
   "property": "C106",
   "status": "partial",
   "theorems": [
    "Tmf.Props.C106_near_partial",
    "Tmf.Props.C106_violated"
   ],
   "note": "False as stated: C106_violated (the normal (1,1,1), all numbers of calls). Proved: each further call moves components by at most 2^-19 and keeps the length (C106_near_partial)."
  },
  {
   "property": "C107",
   "status": "partial",
   "theorems": [
    "Tmf.Props.C107_partial",
    "Tmf.Props.C107_normals_partial",
    "Tmf.Props.C107_vertices_violated"
   ],
   "note": "Proved for normals and tangents (C107_partial, C107_normals_partial). False for vertices: C107_vertices_violated."
  },
  {
   "property": "C108",
   "status": "partial",
   "theorems": [
    "Tmf.Props.C108_quads_partial",
    "Tmf.Props.C108_accurate_partial",
    "Tmf.Props.C108_violated"
   ],
   "note": "Proved for faces with at most four corners (C108_quads_partial, C108_accurate_partial). False for a pentagon: C108_violated. Missing: polygons with six or more corners whose number does not divide 2^64 - 1."
  },
  {
   "property": "C109",
   "status": "proved",
   "theorems": [
    "Tmf.Props.C109_degenerate"
   ],
   "note": "C109_degenerate: coordinates up to 2^58, an accurate and monotone log2, and files within the size limits."
  },
  {
   "property": "C11",
   "status": "partial",
   "theorems": [
    "Tmf.Props.C11_any_build_partial",
    "Tmf.Props.C11_names_and_sizes",
    "Tmf.Props.C11_builds_agree",
    "Tmf.Props.C11_wide_violated"
   ],
   "note": "Proved for both builds of the writer and of the reader whenever the widths stored are below 64 bits, and for everything a writer with overflow checks accepts (C11_names_and_sizes). A writer without overflow checks also accepts uv widths from 64 bits, and then nothing comes back (C11_wide_violated)."
  },
  {
   "property": "C110",
   "status": "partial",
   "theorems": [
    "Tmf.Props.C110_uvs_partial",
    "Tmf.Props.C110_colors_partial",
    "Tmf.Props.C110_violated"
   ],
   "note": "False above 1 (C110_violated): the code wraps at 2^p steps, not at 2^p - 1, so n + f comes back n steps below f. The ends, NaN and infinities are proved for all widths, and what numbers above 1 become is described for up to 24 bits. Missing: numbers above 1 in more than 24 bits, numbers above 2^20 steps and below 2^64, and fractional parts below n + 2 steps."
  },
  {
   "property": "C111",
   "status": "partial",
   "theorems": [
    "Tmf.Props.C111_refused_partial",
    "Tmf.Props.C111_sunk_refused_partial",
    "Tmf.Props.C111_lost",
    "Tmf.Props.C111_file",
    "Tmf.Props.C111_violated",
    "Tmf.Props.C111_sunk_violated"
   ],
   "note": "False for z = +infinity (C111_violated) and for y = -infinity in the last vertex of a piece (C111_sunk_violated); C111_lost and C111_file say what is loaded then. C111_refused_partial covers x = +-infinity, y = +infinity and z = -infinity, C111_sunk_refused_partial y = -infinity elsewhere. Missing: arrays mixing these with NaN or with infinities on the other axes."
  },
  {
   "property": "C112",
   "status": "proved",
   "theorems": [
    "Tmf.Props.C112_filled",
    "Tmf.Props.C112_file"
   ],
   "note": "C112_filled for one segment, C112_file for whole files."
  },
  {
   "property": "C113",
   "status": "proved",
   "theorems": [
    "Tmf.Props.C113_filled",
    "Tmf.Props.C113_file"
   ],
   "note": "C113_filled for one array, C113_file for whole files."
  },
  {
   "property": "C114",
   "status": "proved",
   "theorems": [
    "Tmf.Props.C114_refused",
    "Tmf.Props.C114_unsaved"
   ],
   "note": "C114_refused: no build both saves and loads. C114_unsaved: a build with overflow checks does not save."
  },
  {
   "property": "C115",
   "status": "proved",
   "theorems": [
    "Tmf.Props.C115_stored",
    "Tmf.Props.C115_file"
   ],
   "note": "C115_stored for one array, C115_file for whole files."
  },
  {
   "property": "C116",
   "status": "proved",
   "theorems": [
    "Tmf.Props.C116_stored",
    "Tmf.Props.C116_file",
    "Tmf.Props.C116_blank_stored",
    "Tmf.Props.C116_blank_unsaved"
   ],
   "note": "C116_stored for one array, C116_file for whole files, C116_blank_stored and C116_blank_unsaved for arrays without any number."
  },
  {
   "property": "C12",
   "status": "partial",
   "theorems": [
    "Tmf.Props.C12_any_build_partial",
    "Tmf.Props.C12_custom_data_partial",
    "Tmf.Props.C12_violated_duplicate_names"
   ],
   "note": "Both builds. Order is reversed by a round trip; looking up a name stored twice changes its answer (negation proved). With distinct names the lookup finds what was stored."
  },
  {
   "property": "C13",
   "status": "proved",
   "theorems": [
    "Tmf.Props.C13_add_fails_exactly",
    "Tmf.Props.C13_failed_add_unchanged",
    "Tmf.Props.C13_lookup_first",
    "Tmf.Props.C13_lookup_none"
   ],
   "note": "Every history of adds and every lookup name; names compared as byte strings."
  },
  {
   "property": "C14",
   "status": "proved",
   "theorems": [
    "Tmf.Props.C14_truncated"
   ],
   "note": ""
  },
  {
   "property": "C15",
   "status": "proved",
   "theorems": [
    "Tmf.Props.C15_trailing"
   ],
   "note": ""
  },
  {
   "property": "C16",
   "status": "proved",
   "theorems": [
    "Tmf.Props.C16_chunking"
   ],
   "note": "Also for a source that ends in a device error."
  },
  {
   "property": "C17",
   "status": "proved",
   "theorems": [
    "Tmf.Props.C17_failing_sink",
    "Tmf.Props.C17_prefix"
   ],
   "note": "C17_prefix also covers saves that panic."
  },
  {
   "property": "C18",
   "status": "partial",
   "theorems": [
    "Tmf.Props.C18_panic_only_bait_partial",
    "Tmf.Props.C18_wrapping_only_colors_partial",
    "Tmf.Props.C18_violated_capacity",
    "Tmf.Props.C18_violated_shift",
    "Tmf.Props.C18_violated_min"
   ],
   "note": "False as stated: three kinds of files make the loader panic (proved). Proved: nothing else does."
  },
  {
   "property": "C19",
   "status": "proved",
   "theorems": [
    "Tmf.Props.C19_foreign",
    "Tmf.Props.C19_newer",
    "Tmf.Props.C19_written"
   ],
   "note": "Exact characterisation of both errors."
  },
  {
   "property": "C20",
   "status": "proved",
   "theorems": [
    "Tmf.Props.C20_segment_length",
    "Tmf.Props.C20_array_length"
   ],
   "note": "Array version: segments behind the offending one must not themselves panic (C18)."
  },
  {
   "property": "C21",
   "status": "proved",
   "theorems": [
    "Tmf.Props.C21_unknown_segment"
   ],
   "note": ""
  },
  {
   "property": "C22",
   "status": "partial",
   "theorems": [
    "Tmf.Props.C22_unknown_compression",
    "Tmf.Props.C22_unsupported_compression_partial",
    "Tmf.Props.C22_sequence_violated"
   ],
   "note": "False for code 255 on plain triangle segments, which is reported as code 1 (proved); all other codes proved."
  },
  {
   "property": "C23",
   "status": "partial",
   "theorems": [
    "Tmf.Props.C23_old_layout",
    "Tmf.Props.C23_old_layout_partial",
    "Tmf.Props.C23_width32_violated",
    "Tmf.Props.C23_wide_violated"
   ],
   "note": "C23_old_layout says for every stored width what comes back: exact for all widths below 64 but 32 (C23_old_layout_partial); with 32 bits pairs come back as zeros (C23_width32_violated), from 64 bits on everything does (C23_wide_violated)."
  },
  {
   "property": "C24",
   "status": "proved",
   "theorems": [
    "Tmf.Props.C24_schedule",
    "Tmf.Props.C24_panic",
    "Tmf.Props.C24_file"
   ],
   "note": "For one mesh (C24_schedule, C24_panic) and for whole files from any source (C24_file)."
  },
  {
   "property": "C25",
   "status": "proved",
   "theorems": [
    "Tmf.Props.C25_read_one"
   ],
   "note": ""
  },
  {
   "property": "C26",
   "status": "proved",
   "theorems": [
    "Tmf.Props.C26_get_after_history",
    "Tmf.Props.C26_set_returns_previous"
   ],
   "note": "Every history of set/append/get calls on the eight arrays."
  },
  {
   "property": "C27",
   "status": "proved",
   "theorems": [
    "Tmf.Props.C27_vertex_buffer",
    "Tmf.Props.C27_normal_buffer",
    "Tmf.Props.C27_uv_buffer"
   ],
   "note": "Buffers for vertices, normals and uvs; None exactly when an index is out of range."
  },
  {
   "property": "C28",
   "status": "partial",
   "theorems": [
    "Tmf.Props.C28_valid_accepted",
    "Tmf.Props.C28_accepts_exactly_partial",
    "Tmf.Props.C28_reports_partial",
    "Tmf.Props.C28_law_ieee",
    "Tmf.Props.C28_index_violated",
    "Tmf.Props.C28_uv_violated",
    "Tmf.Props.C28_tangent_violated",
    "Tmf.Props.C28_report_violated"
   ],
   "note": "False as stated: an index equal to the array length, uvs of any value and unmatched tangent indices are accepted, and a second normal problem is not reported (all proved). Proved: valid meshes are accepted, the exact accepted set, and that reported errors are accurate and cover each failing part. The laws assumed hold for IEEE arithmetic."
  },
  {
   "property": "C29",
   "status": "partial",
   "theorems": [
    "Tmf.Props.C29_saved_partial",
    "Tmf.Props.C29_violated_empty",
    "Tmf.Props.C29_violated_index",
    "Tmf.Props.C29_violated_incomplete",
    "Tmf.Props.C29_violated_degenerate"
   ],
   "note": "False as stated: verified meshes with an empty vertex array, with an index equal to the length, with an incomplete triangle, or (debug) with a degenerate triangle panic on saving; proved with these cases excluded."
  },
  {
   "property": "C30",
   "status": "partial",
   "theorems": [
    "Tmf.Props.C30_reorder_partial",
    "Tmf.Props.C30_reorder_any",
    "Tmf.Props.C30_unused_violated"
   ],
   "note": "All parts proved for in-range meshes whose index arrays are not empty; an empty index array leaves its data unused (negation proved), and C30_reorder_any covers that case."
  },
  {
   "property": "C31",
   "status": "partial",
   "theorems": [
    "Tmf.Props.C31_unify_partial",
    "Tmf.Props.C31_violated_wide",
    "Tmf.Props.C31_empty_vertices",
    "Tmf.Props.C31_empty_normals",
    "Tmf.Props.C31_empty_tangents_panics"
   ],
   "note": "Proved in full for meshes of up to 2^32 corners and every hash order; beyond that ids are cut to 32 bits and the geometry changes (negation proved). Empty vertex or normal arrays count as absent whatever their indices (C31_empty_vertices, C31_empty_normals); an empty tangent array can panic (C31_empty_tangents_panics)."
  },
  {
   "property": "C32",
   "status": "proved",
   "theorems": [
    "Tmf.Props.C32_prune",
    "Tmf.Props.C32_prune_first"
   ],
   "note": "fast_prune for every data array and index array, both builds."
  },
  {
   "property": "C33",
   "status": "proved",
   "theorems": [
    "Tmf.Props.C33_total",
    "Tmf.Props.C33_one_total",
    "Tmf.Props.C33_triangulation_violated",
    "Tmf.Props.C33_only_faces"
   ],
   "note": "Every list of bytes, default features. With the feature triangulation it is false (C33_triangulation_violated): a face of four or more corners naming a missing vertex panics. Failing readers are not modelled."
  },
  {
   "property": "C34",
   "status": "partial",
   "theorems": [
    "Tmf.Props.C34_roundtrip_partial",
    "Tmf.Props.C34_roundtrip_triangulation_partial",
    "Tmf.Props.C34_roundtrip_ieee_partial",
    "Tmf.Props.C34_decimal_text",
    "Tmf.Props.C34_shortest_text",
    "Tmf.Props.C34_buffers_present",
    "Tmf.Props.C34_no_meshes_violated",
    "Tmf.Props.C34_slash_violated",
    "Tmf.Props.C34_without_normals_violated"
   ],
   "note": "Needs at least one mesh, names without slashes and line ends besides spaces, at least one triangle, no NaN, and fewer than 2^32 elements in all. Negations: no meshes read back as one, names are cut at slashes, meshes without normals cannot be read. C34_roundtrip_partial assumes that printed floats parse back (FloatTextLaws); C34_decimal_text and C34_roundtrip_ieee_partial prove it for IEEE floats printed as Rust prints them, with the shortest digits that read back (C34_shortest_text)."
  },
  {
   "property": "C35",
   "status": "partial",
   "theorems": [
    "Tmf.Props.C35_own_elements_partial",
    "Tmf.Props.C35_unambiguous_partial",
    "Tmf.Props.C35_point_cloud_violated"
   ],
   "note": "All meshes have vertex triangles with indices in range and the totals fit u32; false after a mesh without triangles (C35_point_cloud_violated)."
  },
  {
   "property": "C36",
   "status": "partial",
   "theorems": [
    "Tmf.Props.C36_within_step_partial",
    "Tmf.Props.C36_file_partial",
    "Tmf.Props.C36_one_violated",
    "Tmf.Props.C36_above_one_violated",
    "Tmf.Props.C36_pixel_partial",
    "Tmf.Props.C36_pixel_zero",
    "Tmf.Props.C36_pixel_violated",
    "Tmf.Props.C36_collapse_violated",
    "Tmf.Props.C36_checked_violated"
   ],
   "note": "Every coordinate in [0,1] comes back less than one step below its original and never above it for 1 to 24 bits, and for 25 to 30 bits if it is below 1; in IEEE f32 arithmetic, for arrays and for whole files of either build. With 25 to 30 bits the coordinate 1 comes back as 0. The requested pixel deviation can be exceeded by a factor of up to 2^p/(2^p-1) when resolution/deviation is above 2^p-1, and by a further factor of at most 1+2^-17 because log2 is rounded (any log2 accurate to 2^-17). 31 bits, which only builds without overflow checks can write, behave like 25 to 30. With 32 to 63 bits such a build writes everything as next to nothing (C36_collapse_violated); a build with overflow checks panics from 31 bits on (C36_checked_violated)."
  },
  {
   "property": "C37",
   "status": "partial",
   "theorems": [
    "Tmf.Props.C37_partial",
    "Tmf.Props.C37_violated",
    "Tmf.Props.C37_width_violated",
    "Tmf.Props.C37_file_partial",
    "Tmf.Props.C37_wide_partial",
    "Tmf.Props.C37_top_violated",
    "Tmf.Props.C37_collapse_violated",
    "Tmf.Props.C37_checked_violated",
    "Tmf.Props.C37_infinite_violated"
   ],
   "note": "Finite vertices with coordinates up to 2^120 and up to 24 bits per coordinate (up to 30 for coordinates below the largest one by at least 1/2^21 of the extent, C37_wide_partial): all but the last vertex (and the last one if inside the computed box) come back within one step of the extent the code uses plus rounding (IEEE arithmetic). The claim as stated is false: C37_violated (last vertex outside the box), C37_top_violated (with 25 to 30 bits the largest coordinate comes back as the smallest), C37_width_violated (z width computed from the y size). C37_file_partial: the same for whole files of either build, piece by piece as the exporter cuts the array. 31 bits, without overflow checks, behave like 25 to 30; with 32 to 63 bits every vertex inside the box comes back at the lower end of the axis (C37_collapse_violated); with overflow checks saving panics from 31 bits on (C37_checked_violated). Infinite coordinates are saved without an error and come back as NaN (C37_infinite_violated)."
  },
  {
   "property": "C38",
   "status": "partial",
   "theorems": [
    "Tmf.Props.C38_normals_partial",
    "Tmf.Props.C38_tangents_partial",
    "Tmf.Props.C38_file_partial",
    "Tmf.Props.C38_decoded_unit",
    "Tmf.Props.C38_decoded_tangents",
    "Tmf.Props.C38_angle_violated",
    "Tmf.Props.C38_sign_violated",
    "Tmf.Props.C38_wrap_violated",
    "Tmf.Props.C38_file_tangents_partial",
    "Tmf.Props.C38_normals_wide_partial",
    "Tmf.Props.C38_tangents_wide_partial",
    "Tmf.Props.C38_up_violated",
    "Tmf.Props.C38_side_violated",
    "Tmf.Props.C38_collapse_violated",
    "Tmf.Props.C38_tangents_collapse_violated",
    "Tmf.Props.C38_checked_violated"
   ],
   "note": "Every normal or tangent decoded with 1 to 63 bits, from any bytes, is finite and of length 1 up to 2^-18 in the square (C38_decoded_unit). A saved unit normal (1 to 24 bits) comes back on the same side of the coordinate planes, except that a y of at most 2^-20 may change sign; its height is less than one step lower, its distance from the original is at most sqrt(2h+5/2h^2)+2^-8 for a step h, and at most 17/8 h+2^-8 between 45 degrees south and north. IEEE f32 arithmetic with any sin, cos, asin accurate to 2^-22. The requested angle is not kept near the poles: one degree requested, more than six obtained (C38_angle_violated). Sign of y: C38_sign_violated. Length slightly above 1: C38_wrap_violated. With 25 to 30 bits the same holds for normals away from the z axis and the x axis (|x| at most 512 |y|); (0,0,1) comes back with z = 0 and (1,0,0) along the y axis (C38_up_violated, C38_side_violated). 31 bits, without overflow checks, behave like 25 to 30; with 32 to 63 bits every normal that is not along the z axis comes back along the y axis (C38_collapse_violated, C38_tangents_collapse_violated); with overflow checks saving panics from 31 bits on (C38_checked_violated). Whole files of either build for both normals and tangents."
  },
  {
   "property": "C39",
   "status": "proved",
   "theorems": [
    "Tmf.Props.C39_handedness",
    "Tmf.Props.C39_handedness_file",
    "Tmf.Props.C39_any_build"
   ],
   "note": "Array level for every width below 64 and both builds, and whole files for every build of the writer and reader."
  },
  {
   "property": "C40",
   "status": "partial",
   "theorems": [
    "Tmf.Props.C40_float_partial",
    "Tmf.Props.C40_constant",
    "Tmf.Props.C40_color_partial",
    "Tmf.Props.C40_float_violated",
    "Tmf.Props.C40_float_wide_violated",
    "Tmf.Props.C40_infinite_violated",
    "Tmf.Props.C40_nan_violated",
    "Tmf.Props.C40_color_zero_violated",
    "Tmf.Props.C40_color_one_violated",
    "Tmf.Props.C40_file_partial",
    "Tmf.Props.C40_float_wide_partial",
    "Tmf.Props.C40_float_top_violated",
    "Tmf.Props.C40_color_collapse_violated",
    "Tmf.Props.C40_float_collapse_violated",
    "Tmf.Props.C40_checked_violated"
   ],
   "note": "Floats: not constant, finite, up to 2^120, up to 24 bits (up to 30 for values below the largest by at least 1/2^21 of the extent): within one step plus rounding; with 25 to 30 bits the largest value of every non-constant array comes back as the smallest; constant finite arrays come back exactly; colours within one step. False without the rounding allowance (C40_float_violated), at 25-30 bits, for infinite and NaN data, and for colours with precision 1 or 25-30 bits. C40_file_partial: the same for whole files of either build. 31 bits, without overflow checks, behave like 25 to 30; with 32 to 63 bits every colour channel comes back as next to nothing and every float as the smallest of its array; with overflow checks saving panics from 31 bits on."
  },
  {
   "property": "C41",
   "status": "partial",
   "theorems": [
    "Tmf.Props.C41_uv_partial",
    "Tmf.Props.C41_uv_cycles",
    "Tmf.Props.C41_uv_violated",
    "Tmf.Props.C41_color_width_violated",
    "Tmf.Props.C41_color_value_violated",
    "Tmf.Props.C41_color_panic_violated",
    "Tmf.Props.C41_float_width_violated"
   ],
   "note": "uv coordinates: no further change in any number of cycles, for up to 24 bits and every value, for 25 to 31 bits and values in [0,1]; false for huge values with 25 bits or more. Colours: false, the width grows by one bit each cycle, values change, and a debug build finally panics. Floats: false, the width grows by one bit each cycle."
  },
  {
   "property": "C42",
   "status": "partial",
   "theorems": [
    "Tmf.Props.C42_structure",
    "Tmf.Props.C42_normals_partial",
    "Tmf.Props.C42_every",
    "Tmf.Props.C42_too_long_violated",
    "Tmf.Props.C42_too_short_violated",
    "Tmf.Props.C42_zero_violated",
    "Tmf.Props.C42_long_violated",
    "Tmf.Props.C42_short_violated"
   ],
   "note": "Structure untouched and count kept for every mesh and arithmetic; direction kept and length 1 up to rounding for finite normals of length 2^-72 to almost 2^64 (IEEE arithmetic). False for all normals longer than 2^64, which become zero, and for all with components up to 2^-75 (zero included), which become infinite or NaN. C42_every says what becomes of every normal, NaN and infinite ones included: wherever the direction can be kept it is, and between 2^-75 and 2^-72 the length comes out between 2/5 and 2."
  },
  {
   "property": "C43",
   "status": "partial",
   "theorems": [
    "Tmf.Props.C43_size_violated",
    "Tmf.Props.C43_size_bounded_partial",
    "Tmf.Props.C43_no_cut",
    "Tmf.Props.C43_few_cuts_partial",
    "Tmf.Props.C43_four_times_partial",
    "Tmf.Props.C43_minimum_violated",
    "Tmf.Props.C43_file_violated"
   ],
   "note": "False as stated, with witnesses for both kinds of cuts and for a whole file. Proved instead: at most one cut for 89 bits of indices, at most 24 bytes more for each cut, at most four times the size; nothing changes without a cut."
  },
  {
   "property": "C44",
   "status": "partial",
   "theorems": [
    "Tmf.Props.C44_decoded_size_partial",
    "Tmf.Props.C44_violated_uvs",
    "Tmf.Props.C44_violated_indices",
    "Tmf.Props.C44_violated_file"
   ],
   "note": "Holds when every element takes at least one bit; negations for zero-width uvs, index widths 0 and 64 or more, and a 35-byte file that loads as up to 2^31 uvs."
  },
  {
   "property": "C45",
   "status": "partial",
   "theorems": [
    "Tmf.Props.C45_roundtrip_partial",
    "Tmf.Props.C45_triangles_partial",
    "Tmf.Props.C45_width64_violated",
    "Tmf.Props.C45_length_needed"
   ],
   "note": "All widths up to 63 bits; false at 64 bits (C45_width64_violated). C45_length_needed shows that the length must fit. C45_triangles_partial is the same for save_triangles_lzz with its header."
  },
  {
   "property": "C46",
   "status": "proved",
   "theorems": [
    "Tmf.Props.C46_permutes",
    "Tmf.Props.C46_same_indices",
    "Tmf.Props.C46_unequal_lengths"
   ],
   "note": "Any number of arrays; one common order for all arrays."
  },
  {
   "property": "C47",
   "status": "proved",
   "theorems": [
    "Tmf.Props.C47_triangulate",
    "Tmf.Props.C47_small_rejected",
    "Tmf.Props.C47_degenerate"
   ],
   "note": "Vertex indices must be in range (otherwise the code panics). C47_degenerate: a pentagon always yields a degenerate triangle, so the triangles need not cover the face."
  },
  {
   "property": "C48",
   "status": "partial",
   "theorems": [
    "Tmf.Props.C48_any_build_partial",
    "Tmf.Props.C48_stored_partial",
    "Tmf.Props.C48_violated_name",
    "Tmf.Props.C48_violated_segments",
    "Tmf.Props.C48_segment_count",
    "Tmf.Props.C48_small_partial"
   ],
   "note": "Both builds. Inside the limits everything comes back; negation proved for names of 2^16 bytes or more and for 2^16 or more custom data entries. C48_segment_count bounds the number of segments by the sizes of the arrays, so C48_small_partial has conditions on the mesh only."
  },
  {
   "property": "C49",
   "status": "partial",
   "theorems": [
    "Tmf.Props.C49_accepted_iff",
    "Tmf.Props.C49_rejected",
    "Tmf.Props.C49_readable_partial",
    "Tmf.Props.C49_violated_empty_normals",
    "Tmf.Props.C49_violated_degenerate"
   ],
   "note": "Inside the limits C49_accepted_iff says exactly which written files are accepted, for both builds of the writer and reader, and C49_rejected how the others fail. Negation proved for empty normal arrays at precisions of 64 bits or more and, without overflow checks, for degenerate triangles with default settings."
  },
  {
   "property": "C50",
   "status": "proved",
   "theorems": [
    "Tmf.Props.C50_accepted_iff"
   ],
   "note": ""
  },
  {
   "property": "C51",
   "status": "proved",
   "theorems": [
    "Tmf.Props.C51_normalize_verifies",
    "Tmf.Props.C51_short_violated",
    "Tmf.Props.C51_long_violated"
   ],
   "note": "IEEE arithmetic. Outside this range it is false for some normals (C51_short_violated, C51_long_violated)."
  },
  {
   "property": "C52",
   "status": "partial",
   "theorems": [
    "Tmf.Props.C52_degrees",
    "Tmf.Props.C52_degrees_special",
    "Tmf.Props.C52_radians_partial",
    "Tmf.Props.C52_radians_violated",
    "Tmf.Props.C52_uv"
   ],
   "note": "Degrees: at least one bit and the fewest that are enough, for every finite deviation from 2^-120 degrees on; deviations that are NaN, negative or infinite give one bit, zero gives 255 (C52_degrees_special). Uv coordinates: the fewest bits that are enough. Radians: likewise, but not at least one bit: from_rad_dev(2.0) gives 0 bits and every normal comes back with length sqrt 3 (C52_radians_violated)."
  },
  {
   "property": "C53",
   "status": "proved",
   "theorems": [
    "Tmf.Props.C53_shortest",
    "Tmf.Props.C53_range",
    "Tmf.Props.C53_incomplete",
    "Tmf.Props.C53_default"
   ],
   "note": "IEEE arithmetic, coordinates up to 2^58. Result near some edge length and at most every edge length up to relative 2^-20; panics and the default 0.1 stated exactly."
  },
  {
   "property": "C54",
   "status": "partial",
   "theorems": [
    "Tmf.Props.C54_partial",
    "Tmf.Props.C54_violated",
    "Tmf.Props.C54_file_partial"
   ],
   "note": "The documented bound is false: C54_violated shows an edge of length 5 coming back shorter than 1 at precision 0.1 with shortest edge 1. C54_partial: for ends inside the computed box, z extent of the box not above its y extent and widths the build can write, with 25 bits or more for ends below the top of the box, an edge changes by at most 7 times precision times any edge length, plus 4/999999 and M/2^17. Missing: the factor 1 (false in the code), ends outside the box, the other widths. C54_file_partial: the same for whole files, also for edges between vertices of different pieces."
  },
  {
   "property": "C55",
   "status": "proved",
   "theorems": [
    "Tmf.Props.C55_meaning",
    "Tmf.Props.C55_special",
    "Tmf.Props.C55_written",
    "Tmf.Props.C55_exact",
    "Tmf.Props.C55_bounds",
    "Tmf.Props.C55_box"
   ],
   "note": "Binary64 layout for every value; NaN patterns all read as the one NaN of the model."
  },
  {
   "property": "C56",
   "status": "proved",
   "theorems": [
    "Tmf.Props.C56_segment",
    "Tmf.Props.C56_file",
    "Tmf.Props.C56_linear"
   ],
   "note": "Exact sizes for every segment and file in both builds and for any widths and arithmetic; the linear bound assumes the u8 range of the settings and arrays of at most 2^31 elements (MeshFits)."
  },
  {
   "property": "C57",
   "status": "partial",
   "theorems": [
    "Tmf.Props.C57_scene_partial",
    "Tmf.Props.C57_scene_triangulation_partial",
    "Tmf.Props.C57_optional_uv_partial",
    "Tmf.Props.C57_optional_uv_triangulation_partial",
    "Tmf.Props.C57_one",
    "Tmf.Props.C57_double_blank_violated",
    "Tmf.Props.C57_no_uv_violated",
    "Tmf.Props.C57_plain_violated",
    "Tmf.Props.C57_no_normal_violated"
   ],
   "note": "Proved for single blanks between words, corners with normal, numbers counted from the start and defined before. Corners with uv are read exactly (C57_scene_partial); where the uv is left out vertices, normals and all uvs given are right (C57_optional_uv_partial), but uv indices are made up (C57_no_uv_violated). Corners without normal are refused (C57_plain_violated, C57_no_normal_violated), as are two blanks after the first word. Reading one mesh is fully characterised."
  },
  {
   "property": "C58",
   "status": "partial",
   "theorems": [
    "Tmf.Props.C58_whole",
    "Tmf.Props.C58_whole_triangulation",
    "Tmf.Props.C58_corners_partial",
    "Tmf.Props.C58_slashes",
    "Tmf.Props.C58_nine_violated",
    "Tmf.Props.C58_not_numbers_violated",
    "Tmf.Props.C58_negative_violated",
    "Tmf.Props.C58_missing_uv_violated",
    "Tmf.Props.C58_double_blank_violated",
    "Tmf.Props.C58_zero_violated"
   ],
   "note": "Whole triangles for every text; other numbers of corners are refused if no number is zero. False in general: slashes and blanks are not told apart, so nine plain numbers make a triangle; words that are not numbers (negative, empty) count as 1; a zero ends the face."
  },
  {
   "property": "C59",
   "status": "proved",
   "theorems": [
    "Tmf.Props.C59_refused_iff",
    "Tmf.Props.C59_debug",
    "Tmf.Props.C59_numbers",
    "Tmf.Props.C59_incomplete_violated"
   ],
   "note": "Exact condition proved for release builds; debug builds do the same or panic. C59_numbers gives the numbers written, also for wrapped ones. Incomplete triangles are not among the refused meshes and break the text (C59_incomplete_violated)."
  },
  {
   "property": "C60",
   "status": "partial",
   "theorems": [
    "Tmf.Props.C60_float_bits",
    "Tmf.Props.C60_float_partial",
    "Tmf.Props.C60_float_violated",
    "Tmf.Props.C60_color_bits",
    "Tmf.Props.C60_color_partial",
    "Tmf.Props.C60_color_violated"
   ],
   "note": "False as stated: with a precision d a value can be off by up to 2d, because p bits give 2^p - 1 steps (witnesses for floats and colours). Proved: the width is the fewest giving span/precision steps up to the error of log2, and the error is below 2d plus rounding (below d/(1-d) for colours)."
  },
  {
   "property": "C61",
   "status": "proved",
   "theorems": [
    "Tmf.Props.C61_sound",
    "Tmf.Props.C61_numbers",
    "Tmf.Props.C61_violated"
   ],
   "note": "The exceptions named in the statement occur (C61_violated). Vertices are not constrained when loading, and indices are not checked against their arrays."
  },
  {
   "property": "C62",
   "status": "partial",
   "theorems": [
    "Tmf.Props.C62_layout",
    "Tmf.Props.C62_unambiguous",
    "Tmf.Props.C62_any_reading",
    "Tmf.Props.C62_numbers_partial"
   ],
   "note": "Layout, uniqueness and index arrays in full (C62_layout, C62_unambiguous, C62_any_reading). The numbers (C62_numbers_partial): the claim is false at the upper end of each scale with 25 bits or more, for vertices outside the box of their array and for uv coordinates outside 0 to 1, where only the low bits of the number of steps are in the file; the theorem says so (StepsCode), also for boxes narrower than a millionth. Missing: numbers more than 2^30 scales away."
  },
  {
   "property": "C63",
   "status": "proved",
   "theorems": [
    "Tmf.Props.C63_into_largest",
    "Tmf.Props.C63_fits",
    "Tmf.Props.C63_answers"
   ],
   "note": "Every history of additions. Under the limits of LimitsLow (as the other file theorems), an accurate log2 for the numbers, and floats with a range up to 2^16."
  },
  {
   "property": "C64",
   "status": "proved",
   "theorems": [
    "Tmf.Props.C64_save",
    "Tmf.Props.C64_bytes",
    "Tmf.Props.C64_load",
    "Tmf.Props.C64_load_one",
    "Tmf.Props.C64_read_obj",
    "Tmf.Props.C64_read_obj_one",
    "Tmf.Props.C64_compressed",
    "Tmf.Props.C64_round_trip",
    "Tmf.Props.C64_load_differs",
    "Tmf.Props.C59_debug"
   ],
   "note": "Every function with overflow-dependent arithmetic; the exception (the debug build panics) is needed, C64_load_differs. Writing .obj text is C59_debug."
  },
  {
   "property": "C65",
   "status": "partial",
   "theorems": [
    "Tmf.Props.C65_saved",
    "Tmf.Props.C65_accurate_partial",
    "Tmf.Props.C37_violated",
    "Tmf.Props.C54_violated",
    "Tmf.Props.C65_correct_partial"
   ],
   "note": "Saving, loading, agreement of builds and everything that is not a vertex: as stated. Vertices: every x and y the box of its run (as the splitter makes them) reaches, which are all but possibly those of the last vertex (XReached, YReached), and z only where no z exceeds all x and y of the run and the box reaches every y; without this the claim is false (C37_violated, C54_violated). Up to k = 30 bits for a coordinate; from 25 bits on only coordinates that another vertex of the run, not the last, exceeds by M / 2^20 (C37_top_violated). uv coordinates, normals, tangents: 1 to 30 bits, from 25 bits on away from the top of the scale and the axes (C36, C38). C65_correct_partial: the same for every library that rounds correctly."
  },
  {
   "property": "C66",
   "status": "proved",
   "theorems": [
    "Tmf.Props.C66_sine",
    "Tmf.Props.C66_written",
    "Tmf.Props.C66_read",
    "Tmf.Props.C66_decoded_unit",
    "Tmf.Props.C66_decoded_tangents",
    "Tmf.Props.C66_normals",
    "Tmf.Props.C66_tangents",
    "Tmf.Props.C66_file",
    "Tmf.Props.C66_file_tangents"
   ],
   "note": "The feature fast_trig, on a little-endian machine. C66_sine bounds the approximated sine and cosine. C66_written and C66_read compare files written and read with and without the feature. The remaining theorems state length and accuracy of decoded normals and tangents, alone and in whole files (widths 1 to 30; from 25 bits on only away from the axes, as in C38)."
  },
  {
   "property": "C67",
   "status": "proved",
   "theorems": [
    "Tmf.Props.C67_uvs",
    "Tmf.Props.C67_custom",
    "Tmf.Props.C67_vertices",
    "Tmf.Props.C67_across",
    "Tmf.Props.C67_saved_across",
    "Tmf.Props.C67_saved_across_custom"
   ],
   "note": "The feature double_precision. C67_uvs, C67_custom and C67_vertices: what comes back from a saved file (as in C37, the last vertex of a piece only if it is inside the box of the piece). C67_across: reading any bytes with and without the feature. C67_saved_across and C67_saved_across_custom: saved with the feature, loaded without. Normals in f64 are the subject of C81."
  },
  {
   "property": "C68",
   "status": "proved",
   "theorems": [
    "Tmf.Props.C68_nearest",
    "Tmf.Props.C68_infinite",
    "Tmf.Props.C68_only",
    "Tmf.Props.C68_special",
    "Tmf.Props.C68_vertex"
   ],
   "note": "Reading numbers is std's str::parse as modelled in Model/FloatText. Between the largest value and the power of two above it nothing is stated."
  },
  {
   "property": "C69",
   "status": "partial",
   "theorems": [
    "Tmf.Props.C69_default",
    "Tmf.Props.C69_cut",
    "Tmf.Props.C69_same",
    "Tmf.Props.C69_bytes",
    "Tmf.Props.C69_saved",
    "Tmf.Props.C69_saved_cut",
    "Tmf.Props.C69_long_array",
    "Tmf.Props.C69_verify",
    "Tmf.Props.C69_verify_violated",
    "Tmf.Props.C69_short_violated"
   ],
   "note": "False as stated in two places: a file needing more bits is accepted with upper bits lost (C69_short_violated, described exactly by C69_saved_cut), and verify with short_indices refuses valid meshes with exactly 2^16 vertices (C69_verify_violated). Everything else is proved; .obj text, reordering, pruning and unification with other index types are C73."
  },
  {
   "property": "C70",
   "status": "proved",
   "theorems": [
    "Tmf.Props.C70_failing_target",
    "Tmf.Props.C70_success",
    "Tmf.Props.C70_unlimited",
    "Tmf.Props.C70_refused"
   ],
   "note": "Model of BufWriter over a target with limited room; the way write! cuts text is arbitrary."
  },
  {
   "property": "C71",
   "status": "proved",
   "theorems": [
    "Tmf.Props.C71_chunk_independent",
    "Tmf.Props.C71_failing_reader",
    "Tmf.Props.C71_no_meshes"
   ],
   "note": "Model of BufReader over readers with any chunk sizes and failures."
  },
  {
   "property": "C72",
   "status": "partial",
   "theorems": [
    "Tmf.Props.C72_converted",
    "Tmf.Props.C72_accurate_partial",
    "Tmf.Props.C72_empty_violated"
   ],
   "note": "False as stated for files without vertices, which are read but panic when saved (C72_empty_violated). For storable scenes all three steps succeed in every build and all names, faces and corners come back; uv and normal of every corner are within the precision. Vertices are accurate except the last of each run where it is outside the box and, from 25 bits on, those at the top of the box, as in C65."
  },
  {
   "property": "C73",
   "status": "partial",
   "theorems": [
    "Tmf.Props.C73_default",
    "Tmf.Props.C73_reorder",
    "Tmf.Props.C73_prune",
    "Tmf.Props.C73_prune_same",
    "Tmf.Props.C73_prune_violated",
    "Tmf.Props.C73_unify",
    "Tmf.Props.C73_unify_same",
    "Tmf.Props.C73_unify_violated",
    "Tmf.Props.C73_import",
    "Tmf.Props.C73_import_same",
    "Tmf.Props.C73_faces",
    "Tmf.Props.C73_import_violated",
    "Tmf.Props.C73_import_short_violated",
    "Tmf.Props.C73_export",
    "Tmf.Props.C73_export_violated",
    "Tmf.Props.C73_export_zero_violated",
    "Tmf.Props.C73_streams_default",
    "Tmf.Props.C73_failing_target",
    "Tmf.Props.C73_success",
    "Tmf.Props.C73_unlimited",
    "Tmf.Props.C73_refused",
    "Tmf.Props.C73_target_same",
    "Tmf.Props.C73_chunk_independent",
    "Tmf.Props.C73_failing_reader",
    "Tmf.Props.C73_no_meshes",
    "Tmf.Props.C73_reader_same"
   ],
   "note": "The first half is proved up to edge cases at exactly 2^k elements, where pruning removes less (C73_prune_violated) and a checked export panics (C73_export_violated). The second half is false: unifying gives some corner other data for every mesh with too many different corners (C73_unify_violated), too large numbers in .obj faces are read as 1 (C73_import_violated, C73_import_short_violated), and export without overflow checks writes number 0 (C73_export_zero_violated). Readers and targets that deliver or take text in pieces or fail behave with every width as in C70 and C71."
  },
  {
   "property": "C74",
   "status": "proved",
   "theorems": [
    "Tmf.Props.C74_no_panic",
    "Tmf.Props.C74_report",
    "Tmf.Props.C74_loadable",
    "Tmf.Props.C74_size",
    "Tmf.Props.C74_saved"
   ],
   "note": "What is printed for a mesh is a value of the model; what was printed before a failure is not part of it."
  },
  {
   "property": "C75",
   "status": "partial",
   "theorems": [
    "Tmf.Props.C75_prepared",
    "Tmf.Props.C75_same",
    "Tmf.Props.C75_accurate_partial"
   ],
   "note": "Everything is proved for uv coordinates, normals, tangents and custom data. Vertices: the corners of the prepared mesh are the original ones, and the prepared vertices come back as in C65_accurate_partial; missing is the accuracy of the last vertex of each run where it is outside the box (false, see C37_violated) and, with 25 bits or more, of one at the top of the box (C37_top_violated)."
  },
  {
   "property": "C76",
   "status": "partial",
   "theorems": [
    "Tmf.Props.C76_quad",
    "Tmf.Props.C76_cover_partial",
    "Tmf.Props.C76_violated"
   ],
   "note": "False for faces of n corners where n divides 2^64 - 1, for instance all pentagons (C76_violated). Proved for triangles and quads, and for all faces from which the first corner left is only cut off when the number of corners left divides 2^64."
  },
  {
   "property": "C77",
   "status": "partial",
   "theorems": [
    "Tmf.Props.C77_settled",
    "Tmf.Props.C77_unify_again",
    "Tmf.Props.C77_stays_unified_partial",
    "Tmf.Props.C77_violated"
   ],
   "note": "Everything is proved except that a unified mesh stays unified when reordered: true without tangents (C77_stays_unified_partial), false with them (C77_violated)."
  },
  {
   "property": "C78",
   "status": "partial",
   "theorems": [
    "Tmf.Props.C78_read_partial",
    "Tmf.Props.C78_saved",
    "Tmf.Props.C78_violated"
   ],
   "note": "The part on saved meshes is proved (C78_saved). The part on segments of any origin needs widths of at least one bit (C78_read_partial); with widths of zero every vertex is NaN (C78_violated)."
  },
  {
   "property": "C79",
   "status": "proved",
   "theorems": [
    "Tmf.Props.C79_exported",
    "Tmf.Props.C79_reexported"
   ],
   "note": "Positions of vertices are those loaded, exactly; how near these are to the saved ones is C65 and C78."
  },
  {
   "property": "C80",
   "status": "proved",
   "theorems": [
    "Tmf.Props.C80_polygons"
   ],
   "note": "Words separated by single blanks and every corner with its three numbers, as in C57; a blank at the end of a face is allowed."
  },
  {
   "property": "C81",
   "status": "proved",
   "theorems": [
    "Tmf.Props.C81_normals",
    "Tmf.Props.C81_tangents",
    "Tmf.Props.C81_decoded_unit",
    "Tmf.Props.C81_decoded_tangents"
   ],
   "note": "Math libraries with sin, cos and asin within 2^-50 and asin not above the f64 number nearest to \u03c0/2 (AccurateLibm64; one is constructed for the examples). Normals whose z exceeds 1 by rounding are not covered."
  },
  {
   "property": "C82",
   "status": "proved",
   "theorems": [
    "Tmf.Props.C82_file",
    "Tmf.Props.C82_segment",
    "Tmf.Props.C82_angles",
    "Tmf.Props.C82_texture"
   ],
   "note": "The part of the shortest edge must be a positive finite number. log2 is assumed accurate and monotone (Spec/Log2, Spec/BitCount; one such library is constructed)."
  },
  {
   "property": "C83",
   "status": "proved",
   "theorems": [
    "Tmf.Props.C83_same",
    "Tmf.Props.C83_default",
    "Tmf.Props.C83_initialised",
    "Tmf.Props.C83_memory"
   ],
   "note": "Memory is a list of slots, each written to or not. Slots are written with `MaybeUninit::write` and never read before `set_len`. The other unsafe block of the crate (`fsin`) is modelled as the low 32 bits of a double (Model/FastTrig)."
  },
  {
   "property": "C84",
   "status": "proved",
   "theorems": [
    "Tmf.Props.C84_decode",
    "Tmf.Props.C84_merge",
    "Tmf.Props.C84_guards"
   ],
   "note": "Also shown: each guard does stop the program for other types, so the dispatch matters (decode_triangle_seg accepts shared segments in its first check and then panics)."
  },
  {
   "property": "C85",
   "status": "partial",
   "theorems": [
    "Tmf.Props.C85_violated",
    "Tmf.Props.C85_partial",
    "Tmf.Props.C85_linear_partial",
    "Tmf.Props.C85_stack"
   ],
   "note": "False as stated: arrays that jump between three ranges of indices are cut nine indices at a time, each cut inside the last, so the depth grows with the length (C85_violated). Proved: the depth is at most 1 + bits / 89, and the model's fuel is exactly the depth."
  },
  {
   "property": "C86",
   "status": "partial",
   "theorems": [
    "Tmf.Props.C86_tidy",
    "Tmf.Props.C86_again_partial",
    "Tmf.Props.C86_again_triangulation_partial",
    "Tmf.Props.C86_loose_violated",
    "Tmf.Props.C86_violated"
   ],
   "note": "False as stated: a last object without faces gathers the points of the other objects once more in every pass, so meshes and file grow without end (C86_violated, C86_loose_violated for any number of passes). Proved: files as in C57 whose last object has faces, without NaN and with few enough elements to be numbered once for every object, give exactly the same meshes again."
  },
  {
   "property": "C87",
   "status": "proved",
   "theorems": [
    "Tmf.Props.C87_told_apart",
    "Tmf.Props.C87_one_line"
   ],
   "note": "For single errors and for composites of single errors, which is all verify builds."
  },
  {
   "property": "C88",
   "status": "partial",
   "theorems": [
    "Tmf.Props.C88_violated",
    "Tmf.Props.C88_partial",
    "Tmf.Props.C88_linear_partial",
    "Tmf.Props.C88_stack"
   ],
   "note": "False as stated: where vertices far along x and far along y take turns, two vertices are cut off at a time, each cut inside the last, so the depth grows with the length (C88_violated). Proved: the depth is less than the number of vertices, and the model's fuel is exactly the depth."
  },
  {
   "property": "C89",
   "status": "partial",
   "theorems": [
    "Tmf.Props.C89_tris_violated",
    "Tmf.Props.C89_vertices_violated",
    "Tmf.Props.C89_tris_partial",
    "Tmf.Props.C89_vertices_partial"
   ],
   "note": "False as stated: the arrays of C85 and C88, from which a fixed number of elements is cut off at a time, need work that grows with the square of the length (C89_tris_violated, C89_vertices_violated). Proved: never more than the square."
  },
  {
   "property": "C90",
   "status": "partial",
   "theorems": [
    "Tmf.Props.C90_nan_violated",
    "Tmf.Props.C90_angle_violated",
    "Tmf.Props.C90_length_partial",
    "Tmf.Props.C90_length_accepted",
    "Tmf.Props.C90_kept_partial"
   ],
   "note": "False as stated: NaN passes the length test because every comparison with it is false (C90_nan_violated), and an allowed excess of length tilts normals near the pole by more than two degrees at any precision (C90_angle_violated); see also C38_wrap_violated. Proved: the length test in exact numbers in both directions, and how near accepted normals come back."
  },
  {
   "property": "C91",
   "status": "partial",
   "theorems": [
    "Tmf.Props.C91_bits",
    "Tmf.Props.C91_file_partial",
    "Tmf.Props.C91_normals_violated",
    "Tmf.Props.C91_edges_violated",
    "Tmf.Props.C91_correct_partial"
   ],
   "note": "False as stated for normals near the poles (C91_normals_violated) and for edges (C91_edges_violated). Proved end to end for every sensible list of meshes: the uv promise in full, the one-degree promise for z squared up to 2/3 and 7.5 degrees everywhere, vertices within 0.2001 times any edge where the computed box covers them. C91_correct_partial: the same for every library that rounds correctly."
  },
  {
   "property": "C92",
   "status": "partial",
   "theorems": [
    "Tmf.Props.C92_violated",
    "Tmf.Props.C92_partial"
   ],
   "note": "False as stated (C92_violated: nine cycles at the default precision turn a normal by more than 5 degrees, even with a correctly rounding libm). Proved for up to 24 bits: the height is fixed from the first loaded mesh on, and k further cycles move a normal by at most k steps of the angle, plus 1/256 each."
  },
  {
   "property": "C93",
   "status": "partial",
   "theorems": [
    "Tmf.Props.C93_violated",
    "Tmf.Props.C93_clouds_partial"
   ],
   "note": "False as stated (C93_violated: 64 cycles at the default settings move a point by more than 6/10). Proved for point clouds, with custom data of indices or integers: up to 2^19 cycles succeed, the result does not depend on the build or the delivery, names, index arrays, sizes and custom numbers stay, and cubes around the vertices grow by at most 2^-19 of their largest bound per cycle. Missing: meshes with faces, and custom fractions and colours."
  },
  {
   "property": "C94",
   "status": "partial",
   "theorems": [
    "Tmf.Props.C94_violated",
    "Tmf.Props.C94_partial"
   ],
   "note": "False as stated (C94_violated: a triangle with edges from 1 to 5.5, default settings, no build can save and load it a second time). Proved for precisions up to 0.101 and meshes of moderate size, with no custom data but indices and integers, in which the computed boxes reach all vertices; the first cycle leaves every edge at least an eighth of its length. Missing: custom fractions and colours."
  },
  {
   "property": "C95",
   "status": "proved",
   "theorems": [
    "Tmf.Props.C95_files",
    "Tmf.Props.C95_end",
    "Tmf.Props.C95_saved"
   ],
   "note": "Exact characterisation of repeated calls on one reader (C95_files), the end of the stream (C95_end), and written files (C95_saved, for all saveable meshes and settings)."
  },
  {
   "property": "C96",
   "status": "partial",
   "theorems": [
    "Tmf.Props.C96_colors_violated",
    "Tmf.Props.C96_white_violated",
    "Tmf.Props.C96_floats_violated",
    "Tmf.Props.C96_colors_partial",
    "Tmf.Props.C96_floats_partial"
   ],
   "note": "False as stated: negations C96_colors_violated, C96_white_violated, C96_floats_violated. C96_colors_partial and C96_floats_partial bound the loss of colours and the drift of floats while the number of bits stays at most 24. Missing: floats whose range is below 2^-20 of their size; meshes with further arrays."
  },
  {
   "property": "C97",
   "status": "partial",
   "theorems": [
    "Tmf.Props.C97_tmf",
    "Tmf.Props.C97_async",
    "Tmf.Props.C97_count",
    "Tmf.Props.C97_obj_partial",
    "Tmf.Props.C97_obj_stream",
    "Tmf.Props.C97_obj_violated"
   ],
   "note": "The .tmf half is proved in full (C97_tmf, C97_async, C97_count). The .obj half is false for several calls on one output (C97_obj_violated; C97_obj_stream describes exactly what comes back); for one mesh it holds under the conditions of C34 (C97_obj_partial)."
  },
  {
   "property": "C98",
   "status": "partial",
   "theorems": [
    "Tmf.Props.C98_exact",
    "Tmf.Props.C98_loaded_partial",
    "Tmf.Props.C98_bounded_partial",
    "Tmf.Props.C98_colors_violated",
    "Tmf.Props.C98_data_violated",
    "Tmf.Props.C98_normals_violated",
    "Tmf.Props.C98_empty_violated"
   ],
   "note": "Proved for files that load and whose elements take bits (factor 129), and with fixed bounds for everything but colours; otherwise false (four witnesses, up to 2^63 bytes asked by a file of 36 bytes)."
  },
  {
   "property": "C99",
   "status": "partial",
   "theorems": [
    "Tmf.Props.C99_segment_partial",
    "Tmf.Props.C99_file",
    "Tmf.Props.C99_width_violated",
    "Tmf.Props.C99_panic_violated"
   ],
   "note": "Proved for all array types at widths other than 32 and 64 and above (C99_segment_partial) and for whole files (C99_file, any width); false at width 32 and, in checked builds, for minima close to 2^64 (two witnesses)."
  }
 ]
}
