{"claims": [
{"property": "C01", "status": "proved", "theorems": ["Verif.Rib.C01_input_transparent", "Verif.Rib.C01_read_all"], "note": "All clients obeying the one-character put-back rule, all streams, read schedules and initial buffer contents."},
{"property": "C02", "status": "partial", "theorems": ["Verif.Rib.C02_positions_partial", "Verif.Rib.C02_line_numbers_violated"], "note": "False in general: a CRLF whose LF is at byte index 254+255k is counted twice (or not at all). Proved outside that exact condition; negation proved with a witness."},
{"property": "C03", "status": "proved", "theorems": ["Verif.Rib.C03_binary_int"], "note": "Every 32-bit integer, every following byte sequence."},
{"property": "C04", "status": "proved", "theorems": ["Verif.Rib.C04_binary_float", "Verif.Rib.C04_binary_string", "Verif.Rib.C04_binary_float_array"], "note": "Float bit patterns, strings and float arrays below 2^31 elements."},
{"property": "C05", "status": "proved", "theorems": ["Verif.Rib.C05_binary_stream", "Verif.Rib.C05_binary_stream_255"], "note": "Any sequence of requests (at most 255 distinct names) and comments, all argument kinds."},
{"property": "C06", "status": "partial", "theorems": ["Verif.Rib.C06_ascii_string_partial", "Verif.Rib.C06_ascii_string_violated", "Verif.Rib.C06_escapes_partial", "Verif.Rib.C06_octal_violated"], "note": "False in general: the reader undoes none of the escapes the writer produces. Exact extent (iff) proved, negation proved with a witness. The written text unescapes to the original except where a short octal escape is followed by an octal digit (witness)."},
{"property": "C07", "status": "partial", "theorems": ["Verif.Rib.C07_ascii_int_partial", "Verif.Rib.C07_int_min_violated", "Verif.Rib.C07_ascii_text"], "note": "All 32-bit integers except -2^31, which overflows the accumulator (undefined behaviour)."},
{"property": "C08", "status": "partial", "theorems": ["Verif.Rib.C08_decimal_literal_partial", "Verif.Rib.C08_value_exact", "Verif.Rib.C08_small_integer_valued_exact", "Verif.Rib.C08_long_literal_violated", "Verif.Rib.C08_nonliteral_violated"], "note": "Form and exact-arithmetic value proved for all literals whose integer part and exponent fit an int; float rounding is a parameter. Long literals are UB; some non-literals are accepted or swallow a character."},
{"property": "C09", "status": "proved", "theorems": ["Verif.Rib.C09_scan_terminates", "Verif.Rib.C09_reaches_eof"], "note": "Any state, any input. Byte 255 inside the stream is an end-of-file token by convention; staying at end of file holds once the bytes are exhausted."},
{"property": "C10", "status": "proved", "theorems": ["Verif.Rib.C10_requests_independent", "Verif.Rib.C10_only_calls_and_errors", "Verif.Rib.C10_bad_request_one_error", "Verif.Rib.C10_bad_request_skipped"], "note": "For every handler table; token level, one stream; tokens without integer overflow (undefined behaviour in the tokenizer)."},
{"property": "C100", "status": "partial", "theorems": ["Verif.Core.Camera.C100_requests", "Verif.Core.Camera.C100_pixels", "Verif.Core.Camera.C100_frame_partial", "Verif.Core.Camera.C100_frame_violated", "Verif.Core.Camera.C100_image", "Verif.Core.Camera.C100_raster", "Verif.Core.Camera.C100_depth_partial", "Verif.Core.Camera.C100_depth_violated", "Verif.Core.Camera.C100_vectors", "Verif.Core.Camera.C100_dof"], "note": "Partial: a ratio of the frame near that of the raster makes a frame larger than the raster, and the near plane of clipping has different depths in the two projections; the negations are proved. Exact numbers instead of floats, the tangent of the field of view is a parameter."},
{"property": "C101", "status": "partial", "theorems": ["Verif.Shader.Arith.C101_steps", "Verif.Shader.Arith.C101_clamp", "Verif.Shader.Arith.C101_filterstep_partial", "Verif.Shader.Arith.C101_filterstep_violated", "Verif.Shader.Arith.C101_mod_partial", "Verif.Shader.Arith.C101_mod_violated", "Verif.Shader.Arith.C101_round", "Verif.Shader.Arith.C101_minmax", "Verif.Shader.Arith.C101_domain_partial", "Verif.Shader.Arith.C101_domain_violated", "Verif.Shader.Arith.C101_faceforward", "Verif.Shader.Arith.C101_faceforward_partial", "Verif.Shader.Arith.C101_faceforward_violated", "Verif.Shader.Arith.C101_normalize"], "note": "Partial: mod by negative numbers, filterstep between two values, log to the base one, powers of zero to negative numbers, powers of negative numbers to whole numbers beyond 2^31 and faceforward(N, I) for vectors behind the surface; the negations are proved. Exact numbers instead of floats."},
{"property": "C102", "status": "partial", "theorems": ["Verif.Shader.Optics.C102_reflect", "Verif.Shader.Optics.C102_refract", "Verif.Shader.Optics.C102_fresnel", "Verif.Shader.Optics.C102_fresnel_straight", "Verif.Shader.Optics.C102_fresnel_violated", "Verif.Shader.Optics.C102_depth", "Verif.Shader.Optics.C102_highlight"], "note": "Partial: the factors of fresnel are above one if the normal points away from the eye, and a division by zero for a vector in the surface between equal media; the negations are proved. Exact numbers instead of floats."},
{"property": "C103", "status": "partial", "theorems": ["Verif.Shader.Lights.C103_visits", "Verif.Shader.Lights.C103_ambient", "Verif.Shader.Lights.C103_illuminance_partial", "Verif.Shader.Lights.C103_everywhere", "Verif.Shader.Lights.C103_axis_violated", "Verif.Shader.Lights.C103_diffuse_partial", "Verif.Shader.Lights.C103_specular_partial", "Verif.Shader.Lights.C103_phong", "Verif.Shader.Lights.C103_off", "Verif.Shader.Lights.C103_diffuse_violated", "Verif.Shader.Lights.C103_specular_violated", "Verif.Shader.Lights.C103_categories_partial", "Verif.Shader.Lights.C103_categories_violated", "Verif.Shader.Lights.C103_uncategorised", "Verif.Shader.Lights.C103_exclusion_violated", "Verif.Shader.Lights.C103_illuminate_partial", "Verif.Shader.Lights.C103_pointlight", "Verif.Shader.Lights.C103_solar", "Verif.Shader.Lights.C103_first", "Verif.Shader.Lights.C103_calculatenormal"], "note": "Partial: a light without __nondiffuse (__nonspecular) is left out after one that sets it; names between others are not found among categories and a category to be left out leaves out all lights with categories; axes are not made one unit long. The negations are proved. What light shaders store is given; exact numbers instead of floats."},
{"property": "C104", "status": "partial", "theorems": ["Verif.Point.C104_coords_direction", "Verif.Point.C104_direction_coords", "Verif.Point.C104_face", "Verif.Point.C104_neighbours", "Verif.Point.C104_slots", "Verif.Point.C104_pixelSize", "Verif.Point.C104_cone", "Verif.Point.C104_cone_point", "Verif.Point.C104_quadratic", "Verif.Point.C104_disk_partial", "Verif.Point.C104_disk_violated", "Verif.Point.C104_faces_violated", "Verif.Point.C104_coverage_partial", "Verif.Point.C104_coverage_violated", "Verif.Point.C104_occlusion", "Verif.Point.C104_occlusion_bounds"], "note": "Partial: the loop over the faces in renderDiskExact is empty, so that no disk is drawn that way; the code for a face is right except for disks behind the face and turned to it, which are culled although they can reach in front; a square that ends less than a pixel before a face takes away from the first pixels. The negations are proved. Exact numbers instead of floats; how squares are found from disks and the walk through the octree are not modelled."},
{"property": "C105", "status": "partial", "theorems": ["Verif.Shader.Layers.C105_map", "Verif.Shader.Layers.C105_layers", "Verif.Shader.Layers.C105_uses_violated", "Verif.Shader.Layers.C105_usesVar_violated", "Verif.Shader.Layers.C105_order", "Verif.Shader.Layers.C105_connection", "Verif.Shader.Layers.C105_flow", "Verif.Shader.Layers.C105_findArgument", "Verif.Shader.Layers.C105_setArgument", "Verif.Shader.Layers.C105_clone_violated"], "note": "Partial: a copy has no layers, every variable counts as used from the start, and asking for one variable calls itself without end; the negations are proved. What layers do and the copying of values between types are given."},
{"property": "C106", "status": "partial", "theorems": ["Verif.Shader.Text.C106_sprintf", "Verif.Shader.Text.C106_missing", "Verif.Shader.Text.C106_pieces", "Verif.Shader.Text.C106_end_violated", "Verif.Shader.Text.C106_printf", "Verif.Shader.Text.C106_format", "Verif.Shader.Text.C106_concat", "Verif.Shader.Text.C106_match_partial", "Verif.Shader.Text.C106_match_violated"], "note": "Partial: a % at the end adds the character 0; match with uniform pattern and text sets a varying result at all points. The negations are proved. How values are printed and regular expressions are given; arguments have the types the format asks for."},
{"property": "C107", "status": "partial", "theorems": ["Verif.Shader.Deriv.C107_centred", "Verif.Shader.Deriv.C107_onesided_partial", "Verif.Shader.Deriv.C107_half_violated", "Verif.Shader.Deriv.C107_single_violated", "Verif.Shader.Deriv.C107_none", "Verif.Shader.Deriv.C107_indices", "Verif.Shader.Deriv.C107_Du", "Verif.Shader.Deriv.C107_Dv", "Verif.Shader.Deriv.C107_undefined", "Verif.Shader.Deriv.C107_deriv", "Verif.Shader.Deriv.C107_area"], "note": "Partial: one-sided differences (constant shading or two points) are half of what they should be, and on a grid with one point along a side a value outside is read; the negations are proved. Exact numbers instead of floats; vectors by coordinates."},
{"property": "C108", "status": "proved", "theorems": ["Verif.Point.Octree.C108_points", "Verif.Point.Octree.C108_boxes", "Verif.Point.Octree.C108_split", "Verif.Point.Octree.C108_build", "Verif.Point.Octree.C108_sphere", "Verif.Point.Octree.C108_agg", "Verif.Point.Octree.C108_normal"], "note": "Exact numbers instead of floats. The crude values are stated for positive radii, as the sums are divided by the area."},
{"property": "C109", "status": "partial", "theorems": ["Verif.Point.Walk.C109_stack", "Verif.Point.Walk.C109_shown", "Verif.Point.Walk.C109_crude", "Verif.Point.Walk.C109_fine", "Verif.Point.Walk.C109_leaf", "Verif.Point.Walk.C109_node", "Verif.Point.Walk.C109_deep_violated"], "note": "Partial: a leaf at the greatest depth may have more than eight points, and then the assertion fails (without it an array is overrun); the negation is proved. Exact numbers instead of floats; children at the same distance are sorted by index instead of by address."},
{"property": "C11", "status": "partial", "theorems": ["Verif.Rib.C11_nested_restores_partial", "Verif.Rib.C11_ascii_nested_transparent", "Verif.Rib.C11_binary_tables_violated", "Verif.Rib.C11_array_counter_violated", "Verif.Rib.C11_lookahead", "Verif.Rib.C11_token_position"], "note": "Complete for ASCII nested streams; violated for binary ones because request/string codes and the array counter are shared between streams."},
{"property": "C110", "status": "partial", "theorems": ["Verif.Core.PixelFilters.C110_even", "Verif.Core.PixelFilters.C110_alike", "Verif.Core.PixelFilters.C110_gaussian", "Verif.Core.PixelFilters.C110_box", "Verif.Core.PixelFilters.C110_triangle", "Verif.Core.PixelFilters.C110_disk", "Verif.Core.PixelFilters.C110_catmull", "Verif.Core.PixelFilters.C110_mitchell_partial", "Verif.Core.PixelFilters.C110_mitchell_violated", "Verif.Core.PixelFilters.C110_sinc", "Verif.Core.PixelFilters.C110_sinc_violated", "Verif.Core.PixelFilters.C110_bessel"], "note": "Partial: the window of the filter of Mitchell has only the middle part of the cubic, and the cosine window of the sinc filter is not zero at the edge; the negations are proved. Exact numbers instead of floats; the function j1 is given."},
{"property": "C111", "status": "partial", "theorems": ["Verif.Point.Radiosity.C111_pixel_partial", "Verif.Point.Radiosity.C111_between", "Verif.Point.Radiosity.C111_hidden", "Verif.Point.Radiosity.C111_negative_violated", "Verif.Point.Radiosity.C111_mean", "Verif.Point.Radiosity.C111_bounds", "Verif.Point.Radiosity.C111_none"], "note": "Partial: samples with negative coverage, which squares at the edge of a face have (C104), take light away; the negation is proved. Exact numbers instead of floats."},
{"property": "C112", "status": "partial", "theorems": ["Verif.Tools.Bmp.C112_align", "Verif.Tools.Bmp.C112_places", "Verif.Tools.Bmp.C112_row", "Verif.Tools.Bmp.C112_picture_partial", "Verif.Tools.Bmp.C112_last_violated", "Verif.Tools.Bmp.C112_two_violated", "Verif.Tools.Bmp.C112_length_violated", "Verif.Tools.Bmp.C112_buffer", "Verif.Tools.Bmp.C112_header_violated", "Verif.Tools.Bmp.C112_refused"], "note": "Partial: the colours are right if red, green and blue are the last channels or there is one channel; with a depth after them, with two channels, for widths that are not multiples of four and where a long has eight bytes the negations are proved. Little-endian machine, no overflow."},
{"property": "C12", "status": "proved", "theorems": ["Verif.Rib.C12_int_array", "Verif.Rib.C12_string_array", "Verif.Rib.C12_float_brackets_optional", "Verif.Rib.C12_float_wrong_length", "Verif.Rib.C12_single_param", "Verif.Rib.C12_param_list"], "note": "Arrays of 2^31 elements or more are out of scope."},
{"property": "C13", "status": "partial", "theorems": ["Verif.Riutil.C13_grammar_partial", "Verif.Riutil.C13_type_grammar", "Verif.Riutil.C13_round_trip", "Verif.Riutil.C13_unprintable_violated", "Verif.Riutil.C13_malformed_violated"], "note": "Declarations built from the documented grammar parse to the right token and print back. Fails for types without a printable name (mpoint, pointer) and malformed array sizes / stray brackets are accepted: both proved by witness."},
{"property": "C14", "status": "proved", "theorems": ["Verif.Riutil.C14_lookup", "Verif.Riutil.C14_other_names"], "note": ""},
{"property": "C15", "status": "partial", "theorems": ["Verif.Filter.C15_conditionals_partial", "Verif.Filter.C15_nested_violated", "Verif.Filter.C15_skipped_clause_keeps_state", "Verif.Filter.C15_stray_else_violated"], "note": "Exactly one branch for constructs whose executed clauses contain no nested conditional (nested ones inside skipped clauses are covered). Nested conditionals in executed clauses violate the property: the found flag is not restored. Else/ElseIf outside If read an empty stack."},
{"property": "C16", "status": "partial", "theorems": ["Verif.Filter.C16_filter_meets_spec_partial", "Verif.Filter.C16_archive_replays", "Verif.Filter.C16_comments_dropped", "Verif.Filter.C16_self_read_violated", "Verif.Filter.C16_redefine_while_read_violated"], "note": "Replay proved against an environment semantics for well-formed streams. Self-reading archives do not terminate, redefining an archive while it is being read is use after free, and comments recorded in an archive are dropped."},
{"property": "C17", "status": "partial", "theorems": ["Verif.Filter.C17_object_replays", "Verif.Filter.C17_unknown_object", "Verif.Filter.C17_nested_object_violated", "Verif.Filter.C17_stray_archive_end_violated"], "note": "Replay for objects without nested object definitions; nested definitions end the outer recording at the inner ObjectEnd."},
{"property": "C18", "status": "proved", "theorems": ["Verif.Filter.Frames.C18_selected_frames", "Verif.Filter.Frames.C18_any_stream"], "note": "Whole filter, every request stream, including streams with unbalanced frames."},
{"property": "C19", "status": "partial", "theorems": ["Verif.Filter.Frames.C19_terminates", "Verif.Filter.Frames.C19_list_denotes", "Verif.Filter.Frames.C19_rejects_bad_characters_partial", "Verif.Filter.Frames.C19_malformed_violated", "Verif.Filter.Frames.C19_overflow_violated", "Verif.Filter.Frames.C19_range_end_violated", "Verif.Filter.Frames.C19_grammar_partial"], "note": "Every well-formed list selects the union of its ranges. Some malformed lists are accepted, numbers beyond int wrap, and a range ending at INT_MAX overflows the loop counter. Exact grammar of what is accepted proved."},
{"property": "C20", "status": "proved", "theorems": ["Verif.Filter.Frames.C20_tee_same", "Verif.Filter.Frames.C20_tee_in_step"], "note": "Whole tee filter."},
{"property": "C21", "status": "partial", "theorems": ["Verif.Filter.Validate.C21_accepts_iff_partial", "Verif.Filter.Validate.C21_open_blocks_partial", "Verif.Filter.Validate.C21_rejected_unchanged", "Verif.Filter.Validate.C21_relaxed_outer", "Verif.Filter.Validate.C21_block_restores_attributes_partial", "Verif.Filter.Validate.C21_stray_archive_end_violated", "Verif.Filter.Validate.C21_geometry_outside_world_violated", "Verif.Filter.Validate.C21_archive_attributes_violated", "Verif.Filter.Validate.C21_stacks_never_empty"], "note": "Accepted streams are exactly the well-nested ones provided ArchiveEnd only occurs in archives; ArchiveEnd is not checked. Archives corrupt the attribute stack; transform and motion blocks outside the world admit geometry."},
{"property": "C22", "status": "proved", "theorems": ["Verif.Filter.Cache.C22_param_list", "Verif.Filter.Cache.C22_string_array", "Verif.Filter.Cache.C22_string_buffer_reuse"], "note": "Parameter lists, string arrays and the string buffer; memory is modelled explicitly, so that later writes by the caller cannot matter."},
{"property": "C23", "status": "partial", "theorems": ["Verif.Util.Enum.C23_value_from_string", "Verif.Util.Enum.C23_round_trip", "Verif.Util.Enum.C23_tables_distinct", "Verif.Util.Enum.C23_stream_round_trip", "Verif.Util.Enum.C23_channel_names_violated"], "note": "Name/value round trip holds for every enum table; the names registered for EqChannelType are listed in a different order than the constants, so Channel_Float32 is called uint32 (proved by witness)."},
{"property": "C24", "status": "partial", "theorems": ["Verif.Util.Bits.C24_set_value", "Verif.Util.Bits.C24_toggle", "Verif.Util.Bits.C24_set_all", "Verif.Util.Bits.C24_complement", "Verif.Util.Bits.C24_pointwise_partial", "Verif.Util.Bits.C24_assign", "Verif.Util.Bits.C24_count", "Verif.Util.Bits.C24_sizes_violated", "Verif.Util.Bits.C24_union_violated", "Verif.Util.Bits.C24_empty_violated", "Verif.Util.Bits.C24_count_violated", "Verif.Util.Bits.C24_bytes", "Verif.Util.Bits.C24_new"], "note": "Pointwise set semantics for operands of equal size; operations on different sizes lose bits, the empty vector writes out of bounds and Count sees unspecified padding bits (proved by witness)."},
{"property": "C25", "status": "partial", "theorems": ["Verif.Util.SearchPath.C25_expand", "Verif.Util.SearchPath.C25_terminates_iff", "Verif.Util.SearchPath.C25_terminates_violated"], "note": "Substitution proved for every text; the loop ends exactly when the number of percent signs is even, so an unmatched % loops for ever (witness)."},
{"property": "C26", "status": "partial", "theorems": ["Verif.Util.IList.C26_link_after_partial", "Verif.Util.IList.C26_link_before_partial", "Verif.Util.IList.C26_unlink", "Verif.Util.IList.C26_step", "Verif.Util.IList.C26_history", "Verif.Util.IList.C26_read_forward", "Verif.Util.IList.C26_read_backward", "Verif.Util.IList.C26_chain_violated", "Verif.Util.IList.C26_violated"], "note": "All histories on single entries; inserting a chain of several entries in the middle of a list gives a wrong backward link (proved for every such case and by witness)."},
{"property": "C27", "status": "partial", "theorems": ["Verif.Util.Pool.C27_history", "Verif.Util.Pool.C27_alloc", "Verif.Util.Pool.C27_default", "Verif.Util.Pool.C27_aligned", "Verif.Util.Pool.C27_large_violated", "Verif.Util.Pool.C27_aligned_violated", "Verif.Util.Pool.C27_link_violated", "Verif.Util.Pool.C27_no_leak"], "note": "Disjointness and containment for every history when an element fits a chunk; alignment only up to 8 bytes; larger elements are undefined and 16-byte alignment is not met (witnesses)."},
{"property": "C28", "status": "proved", "theorems": ["Verif.Core.Occlusion.C28_cull", "Verif.Core.Occlusion.canCull_iff"], "note": "For every region, sample count, depth history and bound. canCull_iff is over any linear order with a midpoint lying between (so also for rounded coordinates); C28_cull places the cells in exact rational arithmetic and takes lceil(log2 n) to be at least the true logarithm."},
{"property": "C29", "status": "proved", "theorems": ["Verif.Core.Occlusion.C29_distinct", "Verif.Core.Occlusion.C29_place", "Verif.Core.Occlusion.leafBox_cell"], "note": "Every grid size and split order, exact rational coordinates; lceil(log2 n) taken to be at least the true logarithm."},
{"property": "C30", "status": "partial", "theorems": ["Verif.Core.Csg.C30_partial", "Verif.Core.Csg.C30_violated", "Verif.Core.Csg.C30_empty_violated"], "note": "Every tree and hit list when the ray starts outside every primitive; starting inside is never detected (witness); an empty difference reads out of bounds."},
{"property": "C31", "status": "partial", "theorems": ["Verif.Core.Scheduler.C31_account", "Verif.Core.Scheduler.C31_few_partial", "Verif.Core.Scheduler.C31_completes_partial", "Verif.Core.Scheduler.C31_terminates", "Verif.Core.Scheduler.C31_stuck", "Verif.Core.Scheduler.C31_bound_violated", "Verif.Core.Scheduler.C31_wakeup_violated"], "note": "Holds when no more units than threads are submitted (as the renderer does); for more units both the bound and the wake-up fail in some interleaving, for every limit. The data race on the counter and spurious wake-ups are not modelled."},
{"property": "C32", "status": "partial", "theorems": ["Verif.Core.ChannelBuffer.C32_history_partial", "Verif.Core.ChannelBuffer.C32_zero_partial", "Verif.Core.ChannelBuffer.C32_zero_violated", "Verif.Core.ChannelBuffer.C32_shrink_violated", "Verif.Core.ChannelBuffer.C32_unknown_violated", "Verif.Core.ChannelBuffer.C32_access", "Verif.Core.ChannelBuffer.C32_again_partial", "Verif.Core.ChannelBuffer.C32_again_violated"], "note": "Frame property for every set of channels and history after clear/add/allocate; memory is only cleared to a quarter and reallocation overflows when shrinking (proved). Reallocation keeps only a quarter of the values."},
{"property": "C33", "status": "proved", "theorems": ["Verif.Tex.Tile.C33_visit"], "note": "Every image size, positive tile size and region. Coordinates are mathematical integers (no 32-bit wrap)."},
{"property": "C34", "status": "partial", "theorems": ["Verif.Tex.C34_intersect1", "Verif.Tex.C34_intersect", "Verif.Tex.C34_truncate", "Verif.Tex.C34_empty1", "Verif.Tex.C34_empty", "Verif.Tex.C34_inRange1_partial", "Verif.Tex.C34_inRange_partial", "Verif.Tex.C34_intersectsRange1_partial", "Verif.Tex.C34_intersectsRange_partial", "Verif.Tex.C34_area_partial", "Verif.Tex.C34_inRange_violated", "Verif.Tex.C34_intersectsRange_violated", "Verif.Tex.C34_area_violated"], "note": "Intersection, truncation and emptiness hold for all bounds; containment, overlap and area are exact for nonempty regions and wrong for some empty ones (witnesses proved)."},
{"property": "C35", "status": "partial", "theorems": ["Verif.Tex.Mipmap.C35_written_ends", "Verif.Tex.Mipmap.C35_reader_partial", "Verif.Tex.Mipmap.C35_reader_violated", "Verif.Tex.Mipmap.C35_transform", "Verif.Tex.Mipmap.C35_conversion"], "note": "The chain always ends at 1x1; sizes agree with the reader up to 2^24 pixels; a 2^24+1 wide image is written with sizes the reader rejects (float rounding)."},
{"property": "C36", "status": "proved", "theorems": ["Verif.Tex.Magic.C36_guess", "Verif.Tex.Magic.C36_exclusive", "Verif.Tex.Magic.C36_prefix"], "note": "Every byte string."},
{"property": "C37", "status": "partial", "theorems": ["Verif.Riutil.Counts.C37_bilinear", "Verif.Riutil.Counts.C37_bicubic_partial", "Verif.Riutil.Counts.C37_unknown", "Verif.Riutil.Counts.C37_cubic_partial", "Verif.Riutil.Counts.C37_linear", "Verif.Riutil.Counts.C37_bicubic_violated", "Verif.Riutil.Counts.C37_negative_violated", "Verif.Riutil.Counts.C37_overflow_violated", "Verif.Riutil.Counts.C37_cubic_violated", "Verif.Riutil.Counts.C37_unknown_curves"], "note": "Every mesh and curve list whose sizes fit an int and with at least 4 points in open cubic directions; fewer points give wrong or negative counts (witnesses)."},
{"property": "C38", "status": "partial", "theorems": ["Verif.Util.SearchPath.C38_paths", "Verif.Util.SearchPath.C38_candidates", "Verif.Util.SearchPath.C38_find_partial", "Verif.Util.SearchPath.C38_not_found_partial", "Verif.Util.SearchPath.C38_error_violated"], "note": "First existing candidate returned when every candidate can be examined; an unreadable directory raises an exception that is not caught (std:: handler for a boost:: exception) and hides later directories (witness). Posix branches only."},
{"property": "C39", "status": "proved", "theorems": ["Verif.Rib.C39_ascii_stream"], "note": "Float texts are a parameter (any text that reads as one token); strings come back in escaped form, see C06."},
{"property": "C40", "status": "partial", "theorems": ["Verif.Tex.Wrap.C40_sound", "Verif.Tex.Wrap.C40_complete_partial", "Verif.Tex.Wrap.ok_of_tiles", "Verif.Tex.Wrap.C40_mixed_violated", "Verif.Tex.Wrap.C40_trunc_violated"], "note": "Soundness for all modes but trunc; completeness unless clamp is combined with periodic (corner points are lost, witness); trunc behaves as periodic (witness). Exact floor instead of the float quotient."},
{"property": "C41", "status": "partial", "theorems": ["Verif.Tex.Accum.C41_accum", "Verif.Tex.Accum.C41_constant", "Verif.Tex.Accum.C41_between", "Verif.Tex.Accum.C41_pcf_unit", "Verif.Tex.Accum.C41_pcf_mono", "Verif.Tex.Accum.C41_cached_partial", "Verif.Tex.Accum.C41_cached_bound", "Verif.Tex.Accum.C41_cached_violated", "Verif.Tex.Accum.C41_cached_zero_violated", "Verif.Tex.Accum.C41_pcf_value"], "note": "Exact rational arithmetic. Accumulators hold in general; cached kernels drop weights below 1e-5 without rescaling (sum below 1, witness) and divide by zero when weights cancel."},
{"property": "C42", "status": "partial", "theorems": ["Verif.Core.Mesh.C42_bicubic_partial", "Verif.Core.Mesh.C42_bilinear_partial", "Verif.Core.Mesh.C42_bicubic_violated", "Verif.Core.Mesh.C42_bilinear_violated"], "note": "Control points and corners for every mesh (at least 4 points in open cubic directions); uniform values are those of the first row (witness)."},
{"property": "C43", "status": "partial", "theorems": ["Verif.Core.Mesh.C43_cubic_partial", "Verif.Core.Mesh.C43_cubic_count", "Verif.Core.Mesh.C43_linear_partial", "Verif.Core.Mesh.C43_linear_count", "Verif.Core.Mesh.C43_cubic_violated", "Verif.Core.Mesh.C43_negative_violated", "Verif.Core.Mesh.C43_linear_violated", "Verif.Core.Mesh.cubicCount_spec", "Verif.Core.Mesh.linearCount_spec"], "note": "Every group of proper curves (cubic open: at least 4 points, linear: at least 1); shorter open curves are split wrongly and shift the following ones (witnesses)."},
{"property": "C44", "status": "partial", "theorems": ["Verif.Tex.Accum.C44_size", "Verif.Tex.Accum.C44_centre", "Verif.Tex.Accum.C44_pixel_partial", "Verif.Tex.Accum.C44_constant_partial", "Verif.Tex.Accum.C44_mixed_violated"], "note": "Exact rational arithmetic; fails where C40 fails (clamp combined with periodic: a white image becomes grey, witness)."},
{"property": "C45", "status": "partial", "theorems": ["Verif.Core.Buckets.C45_tiles", "Verif.Core.Buckets.C45_region_partial", "Verif.Core.Buckets.C45_order_partial", "Verif.Core.Buckets.C45_crop", "Verif.Core.Buckets.C45_empty_crop_violated"], "note": "Region and order need a crop window with a pixel in it; an accepted crop window without one makes the first bucket read out of range."},
{"property": "C46", "status": "partial", "theorems": ["Verif.Core.Buckets.C46_visits_partial", "Verif.Core.Buckets.C46_repost_forward", "Verif.Core.Buckets.C46_cull", "Verif.Core.Buckets.C46_undiceable_violated"], "note": "Surfaces that cross the plane of the eye are put into the first bucket instead of the current one and are dropped when that is processed; the theorem covers the others."},
{"property": "C47", "status": "partial", "theorems": ["Verif.Core.Buckets.C47_samples", "Verif.Core.Buckets.C47_once", "Verif.Core.Buckets.C47_exact_partial"], "note": "The exact set of buckets is proved for bounds not entirely left of or above the image; that no sample is missed is proved without this restriction."},
{"property": "C48", "status": "partial", "theorems": ["Verif.Core.BucketCache.C48_completes_partial", "Verif.Core.BucketCache.C48_filter_partial", "Verif.Core.BucketCache.C48_once_partial", "Verif.Core.BucketCache.C48_wide_filter_violated"], "note": "Needs bucket sizes of at least twice the whole pixels of half the filter width; with smaller buckets a vector of negative size is asked for."},
{"property": "C49", "status": "proved", "theorems": ["Verif.Rib.C49_integers", "Verif.Rib.C49_fixed_point", "Verif.Rib.C49_floats"], "note": "Bit patterns and exact rationals; the rounding of the final conversion to float is not modelled."},
{"property": "C50", "status": "proved", "theorems": ["Verif.Shader.Simd.C50_agrees", "Verif.Shader.Simd.C50_diverges", "Verif.Shader.Simd.C50_compiles", "Verif.Shader.Simd.C50_continue_zero"], "note": "Model and specification share no code: the specification executes the source statement at one point. Not modelled: uniform storage class, expressions with side effects, function calls, illuminance/illuminate/solar/gather constructs."},
{"property": "C51", "status": "partial", "theorems": ["Verif.Core.Samples.C51_valid", "Verif.Core.Samples.C51_colour_partial", "Verif.Core.Samples.C51_opacity_partial", "Verif.Core.Samples.C51_order_partial", "Verif.Core.Samples.C51_min_depth", "Verif.Core.Samples.C51_max_depth", "Verif.Core.Samples.C51_average_depth_partial", "Verif.Core.Samples.C51_extra_partial", "Verif.Core.Samples.C51_midpoint_partial", "Verif.Core.Samples.C51_matte_opacity_violated", "Verif.Core.Samples.C51_matte_alpha_violated", "Verif.Core.Samples.C51_midpoint_violated", "Verif.Core.Samples.C51_extra_violated", "Verif.Core.Samples.C51_average_violated"], "note": "Exact rational arithmetic; no two hits at the same depth; opaque hits have opacity 1. Colour holds without MatteAlpha objects, opacity only without matte objects, midpoint only if exactly the opaque surfaces reach the threshold, average only if some hit does, output variables only if every surface has them; each exception is refuted with a witness."},
{"property": "C52", "status": "partial", "theorems": ["Verif.Core.FilterBucket.C52_total", "Verif.Core.FilterBucket.C52_mean_partial", "Verif.Core.FilterBucket.C52_blank", "Verif.Core.FilterBucket.C52_constant", "Verif.Core.FilterBucket.C52_range", "Verif.Core.FilterBucket.C52_alpha_partial", "Verif.Core.FilterBucket.C52_coverage_partial", "Verif.Core.FilterBucket.C52_expose", "Verif.Core.FilterBucket.C52_alpha_violated", "Verif.Core.FilterBucket.C52_depth_violated", "Verif.Core.FilterBucket.C52_coverage_violated", "Verif.Core.FilterBucket.C52_reach_violated"], "note": "Exact arithmetic. The mean is over the whole filter area only for widths with floor(w/2) = floor(ceil(w)/2); alpha, coverage and depth are right only where all samples are hit (coverage: filter no wider than a pixel); each exception is refuted with a witness. That the places hold the right samples is C48. The disabled separable branch and imager shaders are left out."},
{"property": "C53", "status": "partial", "theorems": ["Verif.Core.HitTest.C53_order", "Verif.Core.HitTest.C53_patch_left", "Verif.Core.HitTest.C53_patch_right", "Verif.Core.HitTest.C53_hull", "Verif.Core.HitTest.C53_triangle_partial", "Verif.Core.HitTest.C53_grid_partial", "Verif.Core.HitTest.C53_grid_right_partial", "Verif.Core.HitTest.C53_neighbours", "Verif.Core.HitTest.C53_neighbours_above", "Verif.Core.HitTest.C53_shared_edge", "Verif.Core.HitTest.C53_lattice", "Verif.Core.HitTest.C53_bound", "Verif.Core.HitTest.C53_render_sound", "Verif.Core.HitTest.C53_render_partial", "Verif.Core.HitTest.C53_uv", "Verif.Core.HitTest.C53_uv_total_partial", "Verif.Core.HitTest.C53_render_violated", "Verif.Core.HitTest.C53_uv_violated", "Verif.Core.HitTest.C53_depth_violated", "Verif.Core.HitTest.C53_triangle_violated", "Verif.Core.HitTest.C53_seam_violated"], "note": "Proved: independence of the last failed edge, exactly which points of convex micropolygons are hit, exactly one hit per surface point in grids of one orientation and per plane point in lattices, hits lie in the bound, samples visited once and in range, exact parameters for parallelograms, no division by zero without short sides. False, with witnesses: samples on the lower boundary of their subpixel can be missed; edges of micropolygons with a short side and seams between grids lose or double points; depth of general quadrilaterals overshoots; near-degenerate ones divide by zero. Not modelled: motion, depth of field, trim curves, level of detail."},
{"property": "C54", "status": "partial", "theorems": ["Verif.Core.Sampler.C54_jittered", "Verif.Core.Sampler.C54_pixel", "Verif.Core.Sampler.C54_picks", "Verif.Core.Sampler.C54_shutter", "Verif.Core.Sampler.C54_placed", "Verif.Core.Sampler.C54_grid", "Verif.Core.Sampler.C54_grid_pixel", "Verif.Core.Sampler.C54_grid_times_violated"], "note": "Holds of the multi-jittered sampler for all random numbers in [0,1). The regular grid sampler gives all samples of a pixel the same time and level of detail when there is more than one (1/nSamples is divided as integers), proved as C54_grid_times_violated. projectToCircle is not applied to the lens offsets here."},
{"property": "C55", "status": "proved", "theorems": ["Verif.Math.Random.C55_reseed", "Verif.Math.Random.C55_start", "Verif.Math.Random.C55_sequence", "Verif.Math.Random.C55_reproducible", "Verif.Math.Random.C55_range", "Verif.Math.Random.C55_tempering", "Verif.Math.Random.C55_constructor", "Verif.Math.Random.C55_float", "Verif.Math.Random.C55_divisor", "Verif.Math.Random.C55_float_range", "Verif.Math.Random.C55_int_range", "Verif.Math.Random.C55_feeds_sampler", "Verif.Math.Random.C55_rounding"], "note": "Exponents of floats are not limited in the model (no underflow for tiny ranges). C55_constructor: the seed given to the constructor has no effect."},
{"property": "C56", "status": "partial", "theorems": ["Verif.Core.Motion.C56_keys_partial", "Verif.Core.Motion.C56_keys_violated", "Verif.Core.Motion.C56_position", "Verif.Core.Motion.C56_sample_partial", "Verif.Core.Motion.C56_order_violated", "Verif.Core.Motion.C56_bounds_partial", "Verif.Core.Motion.C56_divisions", "Verif.Core.Motion.C56_divisions_violated", "Verif.Core.Motion.C56_render_partial", "Verif.Core.Motion.C56_once_partial", "Verif.Core.Motion.C56_jittered", "Verif.Core.Motion.C56_outside_violated", "Verif.Core.Motion.C56_once_violated", "Verif.Core.Motion.C56_grid_violated", "Verif.Core.Motion.C56_border_violated", "Verif.Core.Motion.C56_rounding_violated", "Verif.Core.Motion.C56_last_index", "Verif.Core.Motion.C56_key_times"], "note": "Holds for exact numbers if the keys cover the shutter interval, the times are stratified and no sample is on the lower or left border of its pixel. Violated: keys of object and camera with different times get mixed up; a shutter open beyond the keys loses resting objects; a sample on the boundary of two divisions is stored twice; regular sampling loses samples; a micropolygon that turns over is not hit; rounding leads to a read behind the samples of a pixel (3 x 3 samples, shutter 0 to 0.281)."},
{"property": "C57", "status": "partial", "theorems": ["Verif.Core.Dof.C57_disc", "Verif.Core.Dof.C57_cells_partial", "Verif.Core.Dof.C57_one", "Verif.Core.Dof.C57_cells_violated", "Verif.Core.Dof.C57_oblong_violated", "Verif.Core.Dof.C57_coc", "Verif.Core.Dof.C57_reject", "Verif.Core.Dof.C57_sample_partial", "Verif.Core.Dof.C57_order", "Verif.Core.Dof.C57_expand", "Verif.Core.Dof.C57_shift_partial", "Verif.Core.Dof.C57_render_partial", "Verif.Core.Dof.C57_tilted_violated", "Verif.Core.Dof.C57_lens"], "note": "Holds for an even number of samples, the same in x and y (or one), and micropolygons parallel to the image (any micropolygon for 2 x 2 samples). Violated: the bounds of lens cells are too small for three samples in each direction and for different numbers in x and y; for more than 2 x 2 samples the moved bound of a tilted micropolygon does not contain it, and samples are lost. Numbers are exact; depth of field together with motion is not modelled."},
{"property": "C58", "status": "partial", "theorems": ["Verif.State.Attr.C58_values_partial", "Verif.State.Attr.C58_saved_partial", "Verif.State.Attr.C58_kept_partial", "Verif.State.Attr.C58_primitives_partial", "Verif.State.Attr.C58_trim_partial", "Verif.State.Attr.C58_trim_block_violated", "Verif.State.Attr.C58_trim_copy_violated", "Verif.State.Attr.C58_layer_violated", "Verif.State.Attr.C58_rejected_violated"], "note": "Holds for parameters, shaders without a second layer and lights, for all sequences of requests. Violated: trim curves are not copied, so they are lost in blocks and by later changes; a layer is added to a shared shader in place; the end of a rejected begin closes another block."},
{"property": "C59", "status": "partial", "theorems": ["Verif.State.Transform.C59_motion_partial", "Verif.State.Transform.C59_sorted", "Verif.State.Transform.C59_merge", "Verif.State.Transform.C59_overflow", "Verif.State.Transform.C59_camera_violated", "Verif.State.Transform.C59_set_violated", "Verif.State.Transform.C59_times_violated", "Verif.State.Transform.C59_hand_violated", "Verif.State.Transform.C59_hand_motion_violated", "Verif.State.Transform.C59_between_violated", "Verif.State.Transform.C59_points_violated"], "note": "Holds for a camera that does not move and motion blocks with the same times. Violated for a moving camera, for a later motion block with other times, when a moving transformation is set outside of a motion block, for the handedness after CoordSysTransform, and between the times."},
{"property": "C60", "status": "partial", "theorems": ["Verif.Math.Matrix4.C60_product", "Verif.Math.Matrix4.C60_inverse", "Verif.Math.Matrix4.C60_determinant", "Verif.Math.Matrix4.C60_vectors", "Verif.Math.Matrix4.C60_points", "Verif.Math.Matrix4.C60_translate_scale", "Verif.Math.Matrix4.C60_rotation", "Verif.Math.Matrix4.C60_vector_transform", "Verif.Math.Matrix4.C60_normal_transform", "Verif.Math.Matrix4.C60_scalar_partial", "Verif.Math.Matrix4.C60_scalar_violated", "Verif.Math.Matrix4.C60_scalar_sides_violated", "Verif.Math.Matrix4.C60_close_partial", "Verif.Math.Matrix4.C60_close_violated", "Verif.Math.Matrix4.C60_skew_partial", "Verif.Math.Matrix4.C60_skew_zero_violated", "Verif.Math.Matrix4.C60_skew_angle_violated"], "note": "Holds for products, inverse, determinant, points, vectors, normals, translations, scales, rotations, sums. Violated for multiples of the identity, for a * S, for comparisons with the identity and for skews about axes that are not at right angles. Exact arithmetic; no rounding."},
{"property": "C61", "status": "partial", "theorems": ["Verif.Geom.Bicubic.C61_dice_partial", "Verif.Geom.Bicubic.C61_dice_integer_violated", "Verif.Geom.Bicubic.C61_dice_matrix_violated", "Verif.Geom.Bicubic.C61_split_partial", "Verif.Geom.Bicubic.C61_split_types_violated", "Verif.Geom.Bicubic.C61_bound", "Verif.Geom.Bicubic.C61_split_bound", "Verif.Geom.Bicubic.C61_basis_partial", "Verif.Geom.Bicubic.C61_basis_arrays_violated", "Verif.Geom.Bicubic.C61_points_partial", "Verif.Geom.Bicubic.C61_weights_violated", "Verif.Geom.Bicubic.C61_points_bound"], "note": "Holds for floats and the components of points, vectors, normals and colours. Points with weights are split and diced as if their weights were one (C61_points_partial, C61_weights_violated). Violated for integers (differences are cut off), for matrices (not split, wrong multiples) and, on conversion of bases, for elements of arrays after the first. Exact arithmetic; no rounding."},
{"property": "C62", "status": "partial", "theorems": ["Verif.Geom.Primvar.C62_load_partial", "Verif.Geom.Primvar.C62_load_uniform_array_violated", "Verif.Geom.Primvar.C62_set_value_partial", "Verif.Geom.Primvar.C62_set_value_violated", "Verif.Geom.Primvar.C62_split_partial", "Verif.Geom.Primvar.C62_split_uniform", "Verif.Geom.Primvar.C62_split_vertex_array_violated", "Verif.Geom.Primvar.C62_dice_partial", "Verif.Geom.Primvar.C62_dice_array_violated", "Verif.Geom.Primvar.C62_st_partial", "Verif.Geom.Primvar.C62_st_violated", "Verif.Geom.Primvar.C62_copy_partial", "Verif.Geom.Primvar.C62_copy_violated", "Verif.Geom.Primvar.C62_transform_partial", "Verif.Geom.Primvar.C62_transform_violated", "Verif.Geom.Primvar.C62_dice_fixed"], "note": "Holds for single values, except that varying variables cannot be copied to a shader. Of arrays: uniform arrays keep one value, uniform and constant arrays are copied and transformed in part, vertex arrays are cut to four values on a split, varying arrays fail an assertion when diced, vertex arrays st are ignored. Exact arithmetic; dicing of vertex variables belongs to the surface (C61 for bicubic patches)."},
{"property": "C63", "status": "partial", "theorems": ["Verif.Geom.Bilinear.C63_split_cover", "Verif.Geom.Bilinear.C63_split_inside", "Verif.Geom.Bilinear.C63_split_disjoint", "Verif.Geom.Bilinear.C63_phantom", "Verif.Geom.Bilinear.C63_bound", "Verif.Geom.Bilinear.C63_triangle", "Verif.Geom.Bilinear.C63_edge_violated", "Verif.Geom.Bilinear.C63_split_shrinks", "Verif.Geom.Bilinear.C63_dice", "Verif.Geom.Bilinear.C63_pow2_violated", "Verif.Geom.Bilinear.C63_pow2_partial"], "note": "Violated: samples exactly on an edge that two triangles have opposite of their first vertices are kept by neither; ceilPow2 shifts by 32 places and more, which is undefined (it works where the processor takes places modulo 32). Exact arithmetic; shrinking under an affine projection to the raster. Points with weights are meant after division by their weights, as the operators of CqVector4D do it (C61_points_partial)."},
{"property": "C64", "status": "partial", "theorems": ["Verif.Geom.GenPoly.C64_area", "Verif.Geom.GenPoly.C64_winding", "Verif.Geom.GenPoly.C64_triangle", "Verif.Geom.GenPoly.C64_direction", "Verif.Geom.GenPoly.C64_cover_partial", "Verif.Geom.GenPoly.C64_convex", "Verif.Geom.GenPoly.C64_total", "Verif.Geom.GenPoly.C64_empty_violated", "Verif.Geom.GenPoly.C64_bridge", "Verif.Geom.GenPoly.C64_hole_violated", "Verif.Geom.GenPoly.C64_axis_violated", "Verif.Geom.GenPoly.C64_axis_partial", "Verif.Geom.GenPoly.C64_attribute_violated", "Verif.Geom.GenPoly.C64_contains_violated", "Verif.Geom.GenPoly.C64_facevarying_partial", "Verif.Geom.GenPoly.C64_facevarying_violated", "Verif.Geom.GenPoly.C64_box_axis"], "note": "Violated: bridges to holes may cross the polygon, then most triangles are missing; planes whose normal has two equal greatest components are projected to a line; GeneralPolygon changes the current attribute Orientation; Contains counts the wrong vertices; a vertex named twice fails an assertion; an empty loop reads outside of its vertices. That all triangles are found is proved for convex polygons; that the last triangle is not turned over is assumed in C64_cover_partial."},
{"property": "C65", "status": "partial", "theorems": ["Verif.Geom.Polygon.C65_fan", "Verif.Geom.Polygon.C65_pieces", "Verif.Geom.Polygon.C65_cover", "Verif.Geom.Polygon.C65_convex", "Verif.Geom.Polygon.C65_values", "Verif.Geom.Polygon.C65_params", "Verif.Geom.Polygon.C65_bound", "Verif.Geom.Polygon.C65_normal_partial", "Verif.Geom.Polygon.C65_normal_violated", "Verif.Geom.Polygon.C65_degenerate", "Verif.Geom.Polygon.C65_mesh_partial", "Verif.Geom.Polygon.C65_mesh_violated", "Verif.Geom.Polygon.C65_mesh_values"], "note": "Violated: a polygon whose first three vertices are in line gets a zero normal; a face with an invalid index makes all later faces of the mesh disappear. The partial theorems give the normal for vertices not in line, and the faces before the first invalid index."},
{"property": "C66", "status": "partial", "theorems": ["Verif.Core.Cull.C66_transform", "Verif.Core.Cull.C66_transform_violated", "Verif.Core.Cull.C66_encapsulate", "Verif.Core.Cull.C66_tests", "Verif.Core.Cull.C66_side", "Verif.Core.Cull.C66_volume", "Verif.Core.Cull.C66_place_partial", "Verif.Core.Cull.C66_place_violated", "Verif.Core.Cull.C66_motion_partial", "Verif.Core.Cull.C66_motion_violated", "Verif.Core.Cull.C66_static", "Verif.Core.Cull.C66_deforming", "Verif.Core.Cull.C66_displacement_partial", "Verif.Core.Cull.C66_displacement_violated", "Verif.Core.Cull.C66_cull", "Verif.Core.Cull.C66_culled", "Verif.Core.Cull.C66_eye_violated", "Verif.Core.Cull.C66_lens", "Verif.Core.Cull.C66_plane"], "note": "Violated: with the shutter opening at another time than 0, bounds of moving objects lack points and points seen by a moving camera are in the wrong place; displacement bounds are scaled by the x axis only; boxes on both sides of the eye are not bounded by their corners; surfaces split too often at the eye are culled."},
{"property": "C67", "status": "partial", "theorems": ["Verif.Core.Lod.C67_range", "Verif.Core.Lod.C67_request", "Verif.Core.Lod.C67_levels", "Verif.Core.Lod.C67_post", "Verif.Core.Lod.C67_ruler", "Verif.Core.Lod.C67_own_partial", "Verif.Core.Lod.C67_initial_violated", "Verif.Core.Lod.C67_off_violated", "Verif.Core.Lod.C67_shared_violated", "Verif.Core.Lod.C67_points_violated"], "note": "Violated: the initial range is empty, after Detail alone everything is culled; importances are written to attributes that surfaces share, and stay when the levels are turned off; Points are dropped if the detail bound is on the left of the origin."},
{"property": "C68", "status": "partial", "theorems": ["Verif.Math.Spline.C68_names", "Verif.Math.Spline.C68_sections", "Verif.Math.Spline.C68_hull", "Verif.Math.Spline.C68_affine", "Verif.Math.Spline.C68_joint", "Verif.Math.Spline.C68_smooth", "Verif.Math.Spline.C68_power_violated", "Verif.Math.Spline.C68_ends_partial", "Verif.Math.Spline.C68_ends_violated", "Verif.Math.Spline.C68_few_violated", "Verif.Math.Spline.C68_float", "Verif.Math.Spline.C68_list", "Verif.Math.Spline.C68_array"], "note": "Violated: for other bases than Catmull-Rom and linear, the values at 0 and 1 are not the ends of the curve; arrays of fewer than four points are read past their end; sections of power splines do not meet."},
{"property": "C69", "status": "partial", "theorems": ["Verif.Core.Display.C69_buckets", "Verif.Core.Display.C69_scanline_partial", "Verif.Core.Display.C69_scanline_crop_violated", "Verif.Core.Display.C69_select", "Verif.Core.Display.C69_float", "Verif.Core.Display.C69_quantize", "Verif.Core.Display.C69_monotone", "Verif.Core.Display.C69_depth_violated", "Verif.Core.Display.C69_signed_violated", "Verif.Core.Display.C69_fraction_violated", "Verif.Core.Display.C69_options", "Verif.Core.Display.C69_channels_partial", "Verif.Core.Display.C69_channels_violated", "Verif.Core.Display.C69_aov"], "note": "Violated: scan lines with a crop window leave the block or miss pixels; the depth of the background overflows lround; signed formats are made unsigned by the file driver; min and max that are not integers are truncated; modes such as rgbz are refused."},
{"property": "C70", "status": "partial", "theorems": ["Verif.Geom.Points.C70_split", "Verif.Geom.Points.C70_pieces_partial", "Verif.Geom.Points.C70_gridsize_violated", "Verif.Geom.Points.C70_values", "Verif.Geom.Points.C70_uniform_violated", "Verif.Geom.Points.C70_width_partial", "Verif.Geom.Points.C70_width_violated", "Verif.Geom.Points.C70_bound", "Verif.Geom.Points.C70_deforming_partial", "Verif.Geom.Points.C70_deforming_violated", "Verif.Geom.Points.C70_hit", "Verif.Geom.Points.C70_moving", "Verif.Geom.Points.C70_motion_bounds_partial", "Verif.Geom.Points.C70_motion_bounds_violated", "Verif.Geom.Points.C70_reference_partial", "Verif.Geom.Points.C70_reference_violated", "Verif.Geom.Points.C70_later"], "note": "Violated: grid size 0 splits for ever; uniform variables are read outside of their value; the width of points under an uneven scale is greater than the bound; later times of a deforming primitive lose their width after a split; of three keys only the last part has bounds; the first key time must be 0. The order that nth_element gives is any that keeps its contract."},
{"property": "C71", "status": "partial", "theorems": ["Verif.Geom.Trim.C71_span", "Verif.Geom.Trim.C71_eval_partial", "Verif.Geom.Trim.C71_unity", "Verif.Geom.Trim.C71_eval_violated", "Verif.Geom.Trim.C71_insert_curve", "Verif.Geom.Trim.C71_insert_knots", "Verif.Geom.Trim.C71_insert_denominators", "Verif.Geom.Trim.C71_clamp_partial", "Verif.Geom.Trim.C71_clamp_start", "Verif.Geom.Trim.C71_clamp_violated", "Verif.Geom.Trim.C71_prepare_partial", "Verif.Geom.Trim.C71_prepare_order", "Verif.Geom.Trim.C71_point_parity", "Verif.Geom.Trim.C71_point_reverse", "Verif.Geom.Trim.C71_point_rotate", "Verif.Geom.Trim.C71_point_triangle", "Verif.Geom.Trim.C71_point_fan", "Verif.Geom.Trim.C71_point_connected", "Verif.Geom.Trim.C71_loops", "Verif.Geom.Trim.C71_line_partial", "Verif.Geom.Trim.C71_line_violated", "Verif.Geom.Trim.C71_mp_inside_partial", "Verif.Geom.Trim.C71_mp_outside_partial", "Verif.Geom.Trim.C71_mp_outside_violated", "Verif.Geom.Trim.C71_outside_no_loops_violated", "Verif.Geom.Trim.C71_mp_hole_violated", "Verif.Geom.Trim.C71_mp_island_violated", "Verif.Geom.Trim.C71_read", "Verif.Geom.Trim.C71_read_range_violated", "Verif.Geom.Trim.C71_end", "Verif.Geom.Trim.C71_mp_cases"], "note": "Violated: a domain that begins at a double knot (division of zero by zero, wrong clamping); lines along a curve; sense \"outside\" for micropolygons that a curve crosses and for surfaces without curves; holes and islands within a micropolygon; the range of parameters is ignored."},
{"property": "C72", "status": "partial", "theorems": ["Verif.Geom.Nurbs.C72_basis", "Verif.Geom.Nurbs.C72_eval", "Verif.Geom.Nurbs.C72_eval_closed", "Verif.Geom.Nurbs.C72_borders", "Verif.Geom.Nurbs.C72_insert", "Verif.Geom.Nurbs.C72_insert_count", "Verif.Geom.Nurbs.C72_clamp_partial", "Verif.Geom.Nurbs.C72_clamp_violated", "Verif.Geom.Nurbs.C72_refine", "Verif.Geom.Nurbs.C72_splitU", "Verif.Geom.Nurbs.C72_splitV", "Verif.Geom.Nurbs.C72_segments", "Verif.Geom.Nurbs.C72_dice", "Verif.Geom.Nurbs.C72_bound_partial", "Verif.Geom.Nurbs.C72_bound_violated", "Verif.Geom.Nurbs.C72_dirs_partial", "Verif.Geom.Nurbs.C72_dirs_violated", "Verif.Geom.Nurbs.C72_labels_partial", "Verif.Geom.Nurbs.C72_labels_violated"], "note": "Violated: clamping of a domain that begins at a double knot; the bound with negative weights; the directions of splitting if a surface may not be diced; the range of parameters only labels. Order 1 is excluded."},
{"property": "C73", "status": "partial", "theorems": ["Verif.Geom.Lath.C73_links", "Verif.Geom.Lath.C73_corners", "Verif.Geom.Lath.C73_ok", "Verif.Geom.Lath.C73_vertices_partial", "Verif.Geom.Lath.C73_vertices_violated", "Verif.Geom.Lath.C73_manifold", "Verif.Geom.Lath.C73_facevarying_partial", "Verif.Geom.Lath.C73_facevarying_violated", "Verif.Geom.Lath.C73_ccf", "Verif.Geom.Lath.C73_ccv", "Verif.Geom.Lath.C73_companion", "Verif.Geom.Lath.C73_facet", "Verif.Geom.Lath.C73_fan", "Verif.Geom.Lath.C73_edges", "Verif.Geom.Lath.C73_neighbours", "Verif.Geom.Lath.C73_edge_edges", "Verif.Geom.Lath.C73_facets", "Verif.Geom.Lath.C73_boundary", "Verif.Geom.Lath.C73_corner"], "note": "Violated: one more lath at a vertex with a closed fan is not separated; laths that are moved to a new vertex lose their face varying values. Facets with an edge in the same direction twice, or with a vertex twice, are excluded."},
{"property": "C74", "status": "partial", "theorems": ["Verif.Geom.Subd.C74_face", "Verif.Geom.Subd.C74_edge", "Verif.Geom.Subd.C74_edge_shared", "Verif.Geom.Subd.C74_edge_facevertex", "Verif.Geom.Subd.C74_varying", "Verif.Geom.Subd.C74_boundary", "Verif.Geom.Subd.C74_sharp", "Verif.Geom.Subd.C74_sharp_violated", "Verif.Geom.Subd.C74_crease", "Verif.Geom.Subd.C74_smooth", "Verif.Geom.Subd.C74_vertex_shared", "Verif.Geom.Subd.C74_facevertex", "Verif.Geom.Subd.C74_regular", "Verif.Geom.Subd.C74_limit", "Verif.Geom.Subd.C74_limit_boundary", "Verif.Geom.Subd.C74_limit_sharp", "Verif.Geom.Subd.C74_affine_face", "Verif.Geom.Subd.C74_affine_edge", "Verif.Geom.Subd.C74_affine_vertex"], "note": "Violated: a sharp corner on the boundary moves in a step but not in limitPoint. Values are over an ordered field, not floats; conversions to other types are not modelled. Limit points ignore creases, as their comment says."},
{"property": "C75", "status": "partial", "theorems": ["Verif.Geom.Subd.C75_total", "Verif.Geom.Subd.C75_fuel", "Verif.Geom.Subd.C75_mesh", "Verif.Geom.Subd.C75_links", "Verif.Geom.Subd.C75_facets", "Verif.Geom.Subd.C75_points", "Verif.Geom.Subd.C75_crease", "Verif.Geom.Subd.C75_crease_edges", "Verif.Geom.Subd.C75_values", "Verif.Geom.Subd.C75_facevalues", "Verif.Geom.Subd.C75_refines", "Verif.Geom.Subd.C75_next", "Verif.Geom.Subd.C75_limit", "Verif.Geom.Subd.C75_order", "Verif.Geom.Subd.C75_corners", "Verif.Geom.Subd.C75_levels", "Verif.Geom.Subd.C75_built", "Verif.Geom.Subd.C75_corner_violated", "Verif.Geom.Subd.C75_order_violated", "Verif.Geom.Subd.C75_limit_violated"], "note": "Violated: a sharp corner spreads to one lath of the middle of the next edge, so that the next level depends on the order of the calls; limit points of sharp edges move. Levels are subdivided one after another: the recursion into neighbours of the parent that are not subdivided yet (subdivision2.cpp:1439-1452) is in the model, but the theorems are about meshes where they all are. Values are over an ordered field, not floats; one vertex variable and one face vertex variable at one time."},
{"property": "C76", "status": "partial", "theorems": ["Verif.Shader.Inline.C76_call_partial", "Verif.Shader.Inline.C76_value_partial", "Verif.Shader.Inline.C76_operands", "Verif.Shader.Inline.C76_declared", "Verif.Shader.Inline.C76_index_violated", "Verif.Shader.Inline.C76_index_meaning_violated", "Verif.Shader.Inline.C76_assign_violated", "Verif.Shader.Inline.C76_return_violated", "Verif.Shader.Inline.C76_return_param_violated", "Verif.Shader.Inline.C76_order_violated", "Verif.Shader.Inline.C76_extern_violated", "Verif.Shader.Inline.C76_after_violated"], "note": "Proved for trees that are Ok: arguments that are references are plain variables, no variable that waits on the stack is assigned to by the next operand, extern does not lead to a parameter, return is last; each of these conditions is shown to be needed by a violation. Control flow is not included (see C50), one type of values."},
{"property": "C77", "status": "partial", "theorems": ["Verif.Shader.Scope.C77_names_partial", "Verif.Shader.Scope.C77_compare_partial", "Verif.Shader.Scope.C77_distinct_partial", "Verif.Shader.Scope.C77_lookahead", "Verif.Shader.Scope.C77_hash_scope", "Verif.Shader.Scope.C77_hash_name", "Verif.Shader.Scope.C77_hash_letter", "Verif.Shader.Scope.C77_hash_violated", "Verif.Shader.Scope.C77_hide_violated", "Verif.Shader.Scope.C77_scope_violated", "Verif.Shader.Scope.C77_overload_violated"], "note": "Proved when no two names looked up have the same hash, no scope has a name that ends in a digit, and no declaration repeats a name of its function; each is shown to be needed by a violation. The grammar, types and array lengths are left out."},
{"property": "C78", "status": "partial", "theorems": ["Verif.Shader.Types.C78_sound_partial", "Verif.Shader.Types.C78_condition_partial", "Verif.Shader.Types.C78_defined_partial", "Verif.Shader.Types.C78_best", "Verif.Shader.Types.C78_exact", "Verif.Shader.Types.C78_zero_ub", "Verif.Shader.Types.C78_dots_violated", "Verif.Shader.Types.C78_not_violated", "Verif.Shader.Types.C78_cond_violated", "Verif.Shader.Types.C78_assign_violated", "Verif.Shader.Types.C78_compare_violated", "Verif.Shader.Types.C78_reject_violated", "Verif.Shader.Types.C78_hpoint_partial", "Verif.Shader.Types.C78_compare"], "note": "Proved when conditional expressions stand only where they are assigned or returned unconverted, no `!` is used, nothing but constants and variables follows the parameters of a function with `...`, no assignment is used as another type inside an expression, and no candidate is without parameters when there are arguments; each restriction is shown to be needed by a violation. Spaces of casts, texture names, messages and statements are left out."},
{"property": "C79", "status": "partial", "theorems": ["Verif.Shader.Slx.C79_loaded_partial", "Verif.Shader.Slx.C79_string_partial", "Verif.Shader.Slx.C79_version", "Verif.Shader.Slx.C79_init_violated", "Verif.Shader.Slx.C79_name_violated", "Verif.Shader.Slx.C79_infinite_violated", "Verif.Shader.Slx.C79_unknown_violated", "Verif.Shader.Slx.C79_octal_violated", "Verif.Shader.Slx.C79_cut_violated", "Verif.Shader.Slx.C79_many_violated", "Verif.Shader.Slx.C79_clone_violated", "Verif.Shader.Slx.C79_words"], "note": "Proved for the shaders that fulfil `Good`, with the real table of instructions and hash function; each restriction of `Good` is shown to be needed by a violation. Writing and reading numbers are parameters; calls of external functions are left out."},
{"property": "C80", "status": "partial", "theorems": ["Verif.Geom.Quadric.C80_dice", "Verif.Geom.Quadric.C80_split_u", "Verif.Geom.Quadric.C80_split_v", "Verif.Geom.Quadric.C80_sphere_partial", "Verif.Geom.Quadric.C80_bound_partial", "Verif.Geom.Quadric.C80_grid_in_bound_partial", "Verif.Geom.Quadric.C80_sphere_violated", "Verif.Geom.Quadric.C80_paraboloid_violated", "Verif.Geom.Quadric.C80_backwards_violated", "Verif.Geom.Quadric.C80_torus_violated", "Verif.Geom.Quadric.C80_project"], "note": "Over the reals; the bound holds up to six millionths, as control points are left out for small angles and radii. Splitting of paraboloids and the bounds are proved for the shapes in `Upward` and `Fit`; violations show what happens without. Motion of the transformation is left out."},
{"property": "C81", "status": "partial", "theorems": ["Verif.Geom.Quadric.C81_perpendicular_partial", "Verif.Geom.Quadric.C81_side_partial", "Verif.Geom.Quadric.C81_apex_violated", "Verif.Geom.Quadric.C81_backwards_violated"], "note": "Over the reals, in the space of the object; derivatives are those of Mathlib. The apex of a paraboloid and angles which go down are excluded, with violations for both. The transformation of normals is left out."},
{"property": "C82", "status": "partial", "theorems": ["Verif.Tex.Mixed.C82_layout", "Verif.Tex.Mixed.C82_reorder", "Verif.Tex.Mixed.C82_find", "Verif.Tex.Mixed.C82_copy", "Verif.Tex.Mixed.C82_copy_named", "Verif.Tex.Mixed.C82_composite", "Verif.Tex.Mixed.C82_fill", "Verif.Tex.Mixed.C82_back", "Verif.Tex.Mixed.C82_close", "Verif.Tex.Mixed.C82_same", "Verif.Tex.Mixed.C82_read", "Verif.Tex.Mixed.C82_zoom", "Verif.Tex.Mixed.C82_long_violated", "Verif.Tex.Mixed.C82_zoom_violated", "Verif.Tex.Mixed.C82_unnamed", "Verif.Tex.Mixed.C82_part"], "note": "Partial because the conversions fail for integers of four bytes (C82_long_violated), and enlarged sources are right only for multiples of the factor (C82_zoom_violated). Floats are rationals rounded to 24 bits, without overflow; how a float is kept in bytes is a parameter. Access to data that is not aligned is taken to work."},
{"property": "C83", "status": "partial", "theorems": ["Verif.Filter.Condition.C83_int", "Verif.Filter.Condition.C83_float", "Verif.Filter.Condition.C83_math", "Verif.Filter.Condition.C83_unknown", "Verif.Filter.Condition.C83_unread", "Verif.Filter.Condition.C83_triple_partial", "Verif.Filter.Condition.C83_string_partial", "Verif.Filter.Condition.C83_string_violated", "Verif.Filter.Condition.C83_triple_violated", "Verif.Filter.Condition.C83_memory_violated", "Verif.Filter.Condition.C83_relation_violated", "Verif.Filter.Condition.C83_math_int"], "note": "Partial because strings are compared by occurrence (C83_string_violated), '!=' of three components asks that all differ (C83_triple_violated), long words overflow arrays and missing names are null pointers (C83_memory_violated), and relations are recognised by a hash (C83_relation_violated). How %f reads numbers is a parameter; floats are rationals."},
{"property": "C84", "status": "partial", "theorems": ["Verif.Shader.Stack.C84_run", "Verif.Shader.Stack.C84_storage", "Verif.Shader.Stack.C84_assign_partial", "Verif.Shader.Stack.C84_uniform_violated", "Verif.Shader.Stack.C84_uniform_cond_violated", "Verif.Shader.Stack.C84_underflow_violated", "Verif.Shader.Stack.C84_lost_violated"], "note": "Partial because a varying value assigned to a uniform variable is that of the first point, running or not (C84_uniform_violated), which includes conditional expressions of uniform values (C84_uniform_cond_violated); Pop on an empty stack gives the bottom entry again (C84_underflow_violated); init_illuminance2 loses a temporary (C84_lost_violated). Arrays, jumps and the functions of the shading library are not in the model of the stack."},
{"property": "C85", "status": "partial", "theorems": ["Verif.Util.Args.C85_integers", "Verif.Util.Args.C85_int_partial", "Verif.Util.Args.C85_int_violated", "Verif.Util.Args.C85_names", "Verif.Util.Args.C85_register", "Verif.Util.Args.C85_parse_partial", "Verif.Util.Args.C85_accepts_partial", "Verif.Util.Args.C85_leftovers", "Verif.Util.Args.C85_file_violated", "Verif.Util.Args.C85_empty_violated", "Verif.Util.Args.C85_count_violated", "Verif.Util.Args.C85_again_violated"], "note": "Partial because of options with a count: the argument after the last one is read as an option even if it is a file (C85_file_violated) and past its end if it is empty (C85_empty_violated), the count is not a limit (C85_count_violated) and is not set back for a second command line (C85_again_violated). Integers that do not fit in an int are read as others (C85_int_violated). strtod is a parameter; the usage message is not modelled."},
{"property": "C86", "status": "proved", "theorems": ["Verif.Tex.Ewa.C86_filter", "Verif.Tex.Ewa.C86_blur", "Verif.Tex.Ewa.C86_minor_axis", "Verif.Tex.Ewa.C86_table", "Verif.Tex.Ewa.C86_weight", "Verif.Tex.Ewa.C86_support", "Verif.Tex.Ewa.C86_support_tight", "Verif.Tex.Ewa.C86_level", "Verif.Tex.Ewa.C86_all"], "note": "Over real numbers. Weights are 0 where the exponent is 6 or more, also when the cut-off asks for more. The assertions of matrix2d.h are not modelled; C86_filter shows the matrices they are about to be symmetric and invertible."},
{"property": "C87", "status": "partial", "theorems": ["Verif.Tex.Env.C87_quad_width", "Verif.Tex.Env.C87_of_quad", "Verif.Tex.Env.C87_quad_periodic", "Verif.Tex.Env.C87_periodic_partial", "Verif.Tex.Env.C87_periodic_violated", "Verif.Tex.Env.C87_width_partial", "Verif.Tex.Env.C87_width_violated", "Verif.Tex.Env.C87_texture_partial", "Verif.Tex.Env.C87_cube", "Verif.Tex.Env.C87_cube_cell", "Verif.Tex.Env.C87_cube_blur", "Verif.Tex.Env.C87_latlong", "Verif.Tex.Env.C87_latlong_sides", "Verif.Tex.Env.C87_latlong_blur_partial", "Verif.Tex.Env.C87_latlong_blur_violated", "Verif.Tex.Env.C87_texture_width_partial"], "note": "Partial: the second side of parallelograms is overwritten by a multiple of the first when the widths are not 1 (C87_width_violated), a region is moved along both axes when one of them is periodic (C87_periodic_violated), the blur of latlong maps depends on the length of the direction (C87_latlong_blur_violated). The direction 0 is a division by zero in cube maps and is left out."},
{"property": "C88", "status": "partial", "theorems": ["Verif.Tex.Level.C88_width", "Verif.Tex.Level.C88_level", "Verif.Tex.Level.C88_mix", "Verif.Tex.Level.C88_between", "Verif.Tex.Level.C88_smooth", "Verif.Tex.Level.C88_zero_violated", "Verif.Tex.Level.C88_last_partial", "Verif.Tex.Level.C88_last_violated"], "note": "Partial: a minimal width of 0, which the options allow, makes an infinite number that is converted to an integer (C88_zero_violated); the limit of the last level is 21 pixels rather than the 20 of the comment (C88_last_violated)."},
{"property": "C89", "status": "partial", "theorems": ["Verif.Shader.TexOpts.C89_last", "Verif.Shader.TexOpts.C89_lerp", "Verif.Shader.TexOpts.C89_allowed", "Verif.Shader.TexOpts.C89_unknown", "Verif.Shader.TexOpts.C89_fill_violated", "Verif.Shader.TexOpts.C89_bias", "Verif.Shader.TexOpts.C89_bias_options", "Verif.Shader.TexOpts.C89_bias_order", "Verif.Shader.TexOpts.C89_bias_violated", "Verif.Shader.TexOpts.C89_bias_twice_violated"], "note": "Partial: fill has no default (C89_fill_violated); bias1 alone means different things as an option and in a call (C89_bias_violated), and given twice leaves its first value as the low bias (C89_bias_twice_violated). Samples and depthapprox of shadows are not modelled."},
{"property": "C90", "status": "partial", "theorems": ["Verif.Math.Noise.C90_table", "Verif.Math.Noise.C90_indices", "Verif.Math.Noise.C90_gradients1", "Verif.Math.Noise.C90_gradients2", "Verif.Math.Noise.C90_gradients3", "Verif.Math.Noise.C90_gradients4", "Verif.Math.Noise.C90_sum1", "Verif.Math.Noise.C90_sum2", "Verif.Math.Noise.C90_sum3", "Verif.Math.Noise.C90_sum4", "Verif.Math.Noise.C90_psum", "Verif.Math.Noise.C90_range_partial", "Verif.Math.Noise.C90_range4_partial", "Verif.Math.Noise.C90_range_violated", "Verif.Math.Noise.C90_lattice", "Verif.Math.Noise.C90_period", "Verif.Math.Noise.C90_pperiod_partial", "Verif.Math.Noise.C90_pperiod_violated", "Verif.Math.Noise.C90_round", "Verif.Math.Noise.C90_continuous"], "note": "Partial: four-dimensional noise leaves the range from 0 to 1 (C90_range_violated; C90_range4_partial has a bound), periodic noise does not repeat across 0 (C90_pperiod_violated). Over ordered fields with floors, not floats; indices have no overflow. Colours and points of the noise functions (noise.cpp offsets) are not modelled."},
{"property": "C91", "status": "partial", "theorems": ["Verif.Math.Color.C91_hsv", "Verif.Math.Color.C91_hsl", "Verif.Math.Color.C91_hsv_round", "Verif.Math.Color.C91_hsv_back", "Verif.Math.Color.C91_hsl_round_partial", "Verif.Math.Color.C91_hsl_back_partial", "Verif.Math.Color.C91_grey", "Verif.Math.Color.C91_hsl_grey_violated", "Verif.Math.Color.C91_hue_violated", "Verif.Math.Color.C91_yiq", "Verif.Math.Color.C91_yiq_round", "Verif.Math.Color.C91_other", "Verif.Math.Color.C91_through", "Verif.Math.Color.C91_names", "Verif.Math.Color.C91_cie_violated", "Verif.Math.Color.C91_yiq_violated", "Verif.Math.Color.C91_hsv_violated"], "note": "Partial: greys are black after a way through hsl (C91_hsl_grey_violated), triples without saturation fail an assertion unless the hue is negative (C91_grey), YIQ is computed with transposed matrices (C91_yiq_violated), XYZ and xyY are not implemented (C91_cie_violated), hues outside a turn are black in hsv (C91_hue_violated). Over ordered fields with floors, not floats."},
{"property": "C92", "status": "partial", "theorems": ["Verif.Math.LowDiscrep.C92_digits", "Verif.Math.LowDiscrep.C92_range", "Verif.Math.LowDiscrep.C92_cells", "Verif.Math.LowDiscrep.C92_grid", "Verif.Math.LowDiscrep.C92_primes", "Verif.Math.LowDiscrep.C92_bases_partial", "Verif.Math.LowDiscrep.C92_bases_violated", "Verif.Math.LowDiscrep.C92_generate", "Verif.Math.LowDiscrep.C92_table"], "note": "Partial: the bases are not picked at random, and no dimension or more than 343 of them are undefined behaviour (C92_bases_violated). Numbers are rational; random numbers are any below the range asked for."},
{"property": "C93", "status": "partial", "theorems": ["Verif.Tools.Emitter.C93_triangle", "Verif.Tools.Emitter.C93_quad_partial", "Verif.Tools.Emitter.C93_quad_violated", "Verif.Tools.Emitter.C93_faces_partial", "Verif.Tools.Emitter.C93_total_partial", "Verif.Tools.Emitter.C93_faces_violated", "Verif.Tools.Emitter.C93_count", "Verif.Tools.Emitter.C93_wrapped", "Verif.Tools.Emitter.C93_weights", "Verif.Tools.Emitter.C93_corners", "Verif.Tools.Emitter.C93_interpolated", "Verif.Tools.Emitter.C93_source"], "note": "Partial: areas of quadrilaterals are wrong unless the first and third sides are parallel (C93_quad_violated); faces with other numbers of vertices fail an assertion or write past the end (C93_faces_violated). Over the reals; meshes without area are not treated."},
{"property": "C94", "status": "partial", "theorems": ["Verif.Tools.Hairs.C94_parents", "Verif.Tools.Hairs.C94_parents_violated", "Verif.Tools.Hairs.C94_mean", "Verif.Tools.Hairs.C94_root", "Verif.Tools.Hairs.C94_points_partial", "Verif.Tools.Hairs.C94_points_violated", "Verif.Tools.Hairs.C94_others", "Verif.Tools.Hairs.C94_clump", "Verif.Tools.Hairs.C94_between", "Verif.Tools.Hairs.C94_clump_violated", "Verif.Tools.Hairs.C94_root_index", "Verif.Tools.Hairs.C94_storage"], "note": "Partial: variables of points after P are not moved (C94_points_violated), clumping moves the roots of cubic hairs (C94_clump_violated), parents all at the place of the child have no weights (C94_parents_violated). The search of the nearest parents is not modelled; over the reals."},
{"property": "C95", "status": "partial", "theorems": ["Verif.Tex.Shadow.C95_weight", "Verif.Tex.Shadow.C95_choice", "Verif.Tex.Shadow.C95_axis_partial", "Verif.Tex.Shadow.C95_periphery_violated", "Verif.Tex.Shadow.C95_raster", "Verif.Tex.Shadow.C95_depth_partial", "Verif.Tex.Shadow.C95_depth_violated", "Verif.Tex.Shadow.C95_constant", "Verif.Tex.Shadow.C95_degenerate"], "note": "Partial: views from different places are not chosen by the angle (C95_periphery_violated), and filter widths other than 1 flatten the depths (C95_depth_violated). Over the reals; the comparison and weights of depths are C41, C86 and C96."},
{"property": "C96", "status": "proved", "theorems": ["Verif.Tex.Stoch.C96_count", "Verif.Tex.Stoch.C96_shares", "Verif.Tex.Stoch.C96_average", "Verif.Tex.Stoch.C96_pcf"], "note": "With exact numbers instead of floats. The random numbers are a parameter."},
{"property": "C97", "status": "partial", "theorems": ["Verif.Geom.Curves.C97_linear_partial", "Verif.Geom.Curves.C97_linear_violated", "Verif.Geom.Curves.C97_cubic_partial", "Verif.Geom.Curves.C97_cubic_fits", "Verif.Geom.Curves.C97_cubic_violated", "Verif.Geom.Curves.C97_basis", "Verif.Geom.Curves.C97_basis_points", "Verif.Geom.Curves.C97_halves_partial", "Verif.Geom.Curves.C97_halves_violated", "Verif.Geom.Curves.C97_halves_points"], "note": "Partial: curves of no vertices (linear) or of fewer than four (cubic, not periodic) are excluded, and arrays, matrices and integers are not split right; the negations are proved."},
{"property": "C98", "status": "partial", "theorems": ["Verif.Geom.Curves.C98_tangent", "Verif.Geom.Curves.C98_tangent_ends", "Verif.Geom.Curves.C98_ribbon", "Verif.Geom.Curves.C98_bound", "Verif.Geom.Curves.C98_linear_partial", "Verif.Geom.Curves.C98_linear_violated", "Verif.Geom.Curves.C98_normals_partial", "Verif.Geom.Curves.C98_normals_violated", "Verif.Geom.Curves.C98_corners", "Verif.Geom.Curves.C98_scale"], "note": "Partial: linear pieces along their normal are divided by zero, and normals are taken by the indices 0 and 1 only; the negations are proved. Over the reals, with points after the division by their weights."},
{"property": "C99", "status": "partial", "theorems": ["Verif.Math.Cell.C99_permutation", "Verif.Math.Cell.C99_random", "Verif.Math.Cell.C99_cells_partial", "Verif.Math.Cell.C99_points_partial", "Verif.Math.Cell.C99_second_violated", "Verif.Math.Cell.C99_integers_violated"], "note": "Partial: the noise of floats in three dimensions leaves the second coordinate out, negative integers are in the cell below, and coordinates outside of the range of TqInt are undefined; the negations are proved. Exact numbers instead of floats."}
]}
