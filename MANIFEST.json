{
 "claims": [
  {
   "property": "C01",
   "status": "partial",
   "theorems": [
    "Verif.Base64.C01_roundtrip_partial",
    "Verif.Base64.C01_padding_counterexample",
    "Verif.Base64.C01_padding_never_accepted"
   ],
   "note": "Proved whenever the encoding contains no padding character. The full claim is false of the code: the decoder never consumes '=' (counterexample and general impossibility proved)."
  },
  {
   "property": "C02",
   "status": "partial",
   "theorems": [
    "Verif.Base64.C02_encode_buffer_size",
    "Verif.Base64.C02_encode_buffer_size_exact",
    "Verif.Base64.C02_decode_buffer_size_partial",
    "Verif.Base64.C02_decode_buffer_size_tight"
   ],
   "note": "Encoder: full (size exact, overflow error exact). Decoder: the reported size is always sufficient and tight, but the one-shot function still reports lack of space for some malformed texts (C04_counterexample)."
  },
  {
   "property": "C03",
   "status": "proved",
   "theorems": [
    "Verif.Base64.C03_encode_incremental",
    "Verif.Base64.C03_decode_incremental"
   ],
   "note": "All ways of splitting input and output, for encoder and decoder, compared with the specification / the single call."
  },
  {
   "property": "C04",
   "status": "partial",
   "theorems": [
    "Verif.Base64.C04_malformed_partial",
    "Verif.Base64.C04_counterexample",
    "Verif.Base64.C04_abort_iff"
   ],
   "note": "Proved for initial buffers larger than the suggested size. The full claim is false of the code (counterexample); the exact condition for the failing assertion is proved."
  },
  {
   "property": "C05",
   "status": "proved",
   "theorems": [
    "Verif.Base64.C05_canonical",
    "Verif.Base64.C05_injective"
   ],
   "note": "For every configuration and every text of 8-bit characters."
  },
  {
   "property": "C06",
   "status": "proved",
   "theorems": [
    "Verif.Unicode.C06_encode_exact",
    "Verif.Unicode.C06_encode_reject",
    "Verif.Unicode.C06_round_trip"
   ],
   "note": "Exact behaviour of encode_utf8() on any buffer, and decoding of its output; decode_utf8() returns the same code points and accepts (consumes) all input."
  },
  {
   "property": "C07",
   "status": "proved",
   "theorems": [
    "Verif.Unicode.C07_exact",
    "Verif.Unicode.C07_exact_narrow",
    "Verif.Unicode.C07_reject",
    "Verif.Unicode.C07_table",
    "Verif.Unicode.C07_unique",
    "Verif.Unicode.C07_wide_defect"
   ],
   "note": "Exact acceptance for byte strings, related to Table 3-7 of the Unicode Standard (without U+FFFE, U+FFFF, which the library treats as invalid). For code unit types wider than 8 bits, units above 255 are accepted as continuation bytes (C07_wide_defect); that is outside the property, which is about bytes."
  },
  {
   "property": "C08",
   "status": "proved",
   "theorems": [
    "Verif.Unicode.C08_encode_exact",
    "Verif.Unicode.C08_decode_exact",
    "Verif.Unicode.C08_decode_exact_narrow",
    "Verif.Unicode.C08_reject",
    "Verif.Unicode.C08_round_trip"
   ],
   "note": "For code units of any size."
  },
  {
   "property": "C09",
   "status": "proved",
   "theorems": [
    "Verif.Unicode.C09_utf8_to_utf16",
    "Verif.Unicode.C09_utf16_to_utf8",
    "Verif.Unicode.C09_reject",
    "Verif.Unicode.C09_round_trip_8",
    "Verif.Unicode.C09_round_trip_16"
   ],
   "note": "Exact behaviour of both transcoders, and both round trips."
  },
  {
   "property": "C10",
   "status": "proved",
   "theorems": [
    "Verif.Unicode.C10_buffering",
    "Verif.Unicode.C10_call"
   ],
   "note": "For all six codecs and every way for a client to feed input, drop consumed input, and provide output space; also memory safety and progress of each call."
  },
  {
   "property": "C100",
   "status": "proved",
   "theorems": [
    "Verif.MemStream.C100_file",
    "Verif.MemStream.C100_memory",
    "Verif.MemStream.C100_writes",
    "Verif.MemStream.C100_seek",
    "Verif.MemStream.C100_reset",
    "Verif.MemStream.C100_pbump"
   ],
   "note": "Results, position, and contents for all sequences of writes and seeks, with arbitrary limits of integer types."
  },
  {
   "property": "C101",
   "status": "proved",
   "theorems": [
    "Verif.MemStream.C101_contents",
    "Verif.MemStream.C101_fails",
    "Verif.MemStream.C101_no_allocation",
    "Verif.MemStream.C101_overflow_eof"
   ],
   "note": "All sequences of operations through the public functions. C101_overflow_eof is about a protected function that the standard library calls only with a character (finding 47)."
  },
  {
   "property": "C102",
   "status": "proved",
   "theorems": [
    "Verif.MemStream.C102_file",
    "Verif.MemStream.C102_reset",
    "Verif.MemStream.C102_seek"
   ],
   "note": "Results, position, and contents for all sequences of reads, put backs, and seeks."
  },
  {
   "property": "C103",
   "status": "proved",
   "theorems": [
    "Verif.SuperInt.C103_represent",
    "Verif.SuperInt.C103_compare",
    "Verif.SuperInt.C103_wrap",
    "Verif.SuperInt.C103_wrap_unique",
    "Verif.SuperInt.C103_bits"
   ],
   "note": "For every positive number of value bits."
  },
  {
   "property": "C104",
   "status": "proved",
   "theorems": [
    "Verif.SuperInt.C104_overflow",
    "Verif.SuperInt.C104_divide",
    "Verif.SuperInt.C104_operators",
    "Verif.SuperInt.C104_unique",
    "Verif.SuperInt.C104_zero"
   ],
   "note": "For every positive number of value bits. The operators compare with a constant of type int, so std::uintmax_t must have at least as many value bits as int."
  },
  {
   "property": "C105",
   "status": "partial",
   "theorems": [
    "Verif.SuperInt.C105_construct",
    "Verif.SuperInt.C105_get_as",
    "Verif.SuperInt.C105_shift_left",
    "Verif.SuperInt.C105_shift_right_partial",
    "Verif.SuperInt.C105_shift_right_negative",
    "Verif.SuperInt.C105_shift_limits",
    "Verif.SuperInt.C105_output"
   ],
   "note": "Right shift of negative numbers does not divide by a power of two, and shifts by N or more places are undefined behavior (C105_shift_right_negative, C105_shift_limits)."
  },
  {
   "property": "C106",
   "status": "proved",
   "theorems": [
    "Verif.StableSort.C106_stable_sort",
    "Verif.StableSort.C106_rearrange"
   ],
   "note": "For every strict weak order and, as for termination and rearrangement, for every comparison function."
  },
  {
   "property": "C107",
   "status": "partial",
   "theorems": [
    "Verif.CssColor.C107_keyword_partial",
    "Verif.CssColor.C107_only",
    "Verif.CssColor.C107_missing",
    "Verif.CssColor.C107_by_value"
   ],
   "note": "The keyword yellowgreen is missing from the table, and is therefore not found. Everything else is proved."
  },
  {
   "property": "C108",
   "status": "proved",
   "theorems": [
    "Verif.CssColor.C108_round_trip",
    "Verif.CssColor.C108_hex",
    "Verif.CssColor.C108_output",
    "Verif.CssColor.C108_output_parse"
   ],
   "note": "For the functional forms under the stated condition on the text of numbers. Upper case and omission of spaces on output are not modelled."
  },
  {
   "property": "C109",
   "status": "proved",
   "theorems": [
    "Verif.CssColor.C109_parse",
    "Verif.CssColor.C109_case",
    "Verif.CssColor.C109_valid"
   ],
   "note": "How numbers are read is a parameter of the model."
  },
  {
   "property": "C11",
   "status": "partial",
   "theorems": [
    "Verif.Unicode.C11_wellformed_partial",
    "Verif.Unicode.C11_length_partial",
    "Verif.Unicode.C11_defect",
    "Verif.Unicode.C11_defect_decode",
    "Verif.Unicode.C11_defect_initial",
    "Verif.Unicode.C11_defect_realloc"
   ],
   "note": "The property is false. C11_defect: fails for every ill-formed byte string. Proved: well-formed text is handled correctly, and the length of the output is always that of the well-formed characters alone."
  },
  {
   "property": "C110",
   "status": "proved",
   "theorems": [
    "Verif.CssColor.C110_rgba",
    "Verif.CssColor.C110_trgb",
    "Verif.CssColor.C110_unpack",
    "Verif.CssColor.C110_opaque"
   ],
   "note": "All colors and all 32-bit values."
  },
  {
   "property": "C111",
   "status": "proved",
   "theorems": [
    "Verif.ColorSpace.C111_css",
    "Verif.ColorSpace.C111_rgb_hsl_rgb",
    "Verif.ColorSpace.C111_hsl_range",
    "Verif.ColorSpace.C111_rgb_range",
    "Verif.ColorSpace.C111_hsl_rgb_hsl",
    "Verif.ColorSpace.C111_periodic",
    "Verif.ColorSpace.C111_injective",
    "Verif.ColorSpace.C111_negative_saturation"
   ],
   "note": "Exact arithmetic. C111_negative_saturation says what happens to negative saturations, which CSS would clip."
  },
  {
   "property": "C112",
   "status": "proved",
   "theorems": [
    "Verif.ColorSpace.C112_smith",
    "Verif.ColorSpace.C112_rgb_hsv_rgb",
    "Verif.ColorSpace.C112_hsv_range",
    "Verif.ColorSpace.C112_rgb_range",
    "Verif.ColorSpace.C112_hsv_rgb_hsv",
    "Verif.ColorSpace.C112_periodic",
    "Verif.ColorSpace.C112_same_hue"
   ],
   "note": "Exact arithmetic."
  },
  {
   "property": "C113",
   "status": "partial",
   "theorems": [
    "Verif.ColorSpace.C113_round_trip_partial",
    "Verif.ColorSpace.C113_color",
    "Verif.ColorSpace.C113_css_rgb",
    "Verif.ColorSpace.C113_round_trip_alternate",
    "Verif.ColorSpace.C113_not_16_bit",
    "Verif.ColorSpace.C113_equal_parts",
    "Verif.ColorSpace.C113_clamp",
    "Verif.ColorSpace.C113_css_hsl",
    "Verif.ColorSpace.C113_css_percent"
   ],
   "note": "The round trip is proved when the precision of the floating-point type is at least twice that of the component plus one bit (C113_round_trip_partial). It fails for 16-bit components and single precision (C113_not_16_bit)."
  },
  {
   "property": "C114",
   "status": "proved",
   "theorems": [
    "Verif.ColorSpace.C114_range",
    "Verif.ColorSpace.C114_range_neg",
    "Verif.ColorSpace.C114_congruent",
    "Verif.ColorSpace.C114_unique",
    "Verif.ColorSpace.C114_error"
   ],
   "note": "The remainder (std::fmod) is exact, and the sum is rounded by an arbitrary function."
  },
  {
   "property": "C115",
   "status": "proved",
   "theorems": [
    "Verif.FloatInt.C115_not_above",
    "Verif.FloatInt.C115_not_below",
    "Verif.FloatInt.C115_for_int",
    "Verif.FloatInt.C115_requirements_insufficient"
   ],
   "note": "Includes a counterexample showing that the documented requirements alone are insufficient."
  },
  {
   "property": "C116",
   "status": "partial",
   "theorems": [
    "Verif.FloatInt.C116_equal",
    "Verif.FloatInt.C116_defined",
    "Verif.FloatInt.C116_representable_partial",
    "Verif.FloatInt.C116_outside_partial",
    "Verif.FloatInt.C116_sign_partial",
    "Verif.FloatInt.C116_wrong_positive",
    "Verif.FloatInt.C116_wrong_negative",
    "Verif.FloatInt.C116_wrong_single"
   ],
   "note": "The documented claim is false for all comparisons but equality (finding 53). Equality, absence of undefined behavior, correctness under side conditions, and the exact condition for failure are proved."
  },
  {
   "property": "C117",
   "status": "proved",
   "theorems": [
    "Verif.FloatInt.C117_try",
    "Verif.FloatInt.C117_try_special",
    "Verif.FloatInt.C117_clamped",
    "Verif.FloatInt.C117_clamped_special",
    "Verif.FloatInt.C117_round_trip"
   ],
   "note": "Standard integer types, including bool."
  },
  {
   "property": "C118",
   "status": "proved",
   "theorems": [
    "Verif.FloatInt.C118_binary",
    "Verif.FloatInt.C118_exists",
    "Verif.FloatInt.C118_comparison_limit"
   ],
   "note": "Operations of the type (rounding of integers, division, nextafter) are shown to exist."
  },
  {
   "property": "C119",
   "status": "proved",
   "theorems": [
    "Verif.LuInverse.C119_product",
    "Verif.LuInverse.C119_pivots",
    "Verif.LuInverse.C119_partial_pivoting"
   ],
   "note": "Exact arithmetic over any ordered field."
  },
  {
   "property": "C12",
   "status": "partial",
   "theorems": [
    "Verif.Unicode.C12_exhausted_partial",
    "Verif.Unicode.C12_incomplete_partial",
    "Verif.Unicode.C12_utf16",
    "Verif.Unicode.C12_defect"
   ],
   "note": "The property is false for UTF-8 (C12_defect). Proved: exact meaning of the report, a report of an error is never wrong, an incomplete character is always reported as exhausted; and the property does hold for UTF-16."
  },
  {
   "property": "C120",
   "status": "proved",
   "theorems": [
    "Verif.LuInverse.C120_det",
    "Verif.LuInverse.C120_product"
   ],
   "note": "Exact arithmetic over any ordered field."
  },
  {
   "property": "C121",
   "status": "proved",
   "theorems": [
    "Verif.LuInverse.C121_inverse",
    "Verif.LuInverse.C121_singular",
    "Verif.LuInverse.C121_complete",
    "Verif.LuInverse.C121_inv",
    "Verif.LuInverse.C121_inv_eq"
   ],
   "note": "Exact arithmetic over any ordered field."
  },
  {
   "property": "C122",
   "status": "proved",
   "theorems": [
    "Verif.LuInverse.C122_mirror",
    "Verif.LuInverse.C122_upper_inverse",
    "Verif.LuInverse.C122_lower_inverse",
    "Verif.LuInverse.C122_upper_singular",
    "Verif.LuInverse.C122_lower_singular",
    "Verif.LuInverse.C122_upper_unmodified",
    "Verif.LuInverse.C122_lower_unmodified",
    "Verif.LuInverse.C122_upper_unread",
    "Verif.LuInverse.C122_lower_unread"
   ],
   "note": "Exact arithmetic over any ordered field."
  },
  {
   "property": "C123",
   "status": "partial",
   "theorems": [
    "Verif.KeyBindings.Props.C123_up_follows_down",
    "Verif.KeyBindings.Props.C123_down_followed_by_up_partial",
    "Verif.KeyBindings.Props.C123_bind_while_pressed",
    "Verif.KeyBindings.Props.C123_defined"
   ],
   "note": "Up follows down, and absence of undefined behavior, are proved without restriction. Down followed by up is proved under the condition that the key is not bound after setup; it is false when a key is bound while it is pressed (C123_bind_while_pressed)."
  },
  {
   "property": "C124",
   "status": "proved",
   "theorems": [
    "Verif.KeyBindings.Props.C124_taps",
    "Verif.KeyBindings.Props.C124_unbound"
   ],
   "note": "Handlers that do not themselves bind keys."
  },
  {
   "property": "C125",
   "status": "partial",
   "theorems": [
    "Verif.KeyBindings.Props.C125_blur_partial",
    "Verif.KeyBindings.Props.C125_resume_idle",
    "Verif.KeyBindings.Props.C125_defined_partial",
    "Verif.KeyBindings.Props.C125_bind_while_blur"
   ],
   "note": "Proved for handlers that do not bind keys. For handlers that bind a new key, behavior is undefined (C125_bind_while_blur)."
  },
  {
   "property": "C126",
   "status": "partial",
   "theorems": [
    "Verif.KeyBindings.Props.C126_single_partial",
    "Verif.KeyBindings.Props.C126_bit",
    "Verif.KeyBindings.Props.C126_never_composed",
    "Verif.KeyBindings.Props.C126_composed_fails",
    "Verif.KeyBindings.Props.C126_both_sides_fails",
    "Verif.KeyBindings.Props.C126_stuck"
   ],
   "note": "Proved when a modifier key is pressed only while no other modifier key is pressed. False otherwise: composed modes never come into effect (C126_never_composed, C126_composed_fails, C126_both_sides_fails), and the shift mode can become stuck (C126_stuck)."
  },
  {
   "property": "C127",
   "status": "proved",
   "theorems": [
    "Verif.Rotation.C127_arithmetic",
    "Verif.Rotation.C127_faithful",
    "Verif.Rotation.C127_inverse",
    "Verif.Rotation.C127_conjugate",
    "Verif.Rotation.C127_length"
   ],
   "note": "Exact real arithmetic; the reference is Mathlib's quaternions."
  },
  {
   "property": "C128",
   "status": "proved",
   "theorems": [
    "Verif.Rotation.C128_rotation",
    "Verif.Rotation.C128_cos_angle",
    "Verif.Rotation.C128_matrix",
    "Verif.Rotation.C128_matrix_proper",
    "Verif.Rotation.C128_matrix_mul",
    "Verif.Rotation.C128_euler_angles",
    "Verif.Rotation.C128_spec"
   ],
   "note": "Exact real arithmetic; the reference is Rodrigues' rotation formula."
  },
  {
   "property": "C129",
   "status": "partial",
   "theorems": [
    "Verif.Rotation.C129_range",
    "Verif.Rotation.C129_same_rotation",
    "Verif.Rotation.C129_to_from",
    "Verif.Rotation.C129_from_to",
    "Verif.Rotation.C129_not_clamped",
    "Verif.Rotation.C129_periodic_partial"
   ],
   "note": "The angle is not clamped as documented (C129_not_clamped); everything else is proved."
  },
  {
   "property": "C13",
   "status": "proved",
   "theorems": [
    "Verif.Deque.C13_step",
    "Verif.Deque.C13_history",
    "Verif.Deque.C13_destroy",
    "Verif.Deque.C13_moveAssign"
   ],
   "note": "for element types with a non-throwing move constructor"
  },
  {
   "property": "C130",
   "status": "proved",
   "theorems": [
    "Verif.Rotation.C130_add",
    "Verif.Rotation.C130_neg",
    "Verif.Rotation.C130_sub",
    "Verif.Rotation.C130_scale",
    "Verif.Rotation.C130_not_commutative"
   ],
   "note": "Exact real arithmetic."
  },
  {
   "property": "C131",
   "status": "partial",
   "theorems": [
    "Verif.Trackball.C131_ball_point",
    "Verif.Trackball.C131_radii",
    "Verif.Trackball.C131_follow_partial",
    "Verif.Trackball.C131_opposite",
    "Verif.Trackball.C131_opposite_example"
   ],
   "note": "The trackball does not follow when the mouse is moved to the opposite side (C131_opposite); everything else is proved."
  },
  {
   "property": "C132",
   "status": "proved",
   "theorems": [
    "Verif.Trackball.C132_no_effect",
    "Verif.Trackball.C132_acquire",
    "Verif.Trackball.C132_first_track",
    "Verif.Trackball.C132_set_orientation",
    "Verif.Trackball.C132_set_spin"
   ],
   "note": "For all reachable states."
  },
  {
   "property": "C133",
   "status": "partial",
   "theorems": [
    "Verif.Trackball.C133_release_partial",
    "Verif.Trackball.C133_no_events",
    "Verif.Trackball.C133_lost"
   ],
   "note": "False when the trackball is released in the same millisecond as it was acquired (C133_lost), and when the movement is to the opposite side of the ball."
  },
  {
   "property": "C134",
   "status": "partial",
   "theorems": [
    "Verif.Trackball.C134_sequence",
    "Verif.Trackball.C134_interpolation",
    "Verif.Trackball.C134_window_partial",
    "Verif.Trackball.C134_window_too_short"
   ],
   "note": "The memory can be one millisecond too short (C134_window_too_short)."
  },
  {
   "property": "C135",
   "status": "proved",
   "theorems": [
    "Verif.PerspectProj.C135_viewport_meters",
    "Verif.PerspectProj.C135_viewport_pixels",
    "Verif.PerspectProj.C135_resolution"
   ],
   "note": "Exact arithmetic."
  },
  {
   "property": "C136",
   "status": "proved",
   "theorems": [
    "Verif.PerspectProj.C136_fields",
    "Verif.PerspectProj.C136_angle",
    "Verif.PerspectProj.C136_set_angle",
    "Verif.PerspectProj.C136_clip"
   ],
   "note": "Exact arithmetic."
  },
  {
   "property": "C137",
   "status": "partial",
   "theorems": [
    "Verif.PerspectProj.C137_solid_angle_partial",
    "Verif.PerspectProj.C137_actual",
    "Verif.PerspectProj.C137_wrong",
    "Verif.PerspectProj.C137_set_get"
   ],
   "note": "The reported solid angle is the actual one only when the mean field of view is 2; for default parameters it is wrong. The round trip of setter and getter is proved."
  },
  {
   "property": "C138",
   "status": "partial",
   "theorems": [
    "Verif.PerspectProj.C138_auto_zoom",
    "Verif.PerspectProj.C138_auto_dist_neutral",
    "Verif.PerspectProj.C138_auto_dist_partial",
    "Verif.PerspectProj.C138_auto_dist_wrong",
    "Verif.PerspectProj.C138_min_field_factor"
   ],
   "note": "Holds for adjustment of zoom factor. Adjustment of distance is right exactly when the zoom factor is one, because a local variable hides the data member."
  },
  {
   "property": "C139",
   "status": "proved",
   "theorems": [
    "Verif.Perlin.C139_num_gradients",
    "Verif.Perlin.C139_layout",
    "Verif.Perlin.C139_access"
   ],
   "note": "Any number of dimensions."
  },
  {
   "property": "C14",
   "status": "partial",
   "theorems": [
    "Verif.Deque.C14_erase_partial",
    "Verif.Deque.C14_erase_exact",
    "Verif.Deque.C14_eraseOne",
    "Verif.Deque.C14_contiguous",
    "Verif.Deque.C14_erase_defect_front",
    "Verif.Deque.C14_erase_defect_back"
   ],
   "note": "the claim is false in the code: erasure has undefined behavior exactly when WrapHazard holds; correct otherwise"
  },
  {
   "property": "C140",
   "status": "proved",
   "theorems": [
    "Verif.Perlin.C140_value",
    "Verif.Perlin.C140_continuous",
    "Verif.Perlin.C140_vertex",
    "Verif.Perlin.C140_local",
    "Verif.Perlin.C140_amplitude",
    "Verif.Perlin.C140_amplitude_attained",
    "Verif.Perlin.C140_range",
    "Verif.Perlin.C140_documented_amplitude"
   ],
   "note": "Exact arithmetic; any number of dimensions and interpolation scheme. Documented amplitude is wrong, returned amplitude is right."
  },
  {
   "property": "C141",
   "status": "partial",
   "theorems": [
    "Verif.Histogram.C141_counts_partial",
    "Verif.Histogram.C141_undefined",
    "Verif.Histogram.C141_undefined_witness",
    "Verif.Histogram.C141_upper_end",
    "Verif.Histogram.C141_total"
   ],
   "note": "Exact counts when no value is so far above the range that the conversion to an integer is undefined (C141_undefined states exactly when). A value equal to the upper end of the range is counted as over, contrary to the documentation (C141_upper_end)."
  },
  {
   "property": "C142",
   "status": "partial",
   "theorems": [
    "Verif.Histogram.C142_lines_partial",
    "Verif.Histogram.C142_texts",
    "Verif.Histogram.C142_empty",
    "Verif.Histogram.C142_nonempty"
   ],
   "note": "Proved for all histograms with at least one value. Printing a histogram without values is undefined behavior (C142_empty)."
  },
  {
   "property": "C143",
   "status": "proved",
   "theorems": [
    "Verif.Edid.C143_accept",
    "Verif.Edid.C143_result",
    "Verif.Edid.C143_base_block"
   ],
   "note": "Full statement. The transcoder from the specified character set to the local one is an arbitrary function."
  },
  {
   "property": "C144",
   "status": "partial",
   "theorems": [
    "Verif.AsList.C144_format_partial",
    "Verif.AsList.C144_loose_empty",
    "Verif.AsList.C144_parse_partial",
    "Verif.AsList.C144_empty",
    "Verif.AsList.C144_round_trip_partial",
    "Verif.AsList.C144_empty_bracketed"
   ],
   "note": "Proved except for the empty sequence in brackets: in loose mode, its format is not as documented (C144_loose_empty), and it can never be parsed (C144_empty_bracketed)."
  },
  {
   "property": "C145",
   "status": "partial",
   "theorems": [
    "Verif.AsList.C145_longest",
    "Verif.AsList.C145_round_trip",
    "Verif.AsList.C145_minimum_not_enforced"
   ],
   "note": "Maximality and round trip proved in full. The minimum number of elements is not enforced when parsing (C145_minimum_not_enforced)."
  },
  {
   "property": "C146",
   "status": "partial",
   "theorems": [
    "Verif.AsList.C146_round_trip_partial",
    "Verif.AsList.C146_parse",
    "Verif.AsList.C146_empty"
   ],
   "note": "Proved for nonempty prefixes. The empty prefix does not survive the round trip (C146_empty)."
  },
  {
   "property": "C147",
   "status": "partial",
   "theorems": [
    "Verif.Log.C147_log_partial",
    "Verif.Log.C147_log_untied",
    "Verif.Log.C147_prefix_order",
    "Verif.Log.C147_limit_on_unmatched_channel"
   ],
   "note": "Full for loggers whose limit is that of the selected channel. C147_limit_on_unmatched_channel is a witness that the statement fails for a limit logger whose pattern does not match the selected channel."
  },
  {
   "property": "C148",
   "status": "partial",
   "theorems": [
    "Verif.Log.C148_will_log",
    "Verif.Log.C148_will_log_necessary",
    "Verif.Log.C148_open_route",
    "Verif.Log.C148_limit_partial",
    "Verif.Log.C148_nested_limits",
    "Verif.Log.C148_set_variable_limit",
    "Verif.Log.C148_set_fixed_limit"
   ],
   "note": "Full when the pattern matches the selected channel. C148_nested_limits shows that will_log() is not sufficient with nested limits, and C148_set_variable_limit that a variable limit cannot be changed with assertions enabled."
  },
  {
   "property": "C149",
   "status": "proved",
   "theorems": [
    "Verif.Log.C149_lines",
    "Verif.Log.C149_all_messages"
   ],
   "note": "All messages, because every message is a nonempty sequence of lines (C149_all_messages)."
  },
  {
   "property": "C15",
   "status": "partial",
   "theorems": [
    "Verif.Buffer.C15_buffer_partial",
    "Verif.Buffer.C15_buffer_defect",
    "Verif.Vector.C15_vector",
    "Verif.Deque.C15_deque"
   ],
   "note": "full for vector and deque; false for Buffer (accepts index equal to size)"
  },
  {
   "property": "C150",
   "status": "proved",
   "theorems": [
    "Verif.Log.C150_channels",
    "Verif.Log.C150_select",
    "Verif.Log.C150_limit",
    "Verif.Log.C150_channel_logger",
    "Verif.Log.C150_duplicating_logger"
   ],
   "note": "Both directions for selection, limit loggers, and duplicating loggers."
  },
  {
   "property": "C151",
   "status": "partial",
   "theorems": [
    "Verif.Log.C151_encoding",
    "Verif.Log.C151_channel_logger_same_partial",
    "Verif.Log.C151_prefix_order_inverted"
   ],
   "note": "C151_prefix_order_inverted is a witness that a channel logger without additional channels does change the order of prefixes when there is an encoding logger below."
  },
  {
   "property": "C152",
   "status": "proved",
   "theorems": [
    "Verif.TextFile.C152_execution",
    "Verif.TextFile.C152_execution_unbuffered",
    "Verif.TextFile.C152_execution_any"
   ],
   "note": "With and without buffering, and for any conforming implementation. Degenerate character codec."
  },
  {
   "property": "C153",
   "status": "proved",
   "theorems": [
    "Verif.TextFile.C153_flush"
   ],
   "note": "Degenerate character codec."
  },
  {
   "property": "C154",
   "status": "proved",
   "theorems": [
    "Verif.TextFile.C154_read_all",
    "Verif.TextFile.C154_save_load"
   ],
   "note": "Degenerate character codec."
  },
  {
   "property": "C155",
   "status": "partial",
   "theorems": [
    "Verif.TextFile.C155_retry_partial",
    "Verif.TextFile.C155_retry_duplicates"
   ],
   "note": "Proved for a degenerate character codec. C155_retry_duplicates is a witness that it fails with a genuine character codec."
  },
  {
   "property": "C156",
   "status": "partial",
   "theorems": [
    "Verif.TextFile.C156_reopen_partial",
    "Verif.TextFile.C156_reopen_after_write"
   ],
   "note": "Proved when nothing was written and not flushed. C156_reopen_after_write is a witness that it fails otherwise."
  },
  {
   "property": "C157",
   "status": "proved",
   "theorems": [
    "Verif.Streams.C157_file_source",
    "Verif.Streams.C157_buffered_file_source",
    "Verif.Streams.C157_try_read",
    "Verif.Streams.C157_same"
   ],
   "note": "File sources and buffered file sources, arbitrary failures and short transfers."
  },
  {
   "property": "C158",
   "status": "proved",
   "theorems": [
    "Verif.Streams.C158_rewind",
    "Verif.Streams.C158_rewind_file",
    "Verif.Streams.C158_rewind_buffered_file",
    "Verif.Streams.C158_release",
    "Verif.Streams.C158_reread",
    "Verif.Streams.C158_rewind_after_release"
   ],
   "note": "For all conforming underlying sources."
  },
  {
   "property": "C159",
   "status": "proved",
   "theorems": [
    "Verif.Streams.C159_buffered_file_sink",
    "Verif.Streams.C159_file_sink"
   ],
   "note": "Arbitrary failures and short transfers."
  },
  {
   "property": "C16",
   "status": "proved",
   "theorems": [
    "Verif.Buffer.C16_suggest",
    "Verif.Buffer.C16_amortized"
   ],
   "note": "Reallocations counted over any sequence of single-element appends: at most 2 + log base 4/3 of the number of elements."
  },
  {
   "property": "C160",
   "status": "proved",
   "theorems": [
    "Verif.ImageFormat.C160_lookup",
    "Verif.ImageFormat.C160_find",
    "Verif.ImageFormat.C160_having"
   ],
   "note": "Histories of registrations; if identifiers are not unique, the first one is found."
  },
  {
   "property": "C161",
   "status": "partial",
   "theorems": [
    "Verif.ImageFormat.C161_register_partial",
    "Verif.ImageFormat.C161_same_format_accepted",
    "Verif.ImageFormat.C161_duplicate_accepted"
   ],
   "note": "False in the code: duplicates are never rejected because the wrong component of the result of emplace() is used. Success in the absence of duplicates is proved, and the acceptance of duplicates is proved."
  },
  {
   "property": "C162",
   "status": "proved",
   "theorems": [
    "Verif.ImageFormat.C162_detection",
    "Verif.ImageFormat.C162_candidates",
    "Verif.ImageFormat.C162_by_signature",
    "Verif.ImageFormat.C162_signature_required",
    "Verif.ImageFormat.C162_explicit"
   ],
   "note": "For all conforming sources and all recognition and loading procedures."
  },
  {
   "property": "C163",
   "status": "proved",
   "theorems": [
    "Verif.ImageFormat.C163_save",
    "Verif.ImageFormat.C163_save_load"
   ],
   "note": "Choice of format, and agreement with loading."
  },
  {
   "property": "C164",
   "status": "proved",
   "theorems": [
    "Verif.TestRunner.C164_selection",
    "Verif.TestRunner.C164_sorted",
    "Verif.TestRunner.C164_duplicate",
    "Verif.TestRunner.C164_negative",
    "Verif.TestRunner.C164_accounting"
   ],
   "note": "Model of the test runner; see DESIGN.md for what is left out."
  },
  {
   "property": "C165",
   "status": "proved",
   "theorems": [
    "Verif.TestRunner.C165_exactly_once",
    "Verif.TestRunner.C165_at_most_once",
    "Verif.TestRunner.C165_one_at_a_time"
   ],
   "note": "Model of the test runner; see DESIGN.md for what is left out."
  },
  {
   "property": "C166",
   "status": "proved",
   "theorems": [
    "Verif.TestRunner.C166_exclusive",
    "Verif.TestRunner.C166_bounded"
   ],
   "note": "Model of the test runner; see DESIGN.md for what is left out."
  },
  {
   "property": "C167",
   "status": "partial",
   "theorems": [
    "Verif.TestRunner.C167_order_partial",
    "Verif.TestRunner.C167_documented_order_partial",
    "Verif.TestRunner.C167_order_violated"
   ],
   "note": "Holds with one thread, or if all selected tests allow concurrency. Refuted in general: tests that do not allow concurrency are initiated after all the others."
  },
  {
   "property": "C168",
   "status": "partial",
   "theorems": [
    "Verif.TestRunner.C168_summary_partial",
    "Verif.TestRunner.C168_counts_partial",
    "Verif.TestRunner.C168_result_violated"
   ],
   "note": "Holds with one thread, or if all selected tests allow concurrency. Refuted in general: counts from the last testing thread are lost. What is counted in general is stated by C168_counts_partial."
  },
  {
   "property": "C169",
   "status": "partial",
   "theorems": [
    "Verif.TestRunner.C169_root",
    "Verif.TestRunner.C169_complete",
    "Verif.TestRunner.C169_begin_first",
    "Verif.TestRunner.C169_end_last_partial",
    "Verif.TestRunner.C169_end_violated"
   ],
   "note": "Holds unless there is only one test execution, which is executed concurrently; thread_end() is then invoked twice."
  },
  {
   "property": "C17",
   "status": "proved",
   "theorems": [
    "Verif.Vector.C17_step",
    "Verif.Vector.C17_history",
    "Verif.Vector.C17_destroy",
    "Verif.Vector.C17_moveConstruct",
    "Verif.Vector.C17_moveAssign",
    "Verif.Vector.C17_appendInput"
   ],
   "note": "for element types with a non-throwing move constructor"
  },
  {
   "property": "C170",
   "status": "proved",
   "theorems": [
    "Verif.TestRunner.C170_seed",
    "Verif.TestRunner.C170_location",
    "Verif.TestRunner.C170_check_location"
   ],
   "note": "Model of the test runner; see DESIGN.md for what is left out."
  },
  {
   "property": "C171",
   "status": "proved",
   "theorems": [
    "Verif.TestRunner.C171_abort"
   ],
   "note": "Model of the test runner; see DESIGN.md for what is left out."
  },
  {
   "property": "C172",
   "status": "proved",
   "theorems": [
    "Verif.TestRunner.C172_no_deadlock",
    "Verif.TestRunner.C172_bounded",
    "Verif.TestRunner.C172_completes"
   ],
   "note": "Model of the test runner; see DESIGN.md for what is left out."
  },
  {
   "property": "C173",
   "status": "proved",
   "theorems": [
    "Verif.TestRunner.C173_ensure_subdir",
    "Verif.TestRunner.C173_parents_first"
   ],
   "note": "Model of the test runner; see DESIGN.md for what is left out."
  },
  {
   "property": "C174",
   "status": "partial",
   "theorems": [
    "Verif.XmlReport.C174_no_special",
    "Verif.XmlReport.C174_read_back_partial",
    "Verif.XmlReport.C174_injective",
    "Verif.XmlReport.C174_read_back_violated"
   ],
   "note": "Reading back requires absence of control characters; violation is proved (DESIGN finding 86)."
  },
  {
   "property": "C175",
   "status": "partial",
   "theorems": [
    "Verif.XmlReport.C175_report_partial",
    "Verif.XmlReport.C175_dangling",
    "Verif.XmlReport.C175_path_not_escaped",
    "Verif.XmlReport.C175_names"
   ],
   "note": "Requires failures located in the files of their tests, and paths without special characters; violations are proved (DESIGN findings 84 and 85)."
  },
  {
   "property": "C176",
   "status": "proved",
   "theorems": [
    "Verif.VisualSelect.C176_strict_weak_order",
    "Verif.VisualSelect.C176_find",
    "Verif.VisualSelect.C176_find_all",
    "Verif.VisualSelect.C176_first"
   ],
   "note": "Holds for all lists of visuals and all parameters."
  },
  {
   "property": "C177",
   "status": "proved",
   "theorems": [
    "Verif.VisualSelect.C177_default_visual",
    "Verif.VisualSelect.C177_default_depth",
    "Verif.VisualSelect.C177_class"
   ],
   "note": "Holds for all lists of visuals and all parameters."
  },
  {
   "property": "C178",
   "status": "proved",
   "theorems": [
    "Verif.Colormap.C178_masks"
   ],
   "note": "Holds for all masks."
  },
  {
   "property": "C179",
   "status": "proved",
   "theorems": [
    "Verif.Colormap.C179_unpack_pack",
    "Verif.Colormap.C179_pack_unpack",
    "Verif.Colormap.C179_permuted"
   ],
   "note": "Any number of fields, and any size of the compound type. The requirements on field specifications and permutations are hypotheses."
  },
  {
   "property": "C18",
   "status": "partial",
   "theorems": [
    "Verif.Vector.C18_resize_partial",
    "Verif.Vector.C18_resize_leak",
    "Verif.Vector.C18_resize_defect"
   ],
   "note": "the claim is false in the code: growing a non-empty vector appends too many objects"
  },
  {
   "property": "C180",
   "status": "proved",
   "theorems": [
    "Verif.Colormap.C180_one_to_one",
    "Verif.Colormap.C180_complete"
   ],
   "note": "For color visuals."
  },
  {
   "property": "C181",
   "status": "partial",
   "theorems": [
    "Verif.Colormap.C181_pseudocolor_partial",
    "Verif.Colormap.C181_grayscale_partial",
    "Verif.Colormap.C181_standard_partial",
    "Verif.Colormap.C181_beyond_256",
    "Verif.Colormap.C181_offset_violated",
    "Verif.Colormap.C181_single_level"
   ],
   "note": "Proved for a section that begins at zero, with at least two levels per channel, when at most 256 entries are to be initialized. Otherwise the code does not do what is claimed: C181_beyond_256, C181_offset_violated, C181_single_level."
  },
  {
   "property": "C182",
   "status": "proved",
   "theorems": [
    "Verif.Colormap.C182_directcolor",
    "Verif.Colormap.C182_defined"
   ],
   "note": "For disjoint fields; conversion of bit width is a parameter."
  },
  {
   "property": "C183",
   "status": "partial",
   "theorems": [
    "Verif.Colormap.C183_intern_partial",
    "Verif.Colormap.C183_intern_violated"
   ],
   "note": "Agreement if, and only if the offset is zero. C183_intern_violated is a counterexample."
  },
  {
   "property": "C184",
   "status": "partial",
   "theorems": [
    "Verif.Colormap.C184_success",
    "Verif.Colormap.C184_failure_partial",
    "Verif.Colormap.C184_violated"
   ],
   "note": "The success case is proved. In the failure case, the wrong pixel values are released unless they happen to be 0, 1, and so on (C184_violated)."
  },
  {
   "property": "C185",
   "status": "partial",
   "theorems": [
    "Verif.PaletteMap.C185_lookup",
    "Verif.PaletteMap.C185_move_partial",
    "Verif.PaletteMap.C185_default",
    "Verif.PaletteMap.C185_moved_from",
    "Verif.PaletteMap.C185_wrong_number",
    "Verif.PaletteMap.C185_move_violated"
   ],
   "note": "Proved for a map that was constructed in place. After a move, only if the target has the same number of channels; C185_move_violated is a counterexample otherwise."
  },
  {
   "property": "C186",
   "status": "partial",
   "theorems": [
    "Verif.PaletteMap.C186_read_partial",
    "Verif.PaletteMap.C186_empty"
   ],
   "note": "Proved for palette images that are not empty and have less than 2^31 pixels. Empty images lead to division by zero (C186_empty)."
  },
  {
   "property": "C187",
   "status": "partial",
   "theorems": [
    "Verif.PaletteMap.C187_no_double_free",
    "Verif.PaletteMap.C187_no_leak_partial",
    "Verif.PaletteMap.C187_leak"
   ],
   "note": "Nothing is released twice. Everything is released if no constructor fails late; otherwise there is a leak (C187_leak)."
  },
  {
   "property": "C188",
   "status": "proved",
   "theorems": [
    "Verif.PixelBlock.C188_accepted",
    "Verif.PixelBlock.C188_make",
    "Verif.PixelBlock.C188_wrap",
    "Verif.PixelBlock.C188_tray",
    "Verif.PixelBlock.C188_cover"
   ],
   "note": "Creation, layout, and coverage of the buffer, for all sizes and integer widths."
  },
  {
   "property": "C189",
   "status": "partial",
   "theorems": [
    "Verif.PixelBlock.C189_one_negative_partial",
    "Verif.PixelBlock.C189_both_negative_accepted",
    "Verif.PixelBlock.C189_negative_and_zero_accepted",
    "Verif.PixelBlock.C189_size_partial"
   ],
   "note": "The claim does not hold: sizes with two negative components, or one negative and one zero, are accepted. Proved: all other negative sizes are rejected."
  },
  {
   "property": "C19",
   "status": "partial",
   "theorems": [
    "Verif.Vector.C19_reserve_partial",
    "Verif.Vector.C19_reserve_defect"
   ],
   "note": "the claim is false in the code: reserve() takes the wanted capacity as an extra capacity"
  },
  {
   "property": "C190",
   "status": "proved",
   "theorems": [
    "Verif.PixelBlock.C190_get_pixel",
    "Verif.PixelBlock.C190_get_index"
   ],
   "note": "Retrieval of pixels and of color indexes."
  },
  {
   "property": "C191",
   "status": "proved",
   "theorems": [
    "Verif.PixelBlock.C191_size",
    "Verif.PixelBlock.C191_whole",
    "Verif.PixelBlock.C191_read",
    "Verif.PixelBlock.C191_write",
    "Verif.PixelBlock.C191_fill",
    "Verif.PixelBlock.C191_outside"
   ],
   "note": "Size, read, write, fill, and rejection of access outside the image."
  },
  {
   "property": "C192",
   "status": "proved",
   "theorems": [
    "Verif.TextCodec.C192_operation_exists",
    "Verif.TextCodec.C192_full_exists_unique",
    "Verif.TextCodec.C192_loop",
    "Verif.TextCodec.C192_unshift",
    "Verif.TextCodec.C192_copy"
   ],
   "note": "Loops of encoders and decoders of text codecs that use a character codec only, for any codec that meets the stated contract."
  },
  {
   "property": "C193",
   "status": "proved",
   "theorems": [
    "Verif.TextCodec.C193_encode",
    "Verif.TextCodec.C193_decode",
    "Verif.TextCodec.C193_steps",
    "Verif.TextCodec.C193_round_trip"
   ],
   "note": "Translation of newlines in text codecs with an identity character codec."
  },
  {
   "property": "C194",
   "status": "proved",
   "theorems": [
    "Verif.TextCodec.C194_encode",
    "Verif.TextCodec.C194_unshift"
   ],
   "note": "Encoder of text codecs that combine a character codec with newline translation."
  },
  {
   "property": "C195",
   "status": "proved",
   "theorems": [
    "Verif.TextCodec.C195_decode",
    "Verif.TextCodec.C195_pieces"
   ],
   "note": "Decoder of text codecs that combine a character codec with newline translation."
  },
  {
   "property": "C196",
   "status": "proved",
   "theorems": [
    "Verif.PixelSize.C196_format",
    "Verif.PixelSize.C196_format_succeeds",
    "Verif.PixelSize.C196_parse",
    "Verif.PixelSize.C196_round_trip"
   ],
   "note": "Formatting and parsing of sizes."
  },
  {
   "property": "C197",
   "status": "proved",
   "theorems": [
    "Verif.PixelSize.C197_format",
    "Verif.PixelSize.C197_parse",
    "Verif.PixelSize.C197_round_trip"
   ],
   "note": "Formatting and parsing of positions."
  },
  {
   "property": "C198",
   "status": "proved",
   "theorems": [
    "Verif.PixelSize.C198_compare_sizes",
    "Verif.PixelSize.C198_compare_positions",
    "Verif.PixelSize.C198_strict_total",
    "Verif.PixelSize.C198_boxes",
    "Verif.PixelSize.C198_can_add",
    "Verif.PixelSize.C198_inverse",
    "Verif.PixelSize.C198_arithmetic"
   ],
   "note": "Comparison, containment, and arithmetic of sizes and positions."
  },
  {
   "property": "C199",
   "status": "partial",
   "theorems": [
    "Verif.PixelSize.C199_divide_partial",
    "Verif.PixelSize.C199_negative_rounds_up"
   ],
   "note": "Division rounds down for non-negative sizes and positive divisors only. Negative components are rounded up, contrary to the documentation."
  },
  {
   "property": "C20",
   "status": "proved",
   "theorems": [
    "Verif.Integer.C20_add",
    "Verif.Integer.C20_sub",
    "Verif.Integer.C20_mul"
   ],
   "note": "All pairs of built-in integer types, any width."
  },
  {
   "property": "C200",
   "status": "proved",
   "theorems": [
    "Verif.AsInt.C200_format",
    "Verif.AsInt.C200_parse",
    "Verif.AsInt.C200_round_trip",
    "Verif.AsInt.C200_unique"
   ],
   "note": "Formatting and parsing of flexible integers."
  },
  {
   "property": "C201",
   "status": "proved",
   "theorems": [
    "Verif.AsInt.C201_not_good",
    "Verif.AsInt.C201_blank",
    "Verif.AsInt.C201_extract",
    "Verif.AsInt.C201_unique"
   ],
   "note": "Extraction of an integer from an input stream."
  },
  {
   "property": "C202",
   "status": "proved",
   "theorems": [
    "Verif.AsInt.C202_round_trip",
    "Verif.AsInt.C202_sequence"
   ],
   "note": "Round trip through a stream for one integer, and for a sequence of integers."
  },
  {
   "property": "C203",
   "status": "proved",
   "theorems": [
    "Verif.TestPath.C203_path",
    "Verif.TestPath.C203_distinct",
    "Verif.TestPath.C203_disjoint"
   ],
   "note": "Paths of test files."
  },
  {
   "property": "C204",
   "status": "proved",
   "theorems": [
    "Verif.TestPath.C204_fresh",
    "Verif.TestPath.C204_removed",
    "Verif.TestPath.C204_nothing_left",
    "Verif.TestPath.C204_move",
    "Verif.TestPath.C204_same_name"
   ],
   "note": "Guards of test files. C204_same_name shows what happens when two guards have the same path."
  },
  {
   "property": "C205",
   "status": "proved",
   "theorems": [
    "Verif.TextParser.C205_outcome",
    "Verif.TextParser.C205_accepts"
   ],
   "note": "Fields without a condition; the value parser is a parameter."
  },
  {
   "property": "C206",
   "status": "proved",
   "theorems": [
    "Verif.TextParser.C206_outcome",
    "Verif.TextParser.C206_accepts"
   ],
   "note": "Fields without a condition; the value parser is a parameter."
  },
  {
   "property": "C207",
   "status": "proved",
   "theorems": [
    "Verif.Terminal.C207_equal",
    "Verif.Terminal.C207_switch",
    "Verif.Terminal.C207_nothing"
   ],
   "note": "For terminals where bold and faint exclude each other. See C208 for other terminals."
  },
  {
   "property": "C208",
   "status": "partial",
   "theorems": [
    "Verif.Terminal.C208_switch_partial",
    "Verif.Terminal.C208_bold_to_faint"
   ],
   "note": "Fails between bold and faint, as the old weight is not turned off; a witness is proved. Proved for all other pairs of styles."
  },
  {
   "property": "C209",
   "status": "proved",
   "theorems": [
    "Verif.Terminal.C209_single",
    "Verif.Terminal.C209_reset",
    "Verif.Terminal.C209_fits"
   ],
   "note": "Sequences are interpreted by the terminal that is part of the specification."
  },
  {
   "property": "C21",
   "status": "proved",
   "theorems": [
    "Verif.Integer.C21_compare",
    "Verif.Integer.C21_cast",
    "Verif.Integer.C21_clamp"
   ],
   "note": "All pairs of built-in integer types."
  },
  {
   "property": "C210",
   "status": "proved",
   "theorems": [
    "Verif.Terminal.C210_shortest"
   ],
   "note": "Among sequences that select graphic rendition, in terminals where bold and faint exclude each other."
  },
  {
   "property": "C211",
   "status": "proved",
   "theorems": [
    "Verif.Enum.C211_accepted",
    "Verif.Enum.C211_rejected",
    "Verif.Enum.C211_name",
    "Verif.Enum.C211_parse",
    "Verif.Enum.C211_inverse"
   ],
   "note": "Case conversion is that of the classic locale."
  },
  {
   "property": "C212",
   "status": "proved",
   "theorems": [
    "Verif.Enum.C212_not_good",
    "Verif.Enum.C212_read",
    "Verif.Enum.C212_round_trip",
    "Verif.Enum.C212_no_name",
    "Verif.Enum.C212_hyphen"
   ],
   "note": "Reading back is for names that consist of letters, digits, and underscores; a witness shows that others cannot be read back."
  },
  {
   "property": "C213",
   "status": "proved",
   "theorems": [
    "Verif.FallbackFont.C213_accepted",
    "Verif.FallbackFont.C213_glyphs_exist",
    "Verif.FallbackFont.C213_negative_size"
   ],
   "note": "Lines are given with what the text parser makes of them. Glyphs of negative size are accepted too; a witness is proved."
  },
  {
   "property": "C214",
   "status": "proved",
   "theorems": [
    "Verif.FallbackFont.C214_render",
    "Verif.FallbackFont.C214_overflow",
    "Verif.FallbackFont.C214_unchecked_top"
   ],
   "note": "The position must be representable and not be the least integer. The upper edge of the glyph is computed without check; a witness is proved."
  },
  {
   "property": "C215",
   "status": "proved",
   "theorems": [
    "Verif.FormatAs.C215_ordinal"
   ],
   "note": "For all integers."
  },
  {
   "property": "C216",
   "status": "partial",
   "theorems": [
    "Verif.FormatAs.C216_time_partial",
    "Verif.FormatAs.C216_boundaries"
   ],
   "note": "The boundaries are half a minute and half a second lower than documented; witnesses are proved. Exact arithmetic."
  },
  {
   "property": "C217",
   "status": "proved",
   "theorems": [
    "Verif.FormatAs.C217_quant",
    "Verif.FormatAs.C217_zero",
    "Verif.FormatAs.C217_unit"
   ],
   "note": "Exact arithmetic. Zero is given with the prefix for the lowest power; a witness is proved."
  },
  {
   "property": "C218",
   "status": "partial",
   "theorems": [
    "Verif.FormatAs.C218_quant",
    "Verif.FormatAs.C218_byte_size_partial",
    "Verif.FormatAs.C218_boundary"
   ],
   "note": "Exact arithmetic. Amounts of memory from 999.5 to 1024 are shown as a quantity, contrary to the documentation; a witness is proved."
  },
  {
   "property": "C219",
   "status": "proved",
   "theorems": [
    "Verif.FormatAs.C219_jump",
    "Verif.FormatAs.C219_decimals",
    "Verif.FormatAs.C219_exact",
    "Verif.FormatAs.C219_negative"
   ],
   "note": "With rounding of the product to a nearest number with 53 significant bits."
  },
  {
   "property": "C22",
   "status": "partial",
   "theorems": [
    "Verif.Integer.C22_partial",
    "Verif.Integer.C22_defect",
    "Verif.Integer.C22_unchecked"
   ],
   "note": "False for narrowing between unsigned types whose source type promotes to int: C22_defect characterises exactly what the code does there (negative numbers always rejected). Proved for all other type pairs. bool excluded."
  },
  {
   "property": "C220",
   "status": "proved",
   "theorems": [
    "Verif.Timer.C220_elapsed",
    "Verif.Timer.C220_nonnegative",
    "Verif.Timer.C220_monotone"
   ],
   "note": "With exact conversion to floating-point. For systems with clock_gettime()."
  },
  {
   "property": "C221",
   "status": "proved",
   "theorems": [
    "Verif.Format.C221_valid",
    "Verif.Format.C221_only_valid",
    "Verif.Format.C221_invalid",
    "Verif.Format.C221_escape",
    "Verif.Format.C221_alt",
    "Verif.Format.C221_formatted"
   ],
   "note": "A parameter is its string representation."
  },
  {
   "property": "C222",
   "status": "proved",
   "theorems": [
    "Verif.CodePoint.C222_from_int",
    "Verif.CodePoint.C222_from_char",
    "Verif.CodePoint.C222_to_char",
    "Verif.CodePoint.C222_parse",
    "Verif.CodePoint.C222_round_trip"
   ],
   "note": "All of the claim, for all widths of the character type."
  },
  {
   "property": "C223",
   "status": "proved",
   "theorems": [
    "Verif.CodePoint.C223_parse",
    "Verif.CodePoint.C223_format",
    "Verif.CodePoint.C223_round_trip"
   ],
   "note": "All of the claim. A range whose first code point is greater than its last one is written as the first one, so it is not recovered."
  },
  {
   "property": "C224",
   "status": "proved",
   "theorems": [
    "Verif.StrideIter.C224_move",
    "Verif.StrideIter.C224_postfix",
    "Verif.StrideIter.C224_access",
    "Verif.StrideIter.C224_compare"
   ],
   "note": "All of the claim, for underlying iterators of class type."
  },
  {
   "property": "C225",
   "status": "partial",
   "theorems": [
    "Verif.StrideIter.C225_distance_partial",
    "Verif.StrideIter.C225_unit_stride",
    "Verif.StrideIter.C225_negative"
   ],
   "note": "False as stated: C225_negative shows that a negative difference is always wrong if the stride is greater than one. Proved when the difference is not negative, and when the stride is one."
  },
  {
   "property": "C226",
   "status": "proved",
   "theorems": [
    "Verif.InexactCompare.C226_trichotomy",
    "Verif.InexactCompare.C226_equality",
    "Verif.InexactCompare.C226_order",
    "Verif.InexactCompare.C226_tolerance",
    "Verif.InexactCompare.C226_exact",
    "Verif.InexactCompare.C226_scale",
    "Verif.InexactCompare.C226_not_transitive"
   ],
   "note": "All of the claim, for finite numbers. Approximate equality is not transitive (C226_not_transitive)."
  },
  {
   "property": "C23",
   "status": "proved",
   "theorems": [
    "Verif.Integer.C23_round_up",
    "Verif.Integer.C23_round_half_down"
   ],
   "note": ""
  },
  {
   "property": "C24",
   "status": "proved",
   "theorems": [
    "Verif.Integer.C24_pow",
    "Verif.Integer.C24_sqrt"
   ],
   "note": "Square root assumes int has at least 15 value bits (guaranteed by C++)."
  },
  {
   "property": "C25",
   "status": "proved",
   "theorems": [
    "Verif.IntText.C25_parse",
    "Verif.IntText.C25_unique"
   ],
   "note": ""
  },
  {
   "property": "C26",
   "status": "proved",
   "theorems": [
    "Verif.IntText.C26_format",
    "Verif.IntText.C26_roundtrip"
   ],
   "note": "Zero formatted with zero minimum digits is the empty string (documented), and is excluded from the round trip."
  },
  {
   "property": "C27",
   "status": "proved",
   "theorems": [
    "Verif.MulPrec.C27_wrap",
    "Verif.MulPrec.C27_value",
    "Verif.MulPrec.C27_add",
    "Verif.MulPrec.C27_sub",
    "Verif.MulPrec.C27_neg",
    "Verif.MulPrec.C27_mul",
    "Verif.MulPrec.C27_exact",
    "Verif.MulPrec.C27_eq",
    "Verif.MulPrec.C27_less",
    "Verif.MulPrec.C27_compare"
   ],
   "note": "Modular arithmetic and comparison for every part width w >= 2 other than the number of value bits of int, and every number of parts."
  },
  {
   "property": "C28",
   "status": "proved",
   "theorems": [
    "Verif.MulPrec.C28_divmod",
    "Verif.MulPrec.C28_identity",
    "Verif.MulPrec.C28_overflow",
    "Verif.MulPrec.C28_zero"
   ],
   "note": "Truncated division for every nonzero divisor, including short and long division with add-back. The least value divided by -1 wraps around; division by zero is undefined behavior."
  },
  {
   "property": "C29",
   "status": "proved",
   "theorems": [
    "Verif.Newline.C29_decode_encode"
   ],
   "note": ""
  },
  {
   "property": "C30",
   "status": "proved",
   "theorems": [
    "Verif.Newline.C30_decode_incremental",
    "Verif.Newline.C30_decode_progress",
    "Verif.Newline.C30_encode_incremental",
    "Verif.Newline.C30_encode_progress"
   ],
   "note": ""
  },
  {
   "property": "C31",
   "status": "proved",
   "theorems": [
    "Verif.Newline.C31_simul_decode"
   ],
   "note": ""
  },
  {
   "property": "C32",
   "status": "proved",
   "theorems": [
    "Verif.FlatMap.C32_flat_map"
   ],
   "note": "Any strict weak order; all histories of insert/assign/erase/clear/at/contains/size; flat_set is the case of trivial values. Vector storage abstracted to its sequence."
  },
  {
   "property": "C33",
   "status": "proved",
   "theorems": [
    "Verif.FlatMap.C33_flat_multimap"
   ],
   "note": "All histories of insert/erase/equal_range/count."
  },
  {
   "property": "C34",
   "status": "proved",
   "theorems": [
    "Verif.RangeMap.C34_update",
    "Verif.RangeMap.C34_defrag"
   ],
   "note": "All histories of update/assign/defrag over an arbitrary key range; no key overflow. std::map is the list of its entries; the update function is pure."
  },
  {
   "property": "C35",
   "status": "partial",
   "theorems": [
    "Verif.FrozenSets.C35_contents_partial",
    "Verif.FrozenSets.C35_safe_partial",
    "Verif.FrozenSets.C35_defect_equal",
    "Verif.FrozenSets.C35_defect_overwrite",
    "Verif.FrozenSets.C35_defect_empty",
    "Verif.FrozenSets.C35_defect_identity"
   ],
   "note": "Immutability and union are proved for all histories in which no two sets with equal contents are united. Uniting equal sets truncates the storage (C35_defect_equal, for every history), and equal sets do not have equal identities (C35_defect_identity)."
  },
  {
   "property": "C36",
   "status": "proved",
   "theorems": [
    "Verif.StringMatcher.C36_match",
    "Verif.StringMatcher.C36_degenerate"
   ],
   "note": "All histories of a builder, all strings; builder operations, build and match never undefined."
  },
  {
   "property": "C37",
   "status": "proved",
   "theorems": [
    "Verif.StringMatcher.C37_ambiguity"
   ],
   "note": "Build without ambiguity fails exactly if some string is matched by two patterns; the patterns reported do match a common string."
  },
  {
   "property": "C38",
   "status": "proved",
   "theorems": [
    "Verif.LiteralHashMap.C38_find",
    "Verif.LiteralHashMap.C38_find_rev",
    "Verif.LiteralHashMap.C38_default_buckets"
   ],
   "note": "Any hash function, any number of buckets >= 1."
  },
  {
   "property": "C39",
   "status": "partial",
   "theorems": [
    "Verif.Fnv.C39_hash_partial",
    "Verif.Fnv.C39_defect",
    "Verif.Fnv.C39_defect_example"
   ],
   "note": "Holds for every sequence of calls, however split, provided that negative integers are of types at least as wide as int. Proved false for every negative value of every narrower type: sign extension bits reach the hash."
  },
  {
   "property": "C40",
   "status": "proved",
   "theorems": [
    "Verif.Timestamp.C40_unwrap",
    "Verif.Timestamp.C40_no_jump",
    "Verif.Timestamp.C40_round",
    "Verif.Timestamp.C40_bound_is_exact"
   ],
   "note": "Any width N >= 1 below the width of the milliseconds type, any clock tick, any history; hypothesis hfit excludes the overflow exception."
  },
  {
   "property": "C41",
   "status": "partial",
   "theorems": [
    "Verif.KdTree.C41_find",
    "Verif.KdTree.C41_nearest_partial",
    "Verif.KdTree.C41_negative_limit"
   ],
   "note": "Proved for limits that are not negative. A negative limit acts like its absolute value (finding 23), shown by C41_negative_limit."
  },
  {
   "property": "C42",
   "status": "proved",
   "theorems": [
    "Verif.KdTree.C42_sort"
   ],
   "note": "For every behaviour of nth_element within its contract; number of points below 2^max_levels, which always holds."
  },
  {
   "property": "C43",
   "status": "proved",
   "theorems": [
    "Verif.HexDump.C43_unlimited",
    "Verif.HexDump.C43_limited",
    "Verif.HexDump.C43_size"
   ],
   "note": "Includes the text of each element (two's complement digits, via the model of the integer formatter). The size limit -1 means no limit, and limits below 3 mean 3, as documented."
  },
  {
   "property": "C44",
   "status": "proved",
   "theorems": [
    "Verif.Quote.C44_quoted",
    "Verif.Quote.C44_smart",
    "Verif.Quote.C44_size",
    "Verif.Quote.C44_context"
   ],
   "note": "The last theorem is a witness that escaping depends on a character that is cut off."
  },
  {
   "property": "C45",
   "status": "proved",
   "theorems": [
    "Verif.Quote.C45_texts",
    "Verif.Quote.C45_complete",
    "Verif.Quote.C45_injective",
    "Verif.Quote.C45_truncated",
    "Verif.Quote.C45_smart",
    "Verif.Quote.C45_minimal"
   ],
   "note": "By a reader of C-style literals that is defined independently."
  },
  {
   "property": "C46",
   "status": "proved",
   "theorems": [
    "Verif.RectPacker.C46_valid",
    "Verif.RectPacker.C46_disjoint",
    "Verif.RectPacker.C46_success",
    "Verif.RectPacker.C46_second_time",
    "Verif.RectPacker.C46_reset"
   ],
   "note": "For spacing and margin that are not negative. C46_success says when packing succeeds or fails for reasons of size. C46_second_time is finding 16."
  },
  {
   "property": "C47",
   "status": "partial",
   "theorems": [
    "Verif.RandomSeed.C47_write",
    "Verif.RandomSeed.C47_read_partial",
    "Verif.RandomSeed.C47_round_trip_partial",
    "Verif.RandomSeed.C47_defect_all_ones",
    "Verif.RandomSeed.C47_accept_partial",
    "Verif.RandomSeed.C47_accept_exact",
    "Verif.RandomSeed.C47_defect_overlong",
    "Verif.RandomSeed.C47_read_total"
   ],
   "note": "The claim is false for seeds with a pair of words of ones only (C47_defect_all_ones) and for texts with further alphanumeric characters after a block (C47_defect_overlong). Everything else is proved: C47_write, C47_read_partial, C47_accept_partial, C47_accept_exact."
  },
  {
   "property": "C48",
   "status": "proved",
   "theorems": [
    "Verif.PixelBox.C48_intersects",
    "Verif.PixelBox.C48_contains",
    "Verif.PixelBox.C48_contains_pixel",
    "Verif.PixelBox.C48_clip",
    "Verif.PixelBox.C48_valid"
   ],
   "note": "All valid boxes. The behavior of intersects is proved to be undefined exactly if the difference of positions is not representable."
  },
  {
   "property": "C49",
   "status": "partial",
   "theorems": [
    "Verif.UnitFrac.C49_value_partial",
    "Verif.UnitFrac.C49_round_trip",
    "Verif.UnitFrac.C49_defect"
   ],
   "note": "Every value and pair of widths, except a target width that is the full width of a signed type, where multiplication is proved to overflow."
  },
  {
   "property": "C50",
   "status": "partial",
   "theorems": [
    "Verif.UnitFrac.C50_nearest",
    "Verif.UnitFrac.C50_agrees_partial",
    "Verif.UnitFrac.C50_defect",
    "Verif.UnitFrac.C50_defect_example",
    "Verif.UnitFrac.C50_ends",
    "Verif.UnitFrac.C50_monotone",
    "Verif.UnitFrac.C50_round_trip"
   ],
   "note": "Everything but agreement with the documented floating-point alternative at ties, which is proved false at every tie."
  },
  {
   "property": "C51",
   "status": "proved",
   "theorems": [
    "Verif.WildcardFilter.C51_filter",
    "Verif.WildcardFilter.C51_several_dashes"
   ],
   "note": "For all filter strings of the documented form; the second theorem covers filters with several dashes."
  },
  {
   "property": "C52",
   "status": "proved",
   "theorems": [
    "Verif.Endianness.C52_detection",
    "Verif.Endianness.C52_other"
   ],
   "note": "Every number of bytes and every assignment of value bytes to memory positions."
  },
  {
   "property": "C53",
   "status": "proved",
   "theorems": [
    "Verif.Newline.C53_clear"
   ],
   "note": ""
  },
  {
   "property": "C54",
   "status": "proved",
   "theorems": [
    "Verif.Integer.C54_periodic_mod"
   ],
   "note": ""
  },
  {
   "property": "C55",
   "status": "proved",
   "theorems": [
    "Verif.Integer.C55_msb_pos",
    "Verif.Integer.C55_num_digits",
    "Verif.Integer.C55_num_digits_unique"
   ],
   "note": "std::countl_zero represented by its specification."
  },
  {
   "property": "C56",
   "status": "proved",
   "theorems": [
    "Verif.Integer.C56_shift_left",
    "Verif.Integer.C56_logic_shift",
    "Verif.Integer.C56_mask",
    "Verif.Integer.C56_is_power_of_two"
   ],
   "note": ""
  },
  {
   "property": "C57",
   "status": "proved",
   "theorems": [
    "Verif.MulPrec.C57_copy",
    "Verif.MulPrec.C57_preserved"
   ],
   "note": "Bit copy between arrays of parts."
  },
  {
   "property": "C58",
   "status": "proved",
   "theorems": [
    "Verif.Buffer.C58_append",
    "Verif.Buffer.C58_append_a",
    "Verif.Buffer.C58_prepend",
    "Verif.Buffer.C58_prepend_a",
    "Verif.Buffer.C58_assign",
    "Verif.Buffer.C58_expand"
   ],
   "note": ""
  },
  {
   "property": "C59",
   "status": "proved",
   "theorems": [
    "Verif.Vector.C59_vector",
    "Verif.Deque.C59_deque"
   ],
   "note": "assign() clears first, and is excluded by the statement"
  },
  {
   "property": "C60",
   "status": "partial",
   "theorems": [
    "Verif.Vector.C60_vector_partial",
    "Verif.Vector.C60_vector_ub",
    "Verif.Vector.C60_vector_defect",
    "Verif.Deque.C60_deque_partial",
    "Verif.Deque.C60_deque_ub",
    "Verif.Deque.C60_deque_defect"
   ],
   "note": "true with spare capacity; otherwise the reference dangles"
  },
  {
   "property": "C61",
   "status": "proved",
   "theorems": [
    "Verif.Deque.C61_iterators",
    "Verif.Deque.C61_popFront",
    "Verif.Deque.C61_popBack",
    "Verif.Deque.C61_pushFront",
    "Verif.Deque.C61_pushBack"
   ],
   "note": "difference of iterators: for memory blocks of at most half the range of size_t"
  },
  {
   "property": "C62",
   "status": "proved",
   "theorems": [
    "Verif.Vector.C62_capacity",
    "Verif.Vector.C62_shrink",
    "Verif.Deque.C62_deque_capacity",
    "Verif.Deque.C62_deque_nothrow",
    "Verif.Deque.C62_deque_shrink"
   ],
   "note": ""
  },
  {
   "property": "C63",
   "status": "partial",
   "theorems": [
    "Verif.Deque.C63_copyAssign_partial",
    "Verif.Deque.C63_copyAssignSelf",
    "Verif.Deque.C63_copyAssign_defect"
   ],
   "note": "true for different deques; self-assignment empties the deque"
  },
  {
   "property": "C64",
   "status": "proved",
   "theorems": [
    "Verif.MulPrec.C64_bits",
    "Verif.MulPrec.C64_not",
    "Verif.MulPrec.C64_shift_left",
    "Verif.MulPrec.C64_shift_right",
    "Verif.MulPrec.C64_shift_bits",
    "Verif.MulPrec.C64_min_max",
    "Verif.MulPrec.C64_msb"
   ],
   "note": "All bit operations and shifts."
  },
  {
   "property": "C65",
   "status": "proved",
   "theorems": [
    "Verif.MulPrec.C65_multi",
    "Verif.MulPrec.C65_from_fundamental",
    "Verif.MulPrec.C65_to_fundamental",
    "Verif.MulPrec.C65_round_trip"
   ],
   "note": "Conversions. bool, and fundamental types that need two parts, are not modelled."
  },
  {
   "property": "C66",
   "status": "proved",
   "theorems": [
    "Verif.StringSplit.C66_split",
    "Verif.StringSplit.C66_trim"
   ],
   "note": "Exact characterization of the produced list of offsets."
  },
  {
   "property": "C67",
   "status": "proved",
   "theorems": [
    "Verif.WordWrap.C67_greedy",
    "Verif.WordWrap.C67_unique",
    "Verif.WordWrap.C67_fewest",
    "Verif.WordWrap.C67_empty"
   ],
   "note": ""
  },
  {
   "property": "C68",
   "status": "proved",
   "theorems": [
    "Verif.WordWrap.C68_terminates",
    "Verif.WordWrap.C68_optimal",
    "Verif.WordWrap.C68_overflow",
    "Verif.WordWrap.C68_greedy"
   ],
   "note": ""
  },
  {
   "property": "C69",
   "status": "partial",
   "theorems": [
    "Verif.WordWrap.C69_stale",
    "Verif.WordWrap.C69_negation",
    "Verif.WordWrap.C69_badness_partial"
   ],
   "note": "False for less than two words: the value of an earlier operation is reported (C69_stale, C69_negation). Proved for two or more words."
  },
  {
   "property": "C70",
   "status": "proved",
   "theorems": [
    "Verif.RandInt.C70_result",
    "Verif.RandInt.C70_uniform",
    "Verif.RandInt.C70_attempts"
   ],
   "note": "rand_int() for multiple precision integers; random numbers of fundamental types are arguments of the model"
  },
  {
   "property": "C71",
   "status": "proved",
   "theorems": [
    "Verif.SeedSeq.C71_generate",
    "Verif.SeedSeq.C71_range",
    "Verif.SeedSeq.C71_split"
   ],
   "note": "The algorithm of std::seed_seq is stated independently from the C++17 standard"
  },
  {
   "property": "C72",
   "status": "partial",
   "theorems": [
    "Verif.SeedSeq.C72_move_partial",
    "Verif.SeedSeq.C72_negation"
   ],
   "note": "The full claim is false (finding 25): an assertion fails when an object, that had its own seed sequence and was then assigned an object that refers to seeds in other places, is moved. Proved when objects with a single seed sequence are assigned to only from such objects."
  },
  {
   "property": "C73",
   "status": "proved",
   "theorems": [
    "Verif.BitMedium.C73_pack",
    "Verif.BitMedium.C73_unpack",
    "Verif.BitMedium.C73_round_trip",
    "Verif.BitMedium.C73_all"
   ],
   "note": "Built-in integer types of arbitrary width and signedness; int has at least one value bit."
  },
  {
   "property": "C74",
   "status": "proved",
   "theorems": [
    "Verif.BitMedium.C74_convert",
    "Verif.BitMedium.C74_round_trip"
   ],
   "note": "Integer component representations."
  },
  {
   "property": "C75",
   "status": "proved",
   "theorems": [
    "Verif.SubwordPixel.C75_read",
    "Verif.SubwordPixel.C75_write",
    "Verif.SubwordPixel.C75_fill",
    "Verif.SubwordPixel.C75_read_after_write",
    "Verif.SubwordPixel.C75_lossless",
    "Verif.SubwordPixel.C75_outside",
    "Verif.SubwordPixel.C75_every_buffer",
    "Verif.SubwordPixel.C75_buffer_size"
   ],
   "note": "Integer transfer representation (at most 16 bits per channel); index arithmetic of type ptrdiff_t is exact."
  },
  {
   "property": "C76",
   "status": "proved",
   "theorems": [
    "Verif.IndexedPixel.C76_read",
    "Verif.IndexedPixel.C76_write",
    "Verif.IndexedPixel.C76_fill",
    "Verif.IndexedPixel.C76_read_after_write",
    "Verif.IndexedPixel.C76_outside",
    "Verif.IndexedPixel.C76_buffer_size"
   ],
   "note": "At most 8 bits per pixel (the transfer representation of color indexes has 8 bits); index arithmetic of type ptrdiff_t is exact."
  },
  {
   "property": "C77",
   "status": "proved",
   "theorems": [
    "Verif.BitField.C77_valid",
    "Verif.BitField.C77_width",
    "Verif.BitField.C77_shift",
    "Verif.BitField.C77_disjoint",
    "Verif.BitField.C77_mask",
    "Verif.BitField.C77_widest",
    "Verif.BitField.C77_pack"
   ],
   "note": "All of bit_field.hpp, with overflow behavior of int."
  },
  {
   "property": "C78",
   "status": "proved",
   "theorems": [
    "Verif.PackedPixel.C78_read",
    "Verif.PackedPixel.C78_write",
    "Verif.PackedPixel.C78_fill",
    "Verif.PackedPixel.C78_channels",
    "Verif.PackedPixel.C78_read_after_write",
    "Verif.PackedPixel.C78_lossless",
    "Verif.PackedPixel.C78_outside",
    "Verif.PackedPixel.C78_channel_field",
    "Verif.PackedPixel.C78_buffer_size",
    "Verif.PackedPixel.C78_every_buffer"
   ],
   "note": "Integer transfer representation (fields of at most 16 bits); the floating-point case is outside the claim."
  },
  {
   "property": "C79",
   "status": "partial",
   "theorems": [
    "Verif.IntegerPixel.C79_assembly",
    "Verif.IntegerPixel.C79_assembly_undefined",
    "Verif.IntegerPixel.C79_undefined_32",
    "Verif.IntegerPixel.C79_read_partial",
    "Verif.IntegerPixel.C79_write_partial",
    "Verif.IntegerPixel.C79_fill_partial",
    "Verif.IntegerPixel.C79_read_after_write_partial",
    "Verif.IntegerPixel.C79_lossless_partial",
    "Verif.IntegerPixel.C79_outside",
    "Verif.IntegerPixel.C79_buffer_size",
    "Verif.IntegerPixel.C79_every_buffer"
   ],
   "note": "The channel value is assembled correctly for all accepted formats where the shift is defined, and the exact condition is proved; it fails for the 32-bit formats (finding 26). Reading, writing, and filling of areas are proved for formats with at most 16 bits per channel, which transfer pixels as integers. Missing: formats with more than 16 bits per channel, which transfer pixels as floating-point values."
  },
  {
   "property": "C80",
   "status": "proved",
   "theorems": [
    "Verif.CliPattern.C80_consume",
    "Verif.CliPattern.C80_is_match",
    "Verif.CliPattern.C80_can_consume",
    "Verif.CliPattern.C80_can_delegate"
   ],
   "note": "The patterns are those that the tables of the pattern structure describe (Enc)."
  },
  {
   "property": "C81",
   "status": "partial",
   "theorems": [
    "Verif.CliPattern.C81_total",
    "Verif.CliPattern.C81_succeeds",
    "Verif.CliPattern.C81_cross",
    "Verif.CliPattern.C81_positional_partial",
    "Verif.CliPattern.C81_prefix_deleg",
    "Verif.CliPattern.C81_positional_numbers_wrong"
   ],
   "note": "Missing: the numbers of the symbols in the message about positional ambiguity. Those are wrong in the second and later patterns (C81_positional_numbers_wrong); C81_positional_partial says what they are. Everything else is proved."
  },
  {
   "property": "C82",
   "status": "proved",
   "theorems": [
    "Verif.CliPattern.C82_backtrack",
    "Verif.CliPattern.C82_unique"
   ],
   "note": ""
  },
  {
   "property": "C83",
   "status": "proved",
   "theorems": [
    "Verif.CliPattern.C83_descs",
    "Verif.CliPattern.C83_match",
    "Verif.CliPattern.C83_unclear",
    "Verif.CliPattern.C83_repeating"
   ],
   "note": "The tables are assumed to describe the pattern (EncRoot)."
  },
  {
   "property": "C84",
   "status": "partial",
   "theorems": [
    "Verif.CliPattern.C84_check",
    "Verif.CliPattern.C84_values_partial",
    "Verif.CliPattern.C84_match_partial",
    "Verif.CliPattern.C84_size_for_alternatives_fails"
   ],
   "note": "False for std::size_t with an alternatives construct: accepted, but an assertion fails when the pattern is matched (finding 28). Proved for all other cases."
  },
  {
   "property": "C85",
   "status": "proved",
   "theorems": [
    "Verif.CliSpec.C85_total",
    "Verif.CliSpec.C85_structure",
    "Verif.CliSpec.C85_language",
    "Verif.CliSpec.C85_accepts",
    "Verif.CliSpec.C85_clear",
    "Verif.CliSpec.C85_errors",
    "Verif.CliSpec.C85_repeats",
    "Verif.CliSpec.C85_empty"
   ],
   "note": "record() of SpecParser and the registration of keywords and option references in Spec. The nodes are assumed to represent an expression whose option lexemes have the length that the tokenizer gives them. Out of range indexes and failing assertions are a distinct outcome, which C85_total rules out."
  },
  {
   "property": "C86",
   "status": "proved",
   "theorems": [
    "Verif.CliSpec.C86_token",
    "Verif.CliSpec.C86_total",
    "Verif.CliSpec.C86_unambiguous",
    "Verif.CliSpec.C86_accepts",
    "Verif.CliSpec.C86_result",
    "Verif.CliSpec.C86_empty",
    "Verif.CliSpec.C86_multiple",
    "Verif.CliSpec.C86_alternatives",
    "Verif.CliSpec.C86_slots",
    "Verif.CliSpec.C86_syntax",
    "Verif.CliSpec.C86_recorded",
    "Verif.CliSpec.C86_expressible"
   ],
   "note": "Grammar as an inductive relation between token lists and expressions; tokens by what they look like and by what can follow. The texts of messages are not modelled."
  },
  {
   "property": "C87",
   "status": "partial",
   "theorems": [
    "Verif.CliSpec.C87_total",
    "Verif.CliSpec.C87_accepts",
    "Verif.CliSpec.C87_errors",
    "Verif.CliSpec.C87_lookup",
    "Verif.CliSpec.C87_options",
    "Verif.CliSpec.C87_ready",
    "Verif.CliSpec.C87_unambiguous",
    "Verif.CliSpec.C87_written",
    "Verif.CliSpec.C87_required_partial",
    "Verif.CliSpec.C87_required_argument_missing"
   ],
   "note": "All but the last sentence of the claim is proved as stated. The last sentence does not hold for options that take no argument at all (C87_required_argument_missing, finding 29); it is proved for options that take an argument (C87_required_partial)."
  },
  {
   "property": "C88",
   "status": "proved",
   "theorems": [
    "Verif.CliSpec.C88_total",
    "Verif.CliSpec.C88_accepts",
    "Verif.CliSpec.C88_errors",
    "Verif.CliSpec.C88_patterns",
    "Verif.CliSpec.C88_names",
    "Verif.CliSpec.C88_options"
   ],
   "note": "Descriptions, help options, and widening of strings are not modelled. Parameter types of pattern functions are well-formed lists."
  },
  {
   "property": "C89",
   "status": "partial",
   "theorems": [
    "Verif.CliProc.C89_read",
    "Verif.CliProc.C89_total",
    "Verif.CliProc.C89_invoke",
    "Verif.CliProc.C89_delegate",
    "Verif.CliProc.C89_options",
    "Verif.CliProc.C89_short_circuit_partial",
    "Verif.CliProc.C89_errors",
    "Verif.CliProc.C89_complete",
    "Verif.CliProc.C89_compound_partial",
    "Verif.CliProc.C89_short_circuit_missed",
    "Verif.CliProc.C89_compound_delegated",
    "Verif.CliProc.C89_unexpected_argument"
   ],
   "note": "Everything is proved except that a short-circuit option is acted on, and that -ab is the same as -a -b, in the presence of delegating patterns; both are false then, as shown by C89_short_circuit_missed and C89_compound_delegated."
  },
  {
   "property": "C90",
   "status": "partial",
   "theorems": [
    "Verif.CliProc.C90_process_partial",
    "Verif.CliProc.C90_status",
    "Verif.CliProc.C90_returns_false",
    "Verif.CliProc.C90_delegated_partial",
    "Verif.CliProc.C90_nonzero_status_dropped"
   ],
   "note": "C90_process_partial: total, and does what Does says, for any chain of parents; C90_delegated_partial: composition of two processors; C90_status, C90_returns_false: the return value. Partial because std::size_t parameters for alternatives constructs are excluded (they violate an assertion, see C84), and because a nonzero exit status of the function of a pattern that is not completing is dropped, contrary to the documentation of process() (C90_nonzero_status_dropped). Actions, functions, handlers and value parsers are arbitrary total functions on an arbitrary state."
  },
  {
   "property": "C91",
   "status": "proved",
   "theorems": [
    "Verif.ImageIter.C91_fill",
    "Verif.ImageIter.C91_copy",
    "Verif.ImageIter.C91_repeat",
    "Verif.ImageIter.C91_fold",
    "Verif.ImageIter.C91_tray_repeat",
    "Verif.ImageIter.C91_repeat_left",
    "Verif.ImageIter.C91_repeat_right",
    "Verif.ImageIter.C91_repeat_up",
    "Verif.ImageIter.C91_repeat_down",
    "Verif.ImageIter.C91_subtray",
    "Verif.ImageIter.C91_layout"
   ],
   "note": "Memory is a partial map from addresses to components; undefined behavior is a distinct outcome. fold is characterised by C91_fold."
  },
  {
   "property": "C92",
   "status": "proved",
   "theorems": [
    "Verif.ImageReader.C92_lossless",
    "Verif.ImageReader.C92_converted",
    "Verif.ImageReader.C92_converted_float",
    "Verif.ImageReader.C92_inside",
    "Verif.ImageReader.C92_order",
    "Verif.ImageReader.C92_seen",
    "Verif.ImageReader.C92_subdivide"
   ],
   "note": "Image::read() is modelled by its contract, conversions are arbitrary functions, background color and palette are parameters. For conversion, 4096 times the number of channels is assumed to be representable."
  },
  {
   "property": "C93",
   "status": "proved",
   "theorems": [
    "Verif.ColorSlot.C93_results",
    "Verif.ColorSlot.C93_exact",
    "Verif.ColorSlot.C93_pure"
   ],
   "note": "Assumes that division by 1 changes nothing, that maximum intensity corresponds to 1, and that an opaque default color in native form survives conversion to floating point and back (white_ok shows this for white). Color space conversion is arbitrary; exceptions are not modelled."
  },
  {
   "property": "C94",
   "status": "partial",
   "theorems": [
    "Verif.Palette.C94_size",
    "Verif.Palette.C94_results_partial",
    "Verif.Palette.C94_colors",
    "Verif.Palette.C94_indexed",
    "Verif.Palette.C94_zero_width",
    "Verif.Palette.C94_wide"
   ],
   "note": "Proved for all sequences of operations, except that pixels must not be read if the width of the palette image is zero, and that the width of the palette image times the number of channels must be representable in type int. In these cases the code has undefined behavior (C94_zero_width, C94_wide)."
  },
  {
   "property": "C95",
   "status": "partial",
   "theorems": [
    "Verif.ImageWriter.C95_block_converted_partial",
    "Verif.ImageWriter.C95_block_lossless_partial",
    "Verif.ImageWriter.C95_lossless",
    "Verif.ImageWriter.C95_block_partial",
    "Verif.ImageWriter.C95_mask_partial",
    "Verif.ImageWriter.C95_image_converted_partial",
    "Verif.ImageWriter.C95_image_lossless_partial",
    "Verif.ImageWriter.C95_background_not_blended",
    "Verif.ImageWriter.C95_fill_partial",
    "Verif.ImageWriter.C95_least_position"
   ],
   "note": "Proved for all images, blocks, and positions, except positions with a coordinate equal to the least value of type int, where the code has undefined behavior (C95_least_position). Background colors with transparency are not blended when an image without alpha channel is written (C95_background_not_blended)."
  },
  {
   "property": "C96",
   "status": "partial",
   "theorems": [
    "Verif.PixelConvert.C96_convert_partial",
    "Verif.PixelConvert.C96_direct_partial",
    "Verif.PixelConvert.C96_agree_partial",
    "Verif.PixelConvert.C96_lossless_partial",
    "Verif.PixelConvert.C96_over_black_partial",
    "Verif.PixelConvert.C96_opacity",
    "Verif.PixelConvert.C96_degenerate",
    "Verif.PixelConvert.C96_no_components"
   ],
   "note": "Missing: formats without components (an assertion fails, C96_no_components), and the degenerate color space, where the code is wrong (C96_degenerate)."
  },
  {
   "property": "C97",
   "status": "partial",
   "theorems": [
    "Verif.ReverseLookup.C97_lookup_partial",
    "Verif.ReverseLookup.C97_sqdist_partial",
    "Verif.ReverseLookup.C97_no_alpha",
    "Verif.ReverseLookup.C97_other_channels"
   ],
   "note": "Missing: colors without alpha component, and colors from color spaces with another number of channels, for which the code is wrong (C97_no_alpha, C97_other_channels)."
  },
  {
   "property": "C98",
   "status": "partial",
   "theorems": [
    "Verif.BufferFormat.C98_valid_partial",
    "Verif.BufferFormat.C98_no_channels",
    "Verif.BufferFormat.C98_invalid",
    "Verif.BufferFormat.C98_to_subword_partial",
    "Verif.BufferFormat.C98_integer",
    "Verif.BufferFormat.C98_succeeds_partial",
    "Verif.BufferFormat.C98_packed_partial",
    "Verif.BufferFormat.C98_opposite",
    "Verif.BufferFormat.C98_swapped",
    "Verif.BufferFormat.C98_subword_partial",
    "Verif.BufferFormat.C98_overrun",
    "Verif.BufferFormat.C98_packed_missing"
   ],
   "note": "The code violates the property in several ways, proved by C98_opposite and C98_swapped (channels in opposite order), C98_overrun (access outside memory), C98_packed_missing (casts to packed formats fail an assertion), and C98_no_channels (division by zero). The theorems with suffix _partial cover what remains."
  },
  {
   "property": "C99",
   "status": "partial",
   "theorems": [
    "Verif.StringTemplate.C99_reading",
    "Verif.StringTemplate.C99_append",
    "Verif.StringTemplate.C99_accepted",
    "Verif.StringTemplate.C99_refused",
    "Verif.StringTemplate.C99_untouched",
    "Verif.StringTemplate.C99_parse",
    "Verif.StringTemplate.C99_default_parser",
    "Verif.StringTemplate.C99_expand",
    "Verif.StringTemplate.C99_text",
    "Verif.StringTemplate.C99_escape",
    "Verif.StringTemplate.C99_field_width",
    "Verif.StringTemplate.C99_refers_to",
    "Verif.StringTemplate.C99_define"
   ],
   "note": "Everything in the statement is proved for the parsing constructor and for parsers with an explicit locale. Negation for a parser that is constructed without a locale (C99_default_parser): parse() then has undefined behavior (finding 46)."
  }
 ]
}