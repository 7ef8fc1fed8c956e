import Verif.Newline.Props
import Verif.Base64.Props
import Verif.FlatMap.Props
import Verif.RangeMap.Props
import Verif.LiteralHashMap.Props
import Verif.Timestamp.Props
import Verif.Integer.Props
import Verif.Buffer.Props
import Verif.IntText.Props
import Verif.Vector.Props
import Verif.Deque.Props
import Verif.Unicode.Props
import Verif.HexDump.Props
import Verif.FrozenSets.Props
import Verif.Fnv.Props
import Verif.PixelBox.Props
import Verif.UnitFrac.Props
import Verif.Endianness.Props
import Verif.RandomSeed.Props
import Verif.MulPrec.Props
import Verif.MulPrec.ConvertProps
import Verif.StringMatcher.Props
import Verif.StringSplit.Props
import Verif.WildcardFilter.Props
import Verif.Quote.Props
import Verif.KdTree.Props
import Verif.RectPacker.Props
import Verif.WordWrap.Props
import Verif.RandInt.Props
import Verif.SeedSeq.Props
import Verif.BitMedium.Props
import Verif.SubwordPixel.Props
import Verif.IndexedPixel.Props
import Verif.BitField.Props
import Verif.PackedPixel.Props
import Verif.IntegerPixel.Props
import Verif.CliPattern.Props
import Verif.CliPattern.DescProps
import Verif.CliPattern.ArgsProps
import Verif.CliSpec.Props
import Verif.CliSpec.ParserProps
import Verif.CliSpec.OptProps
import Verif.CliSpec.ConstructProps
import Verif.CliProc.ProcessProps
import Verif.CliProc.CommandProps
import Verif.ImageIter.Props
import Verif.ImageReader.Props
import Verif.ColorSlot.Props
import Verif.Palette.Props
import Verif.ImageWriter.Props
import Verif.PixelConvert.Props
import Verif.ReverseLookup.Props
import Verif.BufferFormat.Props
import Verif.StringTemplate.Props
import Verif.MemStream.Props
import Verif.SuperInt.Props
import Verif.StableSort.Props
import Verif.CssColor.Props
import Verif.ColorSpace.Props
import Verif.FloatInt.Props
import Verif.LuInverse.Props
import Verif.KeyBindings.Props
import Verif.Rotation.Props
import Verif.Trackball.Props
import Verif.PerspectProj.Props
import Verif.Perlin.Props
import Verif.Histogram.Props
import Verif.Edid.Props
import Verif.AsList.Props
import Verif.Log.Props
import Verif.TextFile.Props
import Verif.Streams.Props
import Verif.ImageFormat.Props
import Verif.TestRunner.Props
import Verif.XmlReport.Props
import Verif.VisualSelect.Props
import Verif.Colormap.Props
import Verif.PaletteMap.Props
import Verif.PixelBlock.Props
import Verif.TextCodec.Props
import Verif.PixelSize.Props
import Verif.AsInt.Props
import Verif.TestPath.Props
import Verif.TextParser.Props
import Verif.Terminal.Props
import Verif.Enum.Props
import Verif.FallbackFont.Props
import Verif.FormatAs.Props
import Verif.Timer.Props
import Verif.Format.Props
import Verif.CodePoint.Props
import Verif.StrideIter.Props
import Verif.InexactCompare.Props

/-! Axioms of every theorem listed in MANIFEST.json (expected: at most propext, Classical.choice,
Quot.sound). -/

#print axioms Verif.Base64.C01_roundtrip_partial
#print axioms Verif.Base64.C01_padding_counterexample
#print axioms Verif.Base64.C01_padding_never_accepted
#print axioms Verif.Base64.C02_encode_buffer_size
#print axioms Verif.Base64.C02_encode_buffer_size_exact
#print axioms Verif.Base64.C02_decode_buffer_size_partial
#print axioms Verif.Base64.C02_decode_buffer_size_tight
#print axioms Verif.Base64.C03_encode_incremental
#print axioms Verif.Base64.C03_decode_incremental
#print axioms Verif.Base64.C04_malformed_partial
#print axioms Verif.Base64.C04_counterexample
#print axioms Verif.Base64.C04_abort_iff
#print axioms Verif.Base64.C05_canonical
#print axioms Verif.Base64.C05_injective
#print axioms Verif.Unicode.C06_encode_exact
#print axioms Verif.Unicode.C06_encode_reject
#print axioms Verif.Unicode.C06_round_trip
#print axioms Verif.Unicode.C07_exact
#print axioms Verif.Unicode.C07_exact_narrow
#print axioms Verif.Unicode.C07_reject
#print axioms Verif.Unicode.C07_table
#print axioms Verif.Unicode.C07_unique
#print axioms Verif.Unicode.C07_wide_defect
#print axioms Verif.Unicode.C08_encode_exact
#print axioms Verif.Unicode.C08_decode_exact
#print axioms Verif.Unicode.C08_decode_exact_narrow
#print axioms Verif.Unicode.C08_reject
#print axioms Verif.Unicode.C08_round_trip
#print axioms Verif.Unicode.C09_utf8_to_utf16
#print axioms Verif.Unicode.C09_utf16_to_utf8
#print axioms Verif.Unicode.C09_reject
#print axioms Verif.Unicode.C09_round_trip_8
#print axioms Verif.Unicode.C09_round_trip_16
#print axioms Verif.Unicode.C10_buffering
#print axioms Verif.Unicode.C10_call
#print axioms Verif.MemStream.C100_file
#print axioms Verif.MemStream.C100_memory
#print axioms Verif.MemStream.C100_writes
#print axioms Verif.MemStream.C100_seek
#print axioms Verif.MemStream.C100_reset
#print axioms Verif.MemStream.C100_pbump
#print axioms Verif.MemStream.C101_contents
#print axioms Verif.MemStream.C101_fails
#print axioms Verif.MemStream.C101_no_allocation
#print axioms Verif.MemStream.C101_overflow_eof
#print axioms Verif.MemStream.C102_file
#print axioms Verif.MemStream.C102_reset
#print axioms Verif.MemStream.C102_seek
#print axioms Verif.SuperInt.C103_represent
#print axioms Verif.SuperInt.C103_compare
#print axioms Verif.SuperInt.C103_wrap
#print axioms Verif.SuperInt.C103_wrap_unique
#print axioms Verif.SuperInt.C103_bits
#print axioms Verif.SuperInt.C104_overflow
#print axioms Verif.SuperInt.C104_divide
#print axioms Verif.SuperInt.C104_operators
#print axioms Verif.SuperInt.C104_unique
#print axioms Verif.SuperInt.C104_zero
#print axioms Verif.SuperInt.C105_construct
#print axioms Verif.SuperInt.C105_get_as
#print axioms Verif.SuperInt.C105_shift_left
#print axioms Verif.SuperInt.C105_shift_right_partial
#print axioms Verif.SuperInt.C105_shift_right_negative
#print axioms Verif.SuperInt.C105_shift_limits
#print axioms Verif.SuperInt.C105_output
#print axioms Verif.StableSort.C106_stable_sort
#print axioms Verif.StableSort.C106_rearrange
#print axioms Verif.CssColor.C107_keyword_partial
#print axioms Verif.CssColor.C107_only
#print axioms Verif.CssColor.C107_missing
#print axioms Verif.CssColor.C107_by_value
#print axioms Verif.CssColor.C108_round_trip
#print axioms Verif.CssColor.C108_hex
#print axioms Verif.CssColor.C108_output
#print axioms Verif.CssColor.C108_output_parse
#print axioms Verif.CssColor.C109_parse
#print axioms Verif.CssColor.C109_case
#print axioms Verif.CssColor.C109_valid
#print axioms Verif.Unicode.C11_wellformed_partial
#print axioms Verif.Unicode.C11_length_partial
#print axioms Verif.Unicode.C11_defect
#print axioms Verif.Unicode.C11_defect_decode
#print axioms Verif.Unicode.C11_defect_initial
#print axioms Verif.Unicode.C11_defect_realloc
#print axioms Verif.CssColor.C110_rgba
#print axioms Verif.CssColor.C110_trgb
#print axioms Verif.CssColor.C110_unpack
#print axioms Verif.CssColor.C110_opaque
#print axioms Verif.ColorSpace.C111_css
#print axioms Verif.ColorSpace.C111_rgb_hsl_rgb
#print axioms Verif.ColorSpace.C111_hsl_range
#print axioms Verif.ColorSpace.C111_rgb_range
#print axioms Verif.ColorSpace.C111_hsl_rgb_hsl
#print axioms Verif.ColorSpace.C111_periodic
#print axioms Verif.ColorSpace.C111_injective
#print axioms Verif.ColorSpace.C111_negative_saturation
#print axioms Verif.ColorSpace.C112_smith
#print axioms Verif.ColorSpace.C112_rgb_hsv_rgb
#print axioms Verif.ColorSpace.C112_hsv_range
#print axioms Verif.ColorSpace.C112_rgb_range
#print axioms Verif.ColorSpace.C112_hsv_rgb_hsv
#print axioms Verif.ColorSpace.C112_periodic
#print axioms Verif.ColorSpace.C112_same_hue
#print axioms Verif.ColorSpace.C113_round_trip_partial
#print axioms Verif.ColorSpace.C113_color
#print axioms Verif.ColorSpace.C113_css_rgb
#print axioms Verif.ColorSpace.C113_round_trip_alternate
#print axioms Verif.ColorSpace.C113_not_16_bit
#print axioms Verif.ColorSpace.C113_equal_parts
#print axioms Verif.ColorSpace.C113_clamp
#print axioms Verif.ColorSpace.C113_css_hsl
#print axioms Verif.ColorSpace.C113_css_percent
#print axioms Verif.ColorSpace.C114_range
#print axioms Verif.ColorSpace.C114_range_neg
#print axioms Verif.ColorSpace.C114_congruent
#print axioms Verif.ColorSpace.C114_unique
#print axioms Verif.ColorSpace.C114_error
#print axioms Verif.FloatInt.C115_not_above
#print axioms Verif.FloatInt.C115_not_below
#print axioms Verif.FloatInt.C115_for_int
#print axioms Verif.FloatInt.C115_requirements_insufficient
#print axioms Verif.FloatInt.C116_equal
#print axioms Verif.FloatInt.C116_defined
#print axioms Verif.FloatInt.C116_representable_partial
#print axioms Verif.FloatInt.C116_outside_partial
#print axioms Verif.FloatInt.C116_sign_partial
#print axioms Verif.FloatInt.C116_wrong_positive
#print axioms Verif.FloatInt.C116_wrong_negative
#print axioms Verif.FloatInt.C116_wrong_single
#print axioms Verif.FloatInt.C117_try
#print axioms Verif.FloatInt.C117_try_special
#print axioms Verif.FloatInt.C117_clamped
#print axioms Verif.FloatInt.C117_clamped_special
#print axioms Verif.FloatInt.C117_round_trip
#print axioms Verif.FloatInt.C118_binary
#print axioms Verif.FloatInt.C118_exists
#print axioms Verif.FloatInt.C118_comparison_limit
#print axioms Verif.LuInverse.C119_product
#print axioms Verif.LuInverse.C119_pivots
#print axioms Verif.LuInverse.C119_partial_pivoting
#print axioms Verif.Unicode.C12_exhausted_partial
#print axioms Verif.Unicode.C12_incomplete_partial
#print axioms Verif.Unicode.C12_utf16
#print axioms Verif.Unicode.C12_defect
#print axioms Verif.LuInverse.C120_det
#print axioms Verif.LuInverse.C120_product
#print axioms Verif.LuInverse.C121_inverse
#print axioms Verif.LuInverse.C121_singular
#print axioms Verif.LuInverse.C121_complete
#print axioms Verif.LuInverse.C121_inv
#print axioms Verif.LuInverse.C121_inv_eq
#print axioms Verif.LuInverse.C122_mirror
#print axioms Verif.LuInverse.C122_upper_inverse
#print axioms Verif.LuInverse.C122_lower_inverse
#print axioms Verif.LuInverse.C122_upper_singular
#print axioms Verif.LuInverse.C122_lower_singular
#print axioms Verif.LuInverse.C122_upper_unmodified
#print axioms Verif.LuInverse.C122_lower_unmodified
#print axioms Verif.LuInverse.C122_upper_unread
#print axioms Verif.LuInverse.C122_lower_unread
#print axioms Verif.KeyBindings.Props.C123_up_follows_down
#print axioms Verif.KeyBindings.Props.C123_down_followed_by_up_partial
#print axioms Verif.KeyBindings.Props.C123_bind_while_pressed
#print axioms Verif.KeyBindings.Props.C123_defined
#print axioms Verif.KeyBindings.Props.C124_taps
#print axioms Verif.KeyBindings.Props.C124_unbound
#print axioms Verif.KeyBindings.Props.C125_blur_partial
#print axioms Verif.KeyBindings.Props.C125_resume_idle
#print axioms Verif.KeyBindings.Props.C125_defined_partial
#print axioms Verif.KeyBindings.Props.C125_bind_while_blur
#print axioms Verif.KeyBindings.Props.C126_single_partial
#print axioms Verif.KeyBindings.Props.C126_bit
#print axioms Verif.KeyBindings.Props.C126_never_composed
#print axioms Verif.KeyBindings.Props.C126_composed_fails
#print axioms Verif.KeyBindings.Props.C126_both_sides_fails
#print axioms Verif.KeyBindings.Props.C126_stuck
#print axioms Verif.Rotation.C127_arithmetic
#print axioms Verif.Rotation.C127_faithful
#print axioms Verif.Rotation.C127_inverse
#print axioms Verif.Rotation.C127_conjugate
#print axioms Verif.Rotation.C127_length
#print axioms Verif.Rotation.C128_rotation
#print axioms Verif.Rotation.C128_cos_angle
#print axioms Verif.Rotation.C128_matrix
#print axioms Verif.Rotation.C128_matrix_proper
#print axioms Verif.Rotation.C128_matrix_mul
#print axioms Verif.Rotation.C128_euler_angles
#print axioms Verif.Rotation.C128_spec
#print axioms Verif.Rotation.C129_range
#print axioms Verif.Rotation.C129_same_rotation
#print axioms Verif.Rotation.C129_to_from
#print axioms Verif.Rotation.C129_from_to
#print axioms Verif.Rotation.C129_not_clamped
#print axioms Verif.Rotation.C129_periodic_partial
#print axioms Verif.Deque.C13_step
#print axioms Verif.Deque.C13_history
#print axioms Verif.Deque.C13_destroy
#print axioms Verif.Deque.C13_moveAssign
#print axioms Verif.Rotation.C130_add
#print axioms Verif.Rotation.C130_neg
#print axioms Verif.Rotation.C130_sub
#print axioms Verif.Rotation.C130_scale
#print axioms Verif.Rotation.C130_not_commutative
#print axioms Verif.Trackball.C131_ball_point
#print axioms Verif.Trackball.C131_radii
#print axioms Verif.Trackball.C131_follow_partial
#print axioms Verif.Trackball.C131_opposite
#print axioms Verif.Trackball.C131_opposite_example
#print axioms Verif.Trackball.C132_no_effect
#print axioms Verif.Trackball.C132_acquire
#print axioms Verif.Trackball.C132_first_track
#print axioms Verif.Trackball.C132_set_orientation
#print axioms Verif.Trackball.C132_set_spin
#print axioms Verif.Trackball.C133_release_partial
#print axioms Verif.Trackball.C133_no_events
#print axioms Verif.Trackball.C133_lost
#print axioms Verif.Trackball.C134_sequence
#print axioms Verif.Trackball.C134_interpolation
#print axioms Verif.Trackball.C134_window_partial
#print axioms Verif.Trackball.C134_window_too_short
#print axioms Verif.PerspectProj.C135_viewport_meters
#print axioms Verif.PerspectProj.C135_viewport_pixels
#print axioms Verif.PerspectProj.C135_resolution
#print axioms Verif.PerspectProj.C136_fields
#print axioms Verif.PerspectProj.C136_angle
#print axioms Verif.PerspectProj.C136_set_angle
#print axioms Verif.PerspectProj.C136_clip
#print axioms Verif.PerspectProj.C137_solid_angle_partial
#print axioms Verif.PerspectProj.C137_actual
#print axioms Verif.PerspectProj.C137_wrong
#print axioms Verif.PerspectProj.C137_set_get
#print axioms Verif.PerspectProj.C138_auto_zoom
#print axioms Verif.PerspectProj.C138_auto_dist_neutral
#print axioms Verif.PerspectProj.C138_auto_dist_partial
#print axioms Verif.PerspectProj.C138_auto_dist_wrong
#print axioms Verif.PerspectProj.C138_min_field_factor
#print axioms Verif.Perlin.C139_num_gradients
#print axioms Verif.Perlin.C139_layout
#print axioms Verif.Perlin.C139_access
#print axioms Verif.Deque.C14_erase_partial
#print axioms Verif.Deque.C14_erase_exact
#print axioms Verif.Deque.C14_eraseOne
#print axioms Verif.Deque.C14_contiguous
#print axioms Verif.Deque.C14_erase_defect_front
#print axioms Verif.Deque.C14_erase_defect_back
#print axioms Verif.Perlin.C140_value
#print axioms Verif.Perlin.C140_continuous
#print axioms Verif.Perlin.C140_vertex
#print axioms Verif.Perlin.C140_local
#print axioms Verif.Perlin.C140_amplitude
#print axioms Verif.Perlin.C140_amplitude_attained
#print axioms Verif.Perlin.C140_range
#print axioms Verif.Perlin.C140_documented_amplitude
#print axioms Verif.Histogram.C141_counts_partial
#print axioms Verif.Histogram.C141_undefined
#print axioms Verif.Histogram.C141_undefined_witness
#print axioms Verif.Histogram.C141_upper_end
#print axioms Verif.Histogram.C141_total
#print axioms Verif.Histogram.C142_lines_partial
#print axioms Verif.Histogram.C142_texts
#print axioms Verif.Histogram.C142_empty
#print axioms Verif.Histogram.C142_nonempty
#print axioms Verif.Edid.C143_accept
#print axioms Verif.Edid.C143_result
#print axioms Verif.Edid.C143_base_block
#print axioms Verif.AsList.C144_format_partial
#print axioms Verif.AsList.C144_loose_empty
#print axioms Verif.AsList.C144_parse_partial
#print axioms Verif.AsList.C144_empty
#print axioms Verif.AsList.C144_round_trip_partial
#print axioms Verif.AsList.C144_empty_bracketed
#print axioms Verif.AsList.C145_longest
#print axioms Verif.AsList.C145_round_trip
#print axioms Verif.AsList.C145_minimum_not_enforced
#print axioms Verif.AsList.C146_round_trip_partial
#print axioms Verif.AsList.C146_parse
#print axioms Verif.AsList.C146_empty
#print axioms Verif.Log.C147_log_partial
#print axioms Verif.Log.C147_log_untied
#print axioms Verif.Log.C147_prefix_order
#print axioms Verif.Log.C147_limit_on_unmatched_channel
#print axioms Verif.Log.C148_will_log
#print axioms Verif.Log.C148_will_log_necessary
#print axioms Verif.Log.C148_open_route
#print axioms Verif.Log.C148_limit_partial
#print axioms Verif.Log.C148_nested_limits
#print axioms Verif.Log.C148_set_variable_limit
#print axioms Verif.Log.C148_set_fixed_limit
#print axioms Verif.Log.C149_lines
#print axioms Verif.Log.C149_all_messages
#print axioms Verif.Buffer.C15_buffer_partial
#print axioms Verif.Buffer.C15_buffer_defect
#print axioms Verif.Vector.C15_vector
#print axioms Verif.Deque.C15_deque
#print axioms Verif.Log.C150_channels
#print axioms Verif.Log.C150_select
#print axioms Verif.Log.C150_limit
#print axioms Verif.Log.C150_channel_logger
#print axioms Verif.Log.C150_duplicating_logger
#print axioms Verif.Log.C151_encoding
#print axioms Verif.Log.C151_channel_logger_same_partial
#print axioms Verif.Log.C151_prefix_order_inverted
#print axioms Verif.TextFile.C152_execution
#print axioms Verif.TextFile.C152_execution_unbuffered
#print axioms Verif.TextFile.C152_execution_any
#print axioms Verif.TextFile.C153_flush
#print axioms Verif.TextFile.C154_read_all
#print axioms Verif.TextFile.C154_save_load
#print axioms Verif.TextFile.C155_retry_partial
#print axioms Verif.TextFile.C155_retry_duplicates
#print axioms Verif.TextFile.C156_reopen_partial
#print axioms Verif.TextFile.C156_reopen_after_write
#print axioms Verif.Streams.C157_file_source
#print axioms Verif.Streams.C157_buffered_file_source
#print axioms Verif.Streams.C157_try_read
#print axioms Verif.Streams.C157_same
#print axioms Verif.Streams.C158_rewind
#print axioms Verif.Streams.C158_rewind_file
#print axioms Verif.Streams.C158_rewind_buffered_file
#print axioms Verif.Streams.C158_release
#print axioms Verif.Streams.C158_reread
#print axioms Verif.Streams.C158_rewind_after_release
#print axioms Verif.Streams.C159_buffered_file_sink
#print axioms Verif.Streams.C159_file_sink
#print axioms Verif.Buffer.C16_suggest
#print axioms Verif.Buffer.C16_amortized
#print axioms Verif.ImageFormat.C160_lookup
#print axioms Verif.ImageFormat.C160_find
#print axioms Verif.ImageFormat.C160_having
#print axioms Verif.ImageFormat.C161_register_partial
#print axioms Verif.ImageFormat.C161_same_format_accepted
#print axioms Verif.ImageFormat.C161_duplicate_accepted
#print axioms Verif.ImageFormat.C162_detection
#print axioms Verif.ImageFormat.C162_candidates
#print axioms Verif.ImageFormat.C162_by_signature
#print axioms Verif.ImageFormat.C162_signature_required
#print axioms Verif.ImageFormat.C162_explicit
#print axioms Verif.ImageFormat.C163_save
#print axioms Verif.ImageFormat.C163_save_load
#print axioms Verif.TestRunner.C164_selection
#print axioms Verif.TestRunner.C164_sorted
#print axioms Verif.TestRunner.C164_duplicate
#print axioms Verif.TestRunner.C164_negative
#print axioms Verif.TestRunner.C164_accounting
#print axioms Verif.TestRunner.C165_exactly_once
#print axioms Verif.TestRunner.C165_at_most_once
#print axioms Verif.TestRunner.C165_one_at_a_time
#print axioms Verif.TestRunner.C166_exclusive
#print axioms Verif.TestRunner.C166_bounded
#print axioms Verif.TestRunner.C167_order_partial
#print axioms Verif.TestRunner.C167_documented_order_partial
#print axioms Verif.TestRunner.C167_order_violated
#print axioms Verif.TestRunner.C168_summary_partial
#print axioms Verif.TestRunner.C168_counts_partial
#print axioms Verif.TestRunner.C168_result_violated
#print axioms Verif.TestRunner.C169_root
#print axioms Verif.TestRunner.C169_complete
#print axioms Verif.TestRunner.C169_begin_first
#print axioms Verif.TestRunner.C169_end_last_partial
#print axioms Verif.TestRunner.C169_end_violated
#print axioms Verif.Vector.C17_step
#print axioms Verif.Vector.C17_history
#print axioms Verif.Vector.C17_destroy
#print axioms Verif.Vector.C17_moveConstruct
#print axioms Verif.Vector.C17_moveAssign
#print axioms Verif.Vector.C17_appendInput
#print axioms Verif.TestRunner.C170_seed
#print axioms Verif.TestRunner.C170_location
#print axioms Verif.TestRunner.C170_check_location
#print axioms Verif.TestRunner.C171_abort
#print axioms Verif.TestRunner.C172_no_deadlock
#print axioms Verif.TestRunner.C172_bounded
#print axioms Verif.TestRunner.C172_completes
#print axioms Verif.TestRunner.C173_ensure_subdir
#print axioms Verif.TestRunner.C173_parents_first
#print axioms Verif.XmlReport.C174_no_special
#print axioms Verif.XmlReport.C174_read_back_partial
#print axioms Verif.XmlReport.C174_injective
#print axioms Verif.XmlReport.C174_read_back_violated
#print axioms Verif.XmlReport.C175_report_partial
#print axioms Verif.XmlReport.C175_dangling
#print axioms Verif.XmlReport.C175_path_not_escaped
#print axioms Verif.XmlReport.C175_names
#print axioms Verif.VisualSelect.C176_strict_weak_order
#print axioms Verif.VisualSelect.C176_find
#print axioms Verif.VisualSelect.C176_find_all
#print axioms Verif.VisualSelect.C176_first
#print axioms Verif.VisualSelect.C177_default_visual
#print axioms Verif.VisualSelect.C177_default_depth
#print axioms Verif.VisualSelect.C177_class
#print axioms Verif.Colormap.C178_masks
#print axioms Verif.Colormap.C179_unpack_pack
#print axioms Verif.Colormap.C179_pack_unpack
#print axioms Verif.Colormap.C179_permuted
#print axioms Verif.Vector.C18_resize_partial
#print axioms Verif.Vector.C18_resize_leak
#print axioms Verif.Vector.C18_resize_defect
#print axioms Verif.Colormap.C180_one_to_one
#print axioms Verif.Colormap.C180_complete
#print axioms Verif.Colormap.C181_pseudocolor_partial
#print axioms Verif.Colormap.C181_grayscale_partial
#print axioms Verif.Colormap.C181_standard_partial
#print axioms Verif.Colormap.C181_beyond_256
#print axioms Verif.Colormap.C181_offset_violated
#print axioms Verif.Colormap.C181_single_level
#print axioms Verif.Colormap.C182_directcolor
#print axioms Verif.Colormap.C182_defined
#print axioms Verif.Colormap.C183_intern_partial
#print axioms Verif.Colormap.C183_intern_violated
#print axioms Verif.Colormap.C184_success
#print axioms Verif.Colormap.C184_failure_partial
#print axioms Verif.Colormap.C184_violated
#print axioms Verif.PaletteMap.C185_lookup
#print axioms Verif.PaletteMap.C185_move_partial
#print axioms Verif.PaletteMap.C185_default
#print axioms Verif.PaletteMap.C185_moved_from
#print axioms Verif.PaletteMap.C185_wrong_number
#print axioms Verif.PaletteMap.C185_move_violated
#print axioms Verif.PaletteMap.C186_read_partial
#print axioms Verif.PaletteMap.C186_empty
#print axioms Verif.PaletteMap.C187_no_double_free
#print axioms Verif.PaletteMap.C187_no_leak_partial
#print axioms Verif.PaletteMap.C187_leak
#print axioms Verif.PixelBlock.C188_accepted
#print axioms Verif.PixelBlock.C188_make
#print axioms Verif.PixelBlock.C188_wrap
#print axioms Verif.PixelBlock.C188_tray
#print axioms Verif.PixelBlock.C188_cover
#print axioms Verif.PixelBlock.C189_one_negative_partial
#print axioms Verif.PixelBlock.C189_both_negative_accepted
#print axioms Verif.PixelBlock.C189_negative_and_zero_accepted
#print axioms Verif.PixelBlock.C189_size_partial
#print axioms Verif.Vector.C19_reserve_partial
#print axioms Verif.Vector.C19_reserve_defect
#print axioms Verif.PixelBlock.C190_get_pixel
#print axioms Verif.PixelBlock.C190_get_index
#print axioms Verif.PixelBlock.C191_size
#print axioms Verif.PixelBlock.C191_whole
#print axioms Verif.PixelBlock.C191_read
#print axioms Verif.PixelBlock.C191_write
#print axioms Verif.PixelBlock.C191_fill
#print axioms Verif.PixelBlock.C191_outside
#print axioms Verif.TextCodec.C192_operation_exists
#print axioms Verif.TextCodec.C192_full_exists_unique
#print axioms Verif.TextCodec.C192_loop
#print axioms Verif.TextCodec.C192_unshift
#print axioms Verif.TextCodec.C192_copy
#print axioms Verif.TextCodec.C193_encode
#print axioms Verif.TextCodec.C193_decode
#print axioms Verif.TextCodec.C193_steps
#print axioms Verif.TextCodec.C193_round_trip
#print axioms Verif.TextCodec.C194_encode
#print axioms Verif.TextCodec.C194_unshift
#print axioms Verif.TextCodec.C195_decode
#print axioms Verif.TextCodec.C195_pieces
#print axioms Verif.PixelSize.C196_format
#print axioms Verif.PixelSize.C196_format_succeeds
#print axioms Verif.PixelSize.C196_parse
#print axioms Verif.PixelSize.C196_round_trip
#print axioms Verif.PixelSize.C197_format
#print axioms Verif.PixelSize.C197_parse
#print axioms Verif.PixelSize.C197_round_trip
#print axioms Verif.PixelSize.C198_compare_sizes
#print axioms Verif.PixelSize.C198_compare_positions
#print axioms Verif.PixelSize.C198_strict_total
#print axioms Verif.PixelSize.C198_boxes
#print axioms Verif.PixelSize.C198_can_add
#print axioms Verif.PixelSize.C198_inverse
#print axioms Verif.PixelSize.C198_arithmetic
#print axioms Verif.PixelSize.C199_divide_partial
#print axioms Verif.PixelSize.C199_negative_rounds_up
#print axioms Verif.Integer.C20_add
#print axioms Verif.Integer.C20_sub
#print axioms Verif.Integer.C20_mul
#print axioms Verif.AsInt.C200_format
#print axioms Verif.AsInt.C200_parse
#print axioms Verif.AsInt.C200_round_trip
#print axioms Verif.AsInt.C200_unique
#print axioms Verif.AsInt.C201_not_good
#print axioms Verif.AsInt.C201_blank
#print axioms Verif.AsInt.C201_extract
#print axioms Verif.AsInt.C201_unique
#print axioms Verif.AsInt.C202_round_trip
#print axioms Verif.AsInt.C202_sequence
#print axioms Verif.TestPath.C203_path
#print axioms Verif.TestPath.C203_distinct
#print axioms Verif.TestPath.C203_disjoint
#print axioms Verif.TestPath.C204_fresh
#print axioms Verif.TestPath.C204_removed
#print axioms Verif.TestPath.C204_nothing_left
#print axioms Verif.TestPath.C204_move
#print axioms Verif.TestPath.C204_same_name
#print axioms Verif.TextParser.C205_outcome
#print axioms Verif.TextParser.C205_accepts
#print axioms Verif.TextParser.C206_outcome
#print axioms Verif.TextParser.C206_accepts
#print axioms Verif.Terminal.C207_equal
#print axioms Verif.Terminal.C207_switch
#print axioms Verif.Terminal.C207_nothing
#print axioms Verif.Terminal.C208_switch_partial
#print axioms Verif.Terminal.C208_bold_to_faint
#print axioms Verif.Terminal.C209_single
#print axioms Verif.Terminal.C209_reset
#print axioms Verif.Terminal.C209_fits
#print axioms Verif.Integer.C21_compare
#print axioms Verif.Integer.C21_cast
#print axioms Verif.Integer.C21_clamp
#print axioms Verif.Terminal.C210_shortest
#print axioms Verif.Enum.C211_accepted
#print axioms Verif.Enum.C211_rejected
#print axioms Verif.Enum.C211_name
#print axioms Verif.Enum.C211_parse
#print axioms Verif.Enum.C211_inverse
#print axioms Verif.Enum.C212_not_good
#print axioms Verif.Enum.C212_read
#print axioms Verif.Enum.C212_round_trip
#print axioms Verif.Enum.C212_no_name
#print axioms Verif.Enum.C212_hyphen
#print axioms Verif.FallbackFont.C213_accepted
#print axioms Verif.FallbackFont.C213_glyphs_exist
#print axioms Verif.FallbackFont.C213_negative_size
#print axioms Verif.FallbackFont.C214_render
#print axioms Verif.FallbackFont.C214_overflow
#print axioms Verif.FallbackFont.C214_unchecked_top
#print axioms Verif.FormatAs.C215_ordinal
#print axioms Verif.FormatAs.C216_time_partial
#print axioms Verif.FormatAs.C216_boundaries
#print axioms Verif.FormatAs.C217_quant
#print axioms Verif.FormatAs.C217_zero
#print axioms Verif.FormatAs.C217_unit
#print axioms Verif.FormatAs.C218_quant
#print axioms Verif.FormatAs.C218_byte_size_partial
#print axioms Verif.FormatAs.C218_boundary
#print axioms Verif.FormatAs.C219_jump
#print axioms Verif.FormatAs.C219_decimals
#print axioms Verif.FormatAs.C219_exact
#print axioms Verif.FormatAs.C219_negative
#print axioms Verif.Integer.C22_partial
#print axioms Verif.Integer.C22_defect
#print axioms Verif.Integer.C22_unchecked
#print axioms Verif.Timer.C220_elapsed
#print axioms Verif.Timer.C220_nonnegative
#print axioms Verif.Timer.C220_monotone
#print axioms Verif.Format.C221_valid
#print axioms Verif.Format.C221_only_valid
#print axioms Verif.Format.C221_invalid
#print axioms Verif.Format.C221_escape
#print axioms Verif.Format.C221_alt
#print axioms Verif.Format.C221_formatted
#print axioms Verif.CodePoint.C222_from_int
#print axioms Verif.CodePoint.C222_from_char
#print axioms Verif.CodePoint.C222_to_char
#print axioms Verif.CodePoint.C222_parse
#print axioms Verif.CodePoint.C222_round_trip
#print axioms Verif.CodePoint.C223_parse
#print axioms Verif.CodePoint.C223_format
#print axioms Verif.CodePoint.C223_round_trip
#print axioms Verif.StrideIter.C224_move
#print axioms Verif.StrideIter.C224_postfix
#print axioms Verif.StrideIter.C224_access
#print axioms Verif.StrideIter.C224_compare
#print axioms Verif.StrideIter.C225_distance_partial
#print axioms Verif.StrideIter.C225_unit_stride
#print axioms Verif.StrideIter.C225_negative
#print axioms Verif.InexactCompare.C226_trichotomy
#print axioms Verif.InexactCompare.C226_equality
#print axioms Verif.InexactCompare.C226_order
#print axioms Verif.InexactCompare.C226_tolerance
#print axioms Verif.InexactCompare.C226_exact
#print axioms Verif.InexactCompare.C226_scale
#print axioms Verif.InexactCompare.C226_not_transitive
#print axioms Verif.Integer.C23_round_up
#print axioms Verif.Integer.C23_round_half_down
#print axioms Verif.Integer.C24_pow
#print axioms Verif.Integer.C24_sqrt
#print axioms Verif.IntText.C25_parse
#print axioms Verif.IntText.C25_unique
#print axioms Verif.IntText.C26_format
#print axioms Verif.IntText.C26_roundtrip
#print axioms Verif.MulPrec.C27_wrap
#print axioms Verif.MulPrec.C27_value
#print axioms Verif.MulPrec.C27_add
#print axioms Verif.MulPrec.C27_sub
#print axioms Verif.MulPrec.C27_neg
#print axioms Verif.MulPrec.C27_mul
#print axioms Verif.MulPrec.C27_exact
#print axioms Verif.MulPrec.C27_eq
#print axioms Verif.MulPrec.C27_less
#print axioms Verif.MulPrec.C27_compare
#print axioms Verif.MulPrec.C28_divmod
#print axioms Verif.MulPrec.C28_identity
#print axioms Verif.MulPrec.C28_overflow
#print axioms Verif.MulPrec.C28_zero
#print axioms Verif.Newline.C29_decode_encode
#print axioms Verif.Newline.C30_decode_incremental
#print axioms Verif.Newline.C30_decode_progress
#print axioms Verif.Newline.C30_encode_incremental
#print axioms Verif.Newline.C30_encode_progress
#print axioms Verif.Newline.C31_simul_decode
#print axioms Verif.FlatMap.C32_flat_map
#print axioms Verif.FlatMap.C33_flat_multimap
#print axioms Verif.RangeMap.C34_update
#print axioms Verif.RangeMap.C34_defrag
#print axioms Verif.FrozenSets.C35_contents_partial
#print axioms Verif.FrozenSets.C35_safe_partial
#print axioms Verif.FrozenSets.C35_defect_equal
#print axioms Verif.FrozenSets.C35_defect_overwrite
#print axioms Verif.FrozenSets.C35_defect_empty
#print axioms Verif.FrozenSets.C35_defect_identity
#print axioms Verif.StringMatcher.C36_match
#print axioms Verif.StringMatcher.C36_degenerate
#print axioms Verif.StringMatcher.C37_ambiguity
#print axioms Verif.LiteralHashMap.C38_find
#print axioms Verif.LiteralHashMap.C38_find_rev
#print axioms Verif.LiteralHashMap.C38_default_buckets
#print axioms Verif.Fnv.C39_hash_partial
#print axioms Verif.Fnv.C39_defect
#print axioms Verif.Fnv.C39_defect_example
#print axioms Verif.Timestamp.C40_unwrap
#print axioms Verif.Timestamp.C40_no_jump
#print axioms Verif.Timestamp.C40_round
#print axioms Verif.Timestamp.C40_bound_is_exact
#print axioms Verif.KdTree.C41_find
#print axioms Verif.KdTree.C41_nearest_partial
#print axioms Verif.KdTree.C41_negative_limit
#print axioms Verif.KdTree.C42_sort
#print axioms Verif.HexDump.C43_unlimited
#print axioms Verif.HexDump.C43_limited
#print axioms Verif.HexDump.C43_size
#print axioms Verif.Quote.C44_quoted
#print axioms Verif.Quote.C44_smart
#print axioms Verif.Quote.C44_size
#print axioms Verif.Quote.C44_context
#print axioms Verif.Quote.C45_texts
#print axioms Verif.Quote.C45_complete
#print axioms Verif.Quote.C45_injective
#print axioms Verif.Quote.C45_truncated
#print axioms Verif.Quote.C45_smart
#print axioms Verif.Quote.C45_minimal
#print axioms Verif.RectPacker.C46_valid
#print axioms Verif.RectPacker.C46_disjoint
#print axioms Verif.RectPacker.C46_success
#print axioms Verif.RectPacker.C46_second_time
#print axioms Verif.RectPacker.C46_reset
#print axioms Verif.RandomSeed.C47_write
#print axioms Verif.RandomSeed.C47_read_partial
#print axioms Verif.RandomSeed.C47_round_trip_partial
#print axioms Verif.RandomSeed.C47_defect_all_ones
#print axioms Verif.RandomSeed.C47_accept_partial
#print axioms Verif.RandomSeed.C47_accept_exact
#print axioms Verif.RandomSeed.C47_defect_overlong
#print axioms Verif.RandomSeed.C47_read_total
#print axioms Verif.PixelBox.C48_intersects
#print axioms Verif.PixelBox.C48_contains
#print axioms Verif.PixelBox.C48_contains_pixel
#print axioms Verif.PixelBox.C48_clip
#print axioms Verif.PixelBox.C48_valid
#print axioms Verif.UnitFrac.C49_value_partial
#print axioms Verif.UnitFrac.C49_round_trip
#print axioms Verif.UnitFrac.C49_defect
#print axioms Verif.UnitFrac.C50_nearest
#print axioms Verif.UnitFrac.C50_agrees_partial
#print axioms Verif.UnitFrac.C50_defect
#print axioms Verif.UnitFrac.C50_defect_example
#print axioms Verif.UnitFrac.C50_ends
#print axioms Verif.UnitFrac.C50_monotone
#print axioms Verif.UnitFrac.C50_round_trip
#print axioms Verif.WildcardFilter.C51_filter
#print axioms Verif.WildcardFilter.C51_several_dashes
#print axioms Verif.Endianness.C52_detection
#print axioms Verif.Endianness.C52_other
#print axioms Verif.Newline.C53_clear
#print axioms Verif.Integer.C54_periodic_mod
#print axioms Verif.Integer.C55_msb_pos
#print axioms Verif.Integer.C55_num_digits
#print axioms Verif.Integer.C55_num_digits_unique
#print axioms Verif.Integer.C56_shift_left
#print axioms Verif.Integer.C56_logic_shift
#print axioms Verif.Integer.C56_mask
#print axioms Verif.Integer.C56_is_power_of_two
#print axioms Verif.MulPrec.C57_copy
#print axioms Verif.MulPrec.C57_preserved
#print axioms Verif.Buffer.C58_append
#print axioms Verif.Buffer.C58_append_a
#print axioms Verif.Buffer.C58_prepend
#print axioms Verif.Buffer.C58_prepend_a
#print axioms Verif.Buffer.C58_assign
#print axioms Verif.Buffer.C58_expand
#print axioms Verif.Vector.C59_vector
#print axioms Verif.Deque.C59_deque
#print axioms Verif.Vector.C60_vector_partial
#print axioms Verif.Vector.C60_vector_ub
#print axioms Verif.Vector.C60_vector_defect
#print axioms Verif.Deque.C60_deque_partial
#print axioms Verif.Deque.C60_deque_ub
#print axioms Verif.Deque.C60_deque_defect
#print axioms Verif.Deque.C61_iterators
#print axioms Verif.Deque.C61_popFront
#print axioms Verif.Deque.C61_popBack
#print axioms Verif.Deque.C61_pushFront
#print axioms Verif.Deque.C61_pushBack
#print axioms Verif.Vector.C62_capacity
#print axioms Verif.Vector.C62_shrink
#print axioms Verif.Deque.C62_deque_capacity
#print axioms Verif.Deque.C62_deque_nothrow
#print axioms Verif.Deque.C62_deque_shrink
#print axioms Verif.Deque.C63_copyAssign_partial
#print axioms Verif.Deque.C63_copyAssignSelf
#print axioms Verif.Deque.C63_copyAssign_defect
#print axioms Verif.MulPrec.C64_bits
#print axioms Verif.MulPrec.C64_not
#print axioms Verif.MulPrec.C64_shift_left
#print axioms Verif.MulPrec.C64_shift_right
#print axioms Verif.MulPrec.C64_shift_bits
#print axioms Verif.MulPrec.C64_min_max
#print axioms Verif.MulPrec.C64_msb
#print axioms Verif.MulPrec.C65_multi
#print axioms Verif.MulPrec.C65_from_fundamental
#print axioms Verif.MulPrec.C65_to_fundamental
#print axioms Verif.MulPrec.C65_round_trip
#print axioms Verif.StringSplit.C66_split
#print axioms Verif.StringSplit.C66_trim
#print axioms Verif.WordWrap.C67_greedy
#print axioms Verif.WordWrap.C67_unique
#print axioms Verif.WordWrap.C67_fewest
#print axioms Verif.WordWrap.C67_empty
#print axioms Verif.WordWrap.C68_terminates
#print axioms Verif.WordWrap.C68_optimal
#print axioms Verif.WordWrap.C68_overflow
#print axioms Verif.WordWrap.C68_greedy
#print axioms Verif.WordWrap.C69_stale
#print axioms Verif.WordWrap.C69_negation
#print axioms Verif.WordWrap.C69_badness_partial
#print axioms Verif.RandInt.C70_result
#print axioms Verif.RandInt.C70_uniform
#print axioms Verif.RandInt.C70_attempts
#print axioms Verif.SeedSeq.C71_generate
#print axioms Verif.SeedSeq.C71_range
#print axioms Verif.SeedSeq.C71_split
#print axioms Verif.SeedSeq.C72_move_partial
#print axioms Verif.SeedSeq.C72_negation
#print axioms Verif.BitMedium.C73_pack
#print axioms Verif.BitMedium.C73_unpack
#print axioms Verif.BitMedium.C73_round_trip
#print axioms Verif.BitMedium.C73_all
#print axioms Verif.BitMedium.C74_convert
#print axioms Verif.BitMedium.C74_round_trip
#print axioms Verif.SubwordPixel.C75_read
#print axioms Verif.SubwordPixel.C75_write
#print axioms Verif.SubwordPixel.C75_fill
#print axioms Verif.SubwordPixel.C75_read_after_write
#print axioms Verif.SubwordPixel.C75_lossless
#print axioms Verif.SubwordPixel.C75_outside
#print axioms Verif.SubwordPixel.C75_every_buffer
#print axioms Verif.SubwordPixel.C75_buffer_size
#print axioms Verif.IndexedPixel.C76_read
#print axioms Verif.IndexedPixel.C76_write
#print axioms Verif.IndexedPixel.C76_fill
#print axioms Verif.IndexedPixel.C76_read_after_write
#print axioms Verif.IndexedPixel.C76_outside
#print axioms Verif.IndexedPixel.C76_buffer_size
#print axioms Verif.BitField.C77_valid
#print axioms Verif.BitField.C77_width
#print axioms Verif.BitField.C77_shift
#print axioms Verif.BitField.C77_disjoint
#print axioms Verif.BitField.C77_mask
#print axioms Verif.BitField.C77_widest
#print axioms Verif.BitField.C77_pack
#print axioms Verif.PackedPixel.C78_read
#print axioms Verif.PackedPixel.C78_write
#print axioms Verif.PackedPixel.C78_fill
#print axioms Verif.PackedPixel.C78_channels
#print axioms Verif.PackedPixel.C78_read_after_write
#print axioms Verif.PackedPixel.C78_lossless
#print axioms Verif.PackedPixel.C78_outside
#print axioms Verif.PackedPixel.C78_channel_field
#print axioms Verif.PackedPixel.C78_buffer_size
#print axioms Verif.PackedPixel.C78_every_buffer
#print axioms Verif.IntegerPixel.C79_assembly
#print axioms Verif.IntegerPixel.C79_assembly_undefined
#print axioms Verif.IntegerPixel.C79_undefined_32
#print axioms Verif.IntegerPixel.C79_read_partial
#print axioms Verif.IntegerPixel.C79_write_partial
#print axioms Verif.IntegerPixel.C79_fill_partial
#print axioms Verif.IntegerPixel.C79_read_after_write_partial
#print axioms Verif.IntegerPixel.C79_lossless_partial
#print axioms Verif.IntegerPixel.C79_outside
#print axioms Verif.IntegerPixel.C79_buffer_size
#print axioms Verif.IntegerPixel.C79_every_buffer
#print axioms Verif.CliPattern.C80_consume
#print axioms Verif.CliPattern.C80_is_match
#print axioms Verif.CliPattern.C80_can_consume
#print axioms Verif.CliPattern.C80_can_delegate
#print axioms Verif.CliPattern.C81_total
#print axioms Verif.CliPattern.C81_succeeds
#print axioms Verif.CliPattern.C81_cross
#print axioms Verif.CliPattern.C81_positional_partial
#print axioms Verif.CliPattern.C81_prefix_deleg
#print axioms Verif.CliPattern.C81_positional_numbers_wrong
#print axioms Verif.CliPattern.C82_backtrack
#print axioms Verif.CliPattern.C82_unique
#print axioms Verif.CliPattern.C83_descs
#print axioms Verif.CliPattern.C83_match
#print axioms Verif.CliPattern.C83_unclear
#print axioms Verif.CliPattern.C83_repeating
#print axioms Verif.CliPattern.C84_check
#print axioms Verif.CliPattern.C84_values_partial
#print axioms Verif.CliPattern.C84_match_partial
#print axioms Verif.CliPattern.C84_size_for_alternatives_fails
#print axioms Verif.CliSpec.C85_total
#print axioms Verif.CliSpec.C85_structure
#print axioms Verif.CliSpec.C85_language
#print axioms Verif.CliSpec.C85_accepts
#print axioms Verif.CliSpec.C85_clear
#print axioms Verif.CliSpec.C85_errors
#print axioms Verif.CliSpec.C85_repeats
#print axioms Verif.CliSpec.C85_empty
#print axioms Verif.CliSpec.C86_token
#print axioms Verif.CliSpec.C86_total
#print axioms Verif.CliSpec.C86_unambiguous
#print axioms Verif.CliSpec.C86_accepts
#print axioms Verif.CliSpec.C86_result
#print axioms Verif.CliSpec.C86_empty
#print axioms Verif.CliSpec.C86_multiple
#print axioms Verif.CliSpec.C86_alternatives
#print axioms Verif.CliSpec.C86_slots
#print axioms Verif.CliSpec.C86_syntax
#print axioms Verif.CliSpec.C86_recorded
#print axioms Verif.CliSpec.C86_expressible
#print axioms Verif.CliSpec.C87_total
#print axioms Verif.CliSpec.C87_accepts
#print axioms Verif.CliSpec.C87_errors
#print axioms Verif.CliSpec.C87_lookup
#print axioms Verif.CliSpec.C87_options
#print axioms Verif.CliSpec.C87_ready
#print axioms Verif.CliSpec.C87_unambiguous
#print axioms Verif.CliSpec.C87_written
#print axioms Verif.CliSpec.C87_required_partial
#print axioms Verif.CliSpec.C87_required_argument_missing
#print axioms Verif.CliSpec.C88_total
#print axioms Verif.CliSpec.C88_accepts
#print axioms Verif.CliSpec.C88_errors
#print axioms Verif.CliSpec.C88_patterns
#print axioms Verif.CliSpec.C88_names
#print axioms Verif.CliSpec.C88_options
#print axioms Verif.CliProc.C89_read
#print axioms Verif.CliProc.C89_total
#print axioms Verif.CliProc.C89_invoke
#print axioms Verif.CliProc.C89_delegate
#print axioms Verif.CliProc.C89_options
#print axioms Verif.CliProc.C89_short_circuit_partial
#print axioms Verif.CliProc.C89_errors
#print axioms Verif.CliProc.C89_complete
#print axioms Verif.CliProc.C89_compound_partial
#print axioms Verif.CliProc.C89_short_circuit_missed
#print axioms Verif.CliProc.C89_compound_delegated
#print axioms Verif.CliProc.C89_unexpected_argument
#print axioms Verif.CliProc.C90_process_partial
#print axioms Verif.CliProc.C90_status
#print axioms Verif.CliProc.C90_returns_false
#print axioms Verif.CliProc.C90_delegated_partial
#print axioms Verif.CliProc.C90_nonzero_status_dropped
#print axioms Verif.ImageIter.C91_fill
#print axioms Verif.ImageIter.C91_copy
#print axioms Verif.ImageIter.C91_repeat
#print axioms Verif.ImageIter.C91_fold
#print axioms Verif.ImageIter.C91_tray_repeat
#print axioms Verif.ImageIter.C91_repeat_left
#print axioms Verif.ImageIter.C91_repeat_right
#print axioms Verif.ImageIter.C91_repeat_up
#print axioms Verif.ImageIter.C91_repeat_down
#print axioms Verif.ImageIter.C91_subtray
#print axioms Verif.ImageIter.C91_layout
#print axioms Verif.ImageReader.C92_lossless
#print axioms Verif.ImageReader.C92_converted
#print axioms Verif.ImageReader.C92_converted_float
#print axioms Verif.ImageReader.C92_inside
#print axioms Verif.ImageReader.C92_order
#print axioms Verif.ImageReader.C92_seen
#print axioms Verif.ImageReader.C92_subdivide
#print axioms Verif.ColorSlot.C93_results
#print axioms Verif.ColorSlot.C93_exact
#print axioms Verif.ColorSlot.C93_pure
#print axioms Verif.Palette.C94_size
#print axioms Verif.Palette.C94_results_partial
#print axioms Verif.Palette.C94_colors
#print axioms Verif.Palette.C94_indexed
#print axioms Verif.Palette.C94_zero_width
#print axioms Verif.Palette.C94_wide
#print axioms Verif.ImageWriter.C95_block_converted_partial
#print axioms Verif.ImageWriter.C95_block_lossless_partial
#print axioms Verif.ImageWriter.C95_lossless
#print axioms Verif.ImageWriter.C95_block_partial
#print axioms Verif.ImageWriter.C95_mask_partial
#print axioms Verif.ImageWriter.C95_image_converted_partial
#print axioms Verif.ImageWriter.C95_image_lossless_partial
#print axioms Verif.ImageWriter.C95_background_not_blended
#print axioms Verif.ImageWriter.C95_fill_partial
#print axioms Verif.ImageWriter.C95_least_position
#print axioms Verif.PixelConvert.C96_convert_partial
#print axioms Verif.PixelConvert.C96_direct_partial
#print axioms Verif.PixelConvert.C96_agree_partial
#print axioms Verif.PixelConvert.C96_lossless_partial
#print axioms Verif.PixelConvert.C96_over_black_partial
#print axioms Verif.PixelConvert.C96_opacity
#print axioms Verif.PixelConvert.C96_degenerate
#print axioms Verif.PixelConvert.C96_no_components
#print axioms Verif.ReverseLookup.C97_lookup_partial
#print axioms Verif.ReverseLookup.C97_sqdist_partial
#print axioms Verif.ReverseLookup.C97_no_alpha
#print axioms Verif.ReverseLookup.C97_other_channels
#print axioms Verif.BufferFormat.C98_valid_partial
#print axioms Verif.BufferFormat.C98_no_channels
#print axioms Verif.BufferFormat.C98_invalid
#print axioms Verif.BufferFormat.C98_to_subword_partial
#print axioms Verif.BufferFormat.C98_integer
#print axioms Verif.BufferFormat.C98_succeeds_partial
#print axioms Verif.BufferFormat.C98_packed_partial
#print axioms Verif.BufferFormat.C98_opposite
#print axioms Verif.BufferFormat.C98_swapped
#print axioms Verif.BufferFormat.C98_subword_partial
#print axioms Verif.BufferFormat.C98_overrun
#print axioms Verif.BufferFormat.C98_packed_missing
#print axioms Verif.StringTemplate.C99_reading
#print axioms Verif.StringTemplate.C99_append
#print axioms Verif.StringTemplate.C99_accepted
#print axioms Verif.StringTemplate.C99_refused
#print axioms Verif.StringTemplate.C99_untouched
#print axioms Verif.StringTemplate.C99_parse
#print axioms Verif.StringTemplate.C99_default_parser
#print axioms Verif.StringTemplate.C99_expand
#print axioms Verif.StringTemplate.C99_text
#print axioms Verif.StringTemplate.C99_escape
#print axioms Verif.StringTemplate.C99_field_width
#print axioms Verif.StringTemplate.C99_refers_to
#print axioms Verif.StringTemplate.C99_define
