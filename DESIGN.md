# Formal model of archon: design

Source under study: `/repo` (C++), read as text only; nothing was compiled or run.
All proofs are in Lean 4 (`/verif/lean`), modules under `Verif/`.

## 1. Trusted base

* Lean's kernel (4.33.0).
* Axioms: at most `propext`, `Classical.choice`, `Quot.sound` (checked with `#print axioms`, see
  `lean/Verif/Audit.lean`). No own axioms, no `sorry`, no `native_decide`, no `bv_decide`.
* The fidelity of the models to the C++ text. Every definition in a `Model.lean` file cites the
  file and lines that it models. Where it is simplified, the comment says so.
* General modelling conventions (apply everywhere unless a definition says otherwise):
  * Memory allocation does not fail (`std::bad_alloc` not modelled) and element copy/move/construct
    does not throw, except in the models of `Vector` and `Deque` (see below).
  * `std::size_t` counters are `Nat`. Where overflow is the point of the property, the type's
    maximum is an explicit parameter or an explicit check.
  * Out-of-bounds access, reading uninitialized slots, signed overflow etc. are distinct outcomes
    (`none`/`ub`) of the model, never silently totalised.
  * Characters are modelled as numbers or as an abstract type with decidable equality; locale
    facets (`widen`, `narrow`, `ctype`) are taken to be those of the classic locale.
  * `ARCHON_ASSERT` failure is an outcome (`abort`) where reachable.
  * Loops are structural recursion, or recursion on an explicit fuel that is then proved
    sufficient.

Not modelled at all: threads, OS, files, X11/SDL, floating point rounding, performance (except
counting reallocations), exceptions from user types.

## 2. Layout of the Lean project

For each subject `X`: `Verif/X/Model.lean` (model of the code with citations), `Verif/X/Spec.lean`
(independent specification), `Verif/X/Lemmas.lean` (helper lemmas), `Verif/X/Props.lean` (property
theorems named after the claims, with non-vacuity examples).

## 3. Plan per property

| id | what is modelled | how it is proved |
|----|------------------|------------------|
| C01 | `IncrementalEncoder/Decoder` state machines, alphabet tables | spec: group-of-3 bit regrouping; round trip by simulation. Fails with padding (finding 1): negation + `_partial` |
| C02 | buffer size formulas | length of spec encoding by induction |
| C03 | same state machines with output budget | step-composition: state machine run on `a ++ b` = run on `a` then `b` |
| C04 | one-shot `decode` wrapper incl. `insufficient_buffer_space` | negation by witness (finding 2), `_partial` with exact condition |
| C05 | decoder state machine | inversion of the simulation |
| C06–C10, C12 | `encode/decode_utf8_incr`, `encode/decode_utf16_incr`, transcoders | spec: encoding function on code points; inversion of decode, induction on the list |
| C11 | lenient loops | negation by witness (finding 8), `_partial` |
| C13, C14 | `Deque` ring buffer with memory of optional cells and UB outcome | refinement to `List`; erase negation by witness (findings 4, 5) and `_partial` for the correct layouts |
| C15 | `verify_index` of the containers | decision logic; `Buffer::at` negation (finding 3) |
| C16 | `suggest_new_buffer_size` | arithmetic; induction on number of appends |
| C58 | `Buffer` append/prepend/assign/expand | exact outcome lemmas on lists |
| C59, C60, C62 | same models of `Vector` and `Deque`, with throwing constructors and allocation failure | corollaries of the refinement; negation for pushing an own element (finding 17) |
| C61 | deque iterators | arithmetic on wrapped indexes |
| C63 | deque copy assignment | corollary of C13; negation (finding 6) |
| C17–C19 | `VectorImpl` with memory of optional cells | refinement to `List`; negations for resize, reserve (findings 10, 11) |
| C20–C24 | functions of `integer.hpp` over abstract types (signedness, value bits), integral promotion and UB explicit | case analysis on types, linear arithmetic |
| C54–C56 | periodic remainder, bit/digit positions, shifts, masks | same model; Newton iteration, binary search and digit loop by invariants |
| C25, C26 | integer parser, formatter loops | spec: value of digit string in ℤ; induction |
| C27, C28, C64, C57, C65 | `MulPrecInt` with generic part width and count; `int_bit_copy`; conversions | value function in ℕ/ℤ, carry induction, Knuth D correctness, bit invariants |
| C29–C31 | newline codec loops | induction on text; composition lemma |
| C32, C33 | `FlatMapImpl` binary searches on a list | loop invariant; refinement to finite map / stable sorted list |
| C34 | `RangeMap::update`, `defrag` | point-wise lookup, induction on entries |
| C35 | `FrozenSets` flat storage | negation (finding 12), `_partial` for `freeze` and non-coinciding unions |
| C36, C37 | Glushkov construction + subset construction | language equivalence by induction on the string |
| C38 | hash buckets | induction on associations |
| C39 | FNV-1a loops on words | spec: published fold; negation for narrow negative ints (finding 13) |
| C40 | unwrap arithmetic | integer arithmetic over all histories |
| C41, C42 | k-d sort/find over an ordered ring | loop invariants on the current and the pending ranges |
| C43 | hex dump loop | induction |
| C44, C45 | quote | induction; decoding function as inverse |
| C46 | rectangle packer with node array and explicit stack | invariant: free nodes of a bin are apart from each other and from placed rectangles |
| C47 | random seed text form | digit-string round trip; negation for all-ones pair (finding 14) |
| C48 | pixel box predicates with checked `int` | set equality, linear arithmetic |
| C49, C50 | unit fraction conversion | arithmetic on ℕ |
| C51 | filter grammar on top of the matcher and the string splitter | corollary of C36 and C66 |
| C67 | greedy word wrapping | loop invariant with saturated cursor; exchange argument for the number of lines |
| C68, C69 | Knuth's algorithm as a label machine with cache, bound and breakpoint reuse | invariant of the search; strong induction on the first word of a line |
| C70 | `rand_int()` for multiple precision integers, given the random numbers of the part type | arithmetic modulo powers of two; uniqueness of digit sequences |
| C71 | `SeedSeq::generate()` with widths of types as parameters | simulation of an independent statement of the algorithm of the C++17 standard |
| C72 | construction and moving of `SeedSeq` objects | invariant of named objects; counterexample program |
| C73, C74 | `pack_int()`, `unpack_int()`, `int_to_int()` for arbitrary integer types | arithmetic modulo powers of two, on top of C49 |
| C75 | `SubwordPixelFormat`: `read()`, `write()`, `fill()`, `get_buffer_size()` | a buffer as a flat array of pixel slots; digits in base 2^k; loops shared with C76 |
| C76 | `IndexedPixelFormat`: `read()`, `write()`, `fill()`, `get_buffer_size()` | as C75, with units that consist of several words |
| C77 | `bit_field.hpp`: `valid_bit_fields()`, `get_bit_field_width()`, `get_bit_field_shift()`, `get_bit_field_mask()`, `widest_bit_field()` | recursion over the fields; sums over the tail; bits of masks by `testBit` |
| C78 | `PackedPixelFormat`: `read()`, `write()`, `fill()`, `get_buffer_size()`, `get_channel_width()`, `get_channel_shift()` | one pixel per group of words (loops in `PixelGrid`, shared with C79); splitting of a packed integer at one field |
| C79 | `IntegerPixelFormat`: `read()`, `write()`, `fill()`, `get_buffer_size()` | one or more words per channel (loops in `PixelGrid`); at most 16 bits per channel (integer transfer); `read_comp()` also for greater depths |
| C80, C81, C82 | `Nfa`, `NfaBuilder`, `PatternMatcher` of `cli` | Glushkov construction (`First`, `Last`, `Fol`) by induction on the pattern, subset construction by loop invariants, traces |
| C83 | `PatternArgsParser::generate_descs()` of `cli` | steps follow the structure of the match, by induction on the pattern; two descriptions of some match for each excluded form |
| C84 | `PatternFuncChecker`, `PatternArgsParser::State` of `cli` | function parameter types as a data type, templates as functions of that type; parsing of a value as a predicate on arguments; induction on the pattern in both directions |
| C85 | `SpecParser::record()`, `Spec::ensure_keyword()` and `ensure_pattern_option()` of `cli` | the two labels `node_1` and `node_2` of the function with its variables as configurations of a machine with a step limit; maps as association lists; induction on the expression, in sequence context and in branch context |
| C86 | `SpecParser` of `cli`: `extract_next_token()`, the recursive-descent parser, and `parse_pattern()` | positions as what remains of the text; narrowing and classification of characters as parameters; a fuel that is shown not to matter; soundness by induction on the fuel, completeness by induction on the derivation. Remark: the keyword `-` must be followed by a space, even before a closing bracket, as `-]` is taken to be a short option |
| C87 | options in the constructor of `Processor` of `cli`: `SpecParser::parse_option_forms()`, `parse_option_arg()`, `get_option_forms()`, `get_option_arg_spec()`, `Spec::add_option()` | actions are reduced to whether they accept and require an argument; an invariant that says which option each name leads to; induction on the list of declarations |
| C88 | constructor of `Processor` of `cli`, with `SpecParser::parse_pattern()` and `Spec::add_pattern()` | composition of C84, C85, C86, and C87; the trace of registered symbols gives an invariant that says which names lead to the same option; parameters depend on symbols only through whether they are value slots |
| C89 | `Processor::process()` of `cli/impl`, and the extraction of option arguments in `invoke_options()` | arguments are read by an inductive grammar that is independent of patterns; the state of the loop is tied to the grammar by an invariant (`Tracks`) that uses C82 and C88; outcomes are characterized by the groups of the reading; findings 30, 31, 32 |
| C90 | `process()`, `do_process()`, `invoke_options()`, and `report_errors()` of `cli/processor.hpp`, `invoke_options()` of `cli/impl/processor.hpp`, the default error handler | the outcome is one of the constructors of `Does`, which refers to the reading of arguments (C89), the match (C82), and the values (C84), not to the state of the processor; delegation is described by a chain of what was left behind (`Chain`); finding 33 |
| C91 | `Iter` and `Tray` of `image`: `fill()`, `copy_to()`, `copy_from()`, `repeat()`, `repeat_left()` and the like, `subtray()` | memory is a partial map from addresses to components; an update is described by the set of components that it changes and by their new values, and updates compose |
| C92 | `get_block()` of `image/reader.hpp`: `subdivide()`, `read_g()`, `read_e()`, `adjust()`, `read()`, `convert_1()`, `convert_2()` | adjustment of one coordinate is characterised first (`Adjusted`); then every step of the expansion keeps the parts of the tray that are already right, and the parts are glued together |
| C93 | color slots of `image/reader.hpp` and `image/reader.cpp`: `set_color_a()`, `get_color_a()`, `do_set_color()`, `set_default_color()`, `ensure_color_slot_f/r/u()`, `init_color_slot_f/r/u()`, `is_color_slot_solid()` | invariant: every form that is marked valid is the right form of the color last assigned, and a form that is not derivable is always valid |
| C94 | palettes of `image/reader.hpp` and `image/reader.cpp`: `determine_effective_palette_size()`, `palette_lookup()`, `ensure_palette_cache_u/f()`, `init_palette_cache_u/f()`, `instantiate_palette()` | the cache is tied to the palette image by an invariant that extends the one of C93; the conversion of whole rows and of the last partial row gives a list in row-major order; reading of the palette image is discharged by C92; findings 34, 35 |
| C95 | `image/writer.hpp` and `image/writer.cpp`: `put_block_a()`, `put_block_mask()`, `put_image_a()`, `fill()`, `write_b()`, `write()`; `blend()` | what happens to one box is described by the set of pixels that it changes and their new colors (`Painted`); this composes over boxes that do not overlap, where blending uses colors of the original image because no box touches the pixels of another one; reading of the other image is discharged by C92; findings 36, 37 |
| C96 | `image/pixel_convert.hpp`: `pixel_convert()`, `pixel_convert_a()`, `pixel_convert_remove_alpha()`; `image/comp_repr.hpp`: `comp_repr_convert()`; `image/color_space.hpp/.cpp`: `color_space_convert()`, the standard color spaces | the meaning of a pixel is a color multiplied by opacity, and an opacity; every path through the code is shown to write the expression of the moved meaning; findings 38, 39 |
| C97 | `image/writer.hpp` and `image/writer.cpp`: `reverse_palette_lookup_a()`, `color_sqdist_a()`, `color_to_promoted_native()`, `instantiate_palette_kdtree()` | by C41 and C42 (k-d trees), with an invariant on the instantiated tree over sequences of lookups; findings 40, 41 |
| C98 | `image/buffer_format.hpp/.cpp`: `try_cast_to()` for all kinds of formats, `is_valid()`, `ChannelConf`, `get_bits_per_word()`, `get_bytes_per_word()`, `try_get_byte_order()` | memory is a function from addresses to bytes, and words are numbers with digits in a byte order; blocks of digits of nested numbers (`number_nest`, `number_block`) relate words to bytes and bit compounds to words; findings 42 to 45 |
| C99 | `core/string_template.hpp`: `StringTemplate`, `Parameters`, `Parser`, `Expansion`; `BasicStreamOutputAltHelper` of `core/stream_output.hpp` | the syntax is an inductive relation between strings, pieces, and faults; evaluation functions and error handlers are arbitrary; finding 46 |
| C100 | `core/memory_output_stream.hpp`: `BasicMemoryStreambuf` | a file of limited size; the largest values of `std::size_t`, the stream offset type, and `int` are parameters |
| C101 | `core/seed_memory_output_stream.hpp`: `BasicSeedMemoryStreambuf` | invariant over sequences of operations; allocation can fail; finding 47 |
| C102 | `core/memory_input_stream.hpp`: `BasicMemoryInputStreambuf` | a file with fixed contents |
| C103 | `core/super_int.hpp`: representation, comparison, wrapping arithmetic, bitwise operators | integer arithmetic modulo 2^(N+1), `Int.testBit` |
| C104 | `core/super_int.hpp`: `add_with_overflow_detect()`, ..., `operator/()`, `operator%()` | integer arithmetic, truncated quotient and remainder |
| C105 | `core/super_int.hpp`: conversion, shift, output | integers, decimal numerals |
| C106 | `core/algorithm.hpp`: `stable_sort()` | lists, strict weak orders |
| C107 | `util/css_color.cpp`, `util/colors.hpp`: named colors and maps | keywords of CSS Color Module Level 3 (written independently) |
| C108 | `util/css_color.cpp`: `format()`, `util/as_css_color.hpp` | hexadecimal notation, functional notation |
| C109 | `util/css_color.cpp`: `parse()` | hexadecimal notation, functional notation |
| C110 | `util/color.hpp`: packing | positional notation |
| C111 | `util/color_space.hpp`: HSL | CSS Color Module Level 3, section 4.2.4 |
| C112 | `util/color_space.hpp`: HSV | the conventional definition by sixths of the circle |
| C113 | `util/unit_frac.hpp`: floating-point conversion, and its users in `util/color.hpp`, `util/css_color.cpp` | equality, equal parts of the unit interval |
| C114 | `core/math.hpp`: `periodic_mod()` | range and congruence |
| C115 | `core/float.hpp`: `min_float_not_below_nonpos_int()`, `max_float_not_above_nonneg_int()`, `min_float_for_int()`, `max_float_for_int()` | extreme values in range, no undefined behavior; documented requirements are insufficient |
| C116 | `core/float.hpp`: `float_equal_int()` and the four ordering comparisons | correct under side conditions (partial); exact condition for failure |
| C117 | `core/float.hpp`: `try_float_to_int()`, `clamped_float_to_int()` | truncation, clamping, NaN, no undefined behavior |
| C118 | `core/float_traits.hpp`: requirements for floating-point types | binary formats satisfy them |
| C119 | `math/matrix.hpp`: `decompose()` | A = P * L * U, pivots, partial pivoting |
| C120 | `math/matrix.hpp`: `det()` | equals the determinant |
| C121 | `math/matrix.hpp`: `try_inv()`, `inv()` | two-sided inverse, fails precisely for singular matrices |
| C122 | `math/matrix.hpp`: `try_lower_tri_inv()`, `try_upper_tri_inv()` | inverse, failure, elements neither read nor modified |
| C123 | `render/impl/key_bindings.cpp`: `KeyBindings`: `bind_key()`, `on_keydown()`, `on_keyup()` | pairing of key down and key up calls; false when a pressed key is bound |
| C124 | same: `on_key()`, `on_reconfigured()` | multiplicity of presses against an independent description of series |
| C125 | same: `on_blur()`, `resume_incomplete_on_blur()` | outstanding key up calls are made once; undefined behavior when a handler binds a new key |
| C126 | `render/noinst/engine_impl.cpp`: modifier key handlers | documented mode for one modifier key at a time; false otherwise |
| C127 | `math/quaternion.hpp`: arithmetic | same as Hamilton's quaternions |
| C128 | `math/quaternion.{hpp,cpp}`, `math/rotation.hpp`: creation from axis and angle, Euler angles, conversion to matrix | agree with Rodrigues' rotation formula |
| C129 | `math/quaternion.hpp`: `to_axis_angle()` | inverse of creation from axis and angle; angle is not clamped |
| C130 | `math/rotation.hpp`: operators of `Rotation` | composition, inverse, multiples |
| C131 | `render/virt_trackball.{hpp,cpp}`: `track()`, `get_orientation()` | follows the mouse by the shortest path, except to the opposite side |
| C132 | same: `acquire()`, `set_orientation()`, `set_spin()` | orientation is continuous |
| C133 | same: `release()` | spin continues the movement of the last 100 milliseconds; lost after zero milliseconds |
| C134 | `render/impl/finite_curve_memory.hpp`, `finite_sequence_memory.hpp` | retained samples and interpolation; one millisecond short |
| C135 | `util/perspect_proj.hpp` | size of viewport in meters and pixels, resolution |
| C136 | `util/perspect_proj.hpp` | fields and angles of view, clip planes |
| C137 | `util/perspect_proj.hpp` | solid angle of view (wrong unless mean field of view is 2) |
| C138 | `util/perspect_proj.hpp` | automatic zoom and distance (distance wrong unless zoom factor is 1) |
| C139 | `util/perlin_noise.hpp` | number, layout, and use of gradients |
| C140 | `util/perlin_noise.hpp` | noise value, continuity, amplitude |
| C141 | `core/histogram.hpp` | counts of a histogram |
| C142 | `core/histogram.hpp` | printing of a histogram |
| C143 | `display/noinst/edid.cpp` | parsing of display identification data |
| C144 | `core/as_list.hpp` | formatting and parsing of lists |
| C145 | `core/as_list.hpp` | lists with elided trailing elements |
| C146 | `core/as_list.hpp` | lists of variable length |
| C147 | `log/*.hpp` | routing and prefixes of log messages |
| C148 | `log/limit_logger.hpp` | log level limits |
| C149 | `log/prefix.hpp` | formatting of log messages |
| C150 | `log/channel_map.hpp` | channels of loggers |
| C151 | `log/impl/encoding_logger_impl.hpp` | encoding loggers |
| C152 | `core/text_file.hpp` | text files behave like ideal files |
| C153 | `core/impl/buffered_text_file_impl.hpp` | flushing of text files |
| C154 | `core/text_file.hpp` | saving and loading of text files |
| C155 | `core/impl/text_file_impl.hpp` | recovery from failed flush of text file |
| C156 | `core/text_file.hpp` | reuse of text file objects |
| C157 | `core/source.cpp, core/file_source.cpp` | sources deliver files in order |
| C158 | `core/rewindable_source.cpp` | rewindable sources |
| C159 | `core/file_sink.cpp` | sinks write what they accept |
| C160 | `image/file_format_registry.cpp` | lookup in file format registry |
| C161 | `image/file_format_registry.cpp` | registration of duplicate file formats |
| C162 | `image/load.cpp` | image file format detection |
| C163 | `image/save.cpp` | choice of file format for saving |
| C164 | `check/test_runner.cpp` | selection of tests |
| C165 | `check/noinst/thread_context_impl.cpp` | each test execution takes place exactly once |
| C166 | `check/noinst/thread_context_impl.cpp` | mutual exclusion of tests |
| C167 | `check/test_runner.cpp` | order of test execution |
| C168 | `check/noinst/thread_context_impl.cpp` | summary and result of a test run |
| C169 | `check/noinst/thread_context_impl.cpp` | sequence of reports |
| C170 | `check/noinst/thread_context_impl.cpp` | seeds and locations |
| C171 | `check/noinst/thread_context_impl.cpp` | abort on failure |
| C172 | `check/noinst/thread_context_impl.cpp` | test runs terminate |
| C173 | `check/test_runner.cpp` | log files stay inside the base directory |
| C174 | `check/xml_reporter.cpp` | escaping in XML reports |
| C175 | `check/xml_reporter.cpp` | xML report document |
| C176 | `display/noinst/x11/support.cpp` | finding X11 visuals |
| C177 | `display/noinst/x11/support.cpp` | preferences when finding X11 visuals |
| C178 | `display/noinst/x11/support.cpp` | channel masks of X11 visuals |
| C179 | `display/noinst/mult_pixel_format.hpp` | packing of color components by multiplication |
| C180 | `display/noinst/x11/support.cpp` | check of standard colormap parameters |
| C181 | `display/noinst/x11/support.cpp` | initialization of PseudoColor and GrayScale colormaps |
| C182 | `display/noinst/x11/support.cpp` | initialization of DirectColor colormaps |
| C183 | `display/noinst/x11/support.hpp` | interned colors agree with images |
| C184 | `display/noinst/x11/support.cpp` | allocation of gray levels in the default colormap |
| C185 | `display/noinst/palette_map.cpp` | lookup of colors in a palette map |
| C186 | `display/noinst/palette_map.hpp` | reading of palettes |
| C187 | `display/noinst/palette_map.hpp` | ownership of palette components |
| C188 | `image/block.hpp` | storage of pixel blocks |
| C189 | `image/block.hpp` | blocks do not have negative sizes |
| C190 | `image/block.hpp` | retrieval of pixels and color indexes from blocks |
| C191 | `image/tray_image.hpp` | images that refer to blocks of pixels |
| C192 | `core/impl/text_codec_impl.hpp` | text encoders and decoders do not depend on buffer sizes |
| C193 | `core/impl/text_codec_impl.hpp` | newlines in Windows text form with degenerate character codecs |
| C194 | `core/impl/text_codec_impl.hpp` | encoding in the Windows text form with other character codecs |
| C195 | `core/impl/text_codec_impl.hpp` | decoding of the Windows text form with other character codecs |
| C196 | `util/pixel_size.hpp` | textual representation of pixel sizes |
| C197 | `util/pixel_pos.hpp` | textual representation of pixel positions |
| C198 | `util/pixel_size.hpp` | comparison and arithmetic of pixel sizes and positions |
| C199 | `util/pixel_size.hpp` | division of pixel sizes rounds down |
| C200 | `core/as_int.hpp` | decimal, octal, and hexadecimal integers in text |
| C201 | `core/as_int.hpp` | reading an integer from a stream |
| C202 | `core/as_int.hpp` | integers that are written to a stream can be read back |
| C203 | `check/test_context.cpp` | test files of different tests do not collide |
| C204 | `check/test_path.hpp` | life of test files |
| C205 | `core/text_parser.hpp` | parsing of text with a fixed number of fields |
| C206 | `core/text_parser.hpp` | parsing of text with a variable number of fields |
| C207 | `core/terminal.cpp` | switching between text styles |
| C208 | `core/terminal.cpp` | terminals where bold and faint are independent |
| C209 | `core/terminal.hpp` | individual escape sequences and buffer size |
| C210 | `core/terminal.cpp` | shortest escape sequence |
| C211 | `core/enum.hpp` | names of enumeration values |
| C212 | `core/enum.hpp` | enumeration values in streams |
| C213 | `font/loader_fallback.cpp` | specification of the fallback font |
| C214 | `font/loader_fallback.cpp` | rendering of a glyph of the fallback font |
| C215 | `core/format_as.hpp` | ordinals |
| C216 | `core/format_as.hpp` | amounts of time |
| C217 | `core/format_as.hpp` | quantities with decadic prefixes |
| C218 | `core/format_as.hpp` | quantities with binary prefixes, and amounts of memory |
| C219 | `core/format_as.hpp` | percentages |
| C220 | `core/timer.cpp` | elapsed time |
| C221 | `core/format.hpp` | parameterized strings |
| C222 | `font/code_point.hpp` | code points of fonts |
| C223 | `font/code_point.hpp` | ranges of code points of fonts |
| C224 | `core/stride_iterator.hpp` | movement, access, and comparison of stride iterators |
| C225 | `core/stride_iterator.hpp` | distance between stride iterators |
| C226 | `core/inexact_compare.hpp` | inexact comparison of floating-point numbers |
| C66 | string splitter, `for_each_word()`, `trim()` | loop invariants on offsets |
| C52 | byte order detection | finite maps of bytes |

### Assumptions of the integer model

* `I`, the number of value bits of `int`, is a parameter. Theorems assume only what they need of it
  (`15 ≤ I` for the square root; the C++ standard guarantees it).
* Built-in integer types only, two's complement. `bool` is an unsigned type with one bit for casts and arithmetic;
  it is excluded from the two's complement casts.
* `std::countl_zero` is represented by its specification.

### Assumptions of the buffer and text models

* `M`, the maximum of `std::size_t`, is a parameter. `narrow`/`widen` of a character mapper are functions; digits and
  letters have their ASCII codes.

### Assumptions of the Unicode model (`Unicode`)

* Characters are natural numbers (`traits_type::to_int_type()` is taken to give the unsigned value). The loop body of
  each incremental function is a function from remaining input and remaining space to a step; the loop, the appending
  (`_a`), `try_`, throwing and lenient (`_l`) functions are shared between the six codecs, as their texts are the same
  but for the names.
* A character type of the output with fewer than 21 value bits selects the `reduced` branch. The `static_assert` of
  `decode_utf16_incr()` demands at least 21 bits, which contradicts its documentation (16-bit `wchar_t`); `reduced`
  is modelled for it all the same.

### Assumptions of the vector and deque models (`Uninit`, `Vector`, `Deque`)

* A block of memory is a number of slots that hold an object or nothing. Reading, moving or destroying an object that
  does not exist is undefined behavior. Constructing over a live object, and releasing a block that still holds
  objects, are leaks rather than undefined behavior in C++; they are counted as errors too.
* Move constructors and destructors do not throw (for element types with throwing moves, other branches are chosen at
  compile time; those are not modelled). Any other constructor call can throw. Allocation can fail for any size.
* `assign()` from iterators into the container itself is not modelled.
* References and iterators are positions in a block; a generation counter tells blocks apart.

### Assumptions of the smaller models

* `HexDump`: built on the integer and integer formatter models; output is what is passed to the stream.
* `FrozenSets`: the comparison is a linear order; iterator arguments do not refer to the storage of the collection.
  `std::sort`, `std::unique` and `std::set_union` are represented by list functions with their specified results.
* `Fnv`: `std::uint_fast32_t` has at least 32 bits and is not narrower than `int`; `bool` is excluded from the theorem
  about the defect by `8 ∣ width`.
* `PixelBox`: `int` has a two's complement range, arithmetic that leaves it is undefined behavior. Boxes are arbitrary, unless
  a theorem says that their distance is representable.
* `UnitFrac`: the unsigned type is large enough for the sum of the two bit widths, as the assertions of the code demand. The
  floating point functions are not modelled; the rational number they are documented to represent is the specification.
* `Endianness`: the memory of an object is given by the assignment of significance to byte positions.
* `RandomSeed`: the locale is a `widen` / `narrow` / `is alnum` triple, for which the theorems assume what holds in every
  locale of practical interest (`Spec.Good`). Streams are lists of characters. White space skipping is not modelled.

### Assumptions of the multiple precision model (`MulPrec`)

* The part type is an unsigned fundamental type with `w ≥ 2` bits (`w ≥ 1` for copying and conversion); `int` has `I ≥ 1` value
  bits and `I ≠ w` (no unsigned type has as many value bits as `int`). There is at least one part.
* Arrays are lists of naturals. `none` stands for undefined behavior and for failed assertions. Arithmetic is done in the
  promoted part type with the operations of the integer model; shifts of signed types have the meaning given by C++20.
* Compound assignment, increment and stream operators, and formatting and parsing through them, are not modelled.
* Conversion: `bool`, and fundamental types for which two parts are needed, are not modelled.

### Assumptions of the string matcher model (`StringMatcher`)

- Modelled: `BasicStringMatcher::Builder` (construction, `add_pattern()`, `clear()`, `empty()`, `build()` with both settings of
  `allow_interpattern_ambiguity`), the parser, the registration of positions, `build_dfa()`, `match()`, `is_degenerate()`. Position
  sets are stored by the model of `FrozenSets` (with the defects it has), and transitions are found with the range map model with an
  update function that has side effects on that storage.
- Characters are integers in the range of the character type (`std::numeric_limits<C>`); the comparison of characters in the range
  map is that of the values. The asterisk is obtained by widening, which is an arbitrary integer here.
- `build()` does not change what the builder holds. The number of turns of the main loop is bounded by `2 ^ positions`; that the
  bound suffices is proved.
- Not modelled: `add_pattern(const char*)` (widening of a narrow pattern), the text of the error message, memory reuse.

### Assumptions of the test filter model (`StringSplit`, `WildcardFilter`)

- Modelled: `BasicStringSplitter`, `for_each_word()` and `trim()` of `core/string.hpp`, and `WildcardFilter` of `check`. The star, the
  space and the dash are parameters, as are the smallest and largest character; that the locale widens them correctly is not
  modelled. Exceptions due to memory exhaustion are not modelled.
- The documentation of the filter does not say what separates patterns, but says that a pattern contains no white-space. In the code,
  only the space separates. The theorem is about words separated by spaces; a tab is then an ordinary character of a pattern.
- The documented form of a filter has at most one dash. `C51_several_dashes` says what happens otherwise.

### Assumptions of the quotation model (`Quote`)

- Modelled: `impl::do_quote()` (all paths, including the assertions), that is, `quoted()`, `quoted_s()`, `smart_quoted()` and
  `smart_quoted_s()`. What the stream does with the output (field width) is not modelled.
- Character classification and narrowing are parameters. For C45, it is assumed that only control characters are narrowed to those, that
  hexadecimal digits are classified as such, and that basic characters are widened as in ASCII.
- When there is no size limit, it is assumed that the size of the complete quotation does not come within 5 of the largest value of
  `std::size_t` (otherwise, an assertion could fail).

### Assumptions of the command-line pattern model (`CliPattern`)

- Modelled: `Nfa`, `NfaBuilder`, `PatternMatcher`, and `PatternArgsParser::generate_descs()`, including all assertions and all accesses to tables. The pattern structure is the
  set of tables that is produced by the specification parser; the theorems are about all tables that describe well-formed patterns
  (`EncRoot` relates tables to a tree). An alternatives construct has at least one branch.
- The number of steps of the loops is bounded by a parameter. The outcome is that of every sufficiently large bound (`Constructs`), and it is
  proved to exist.
- A state of the deterministic automaton is found by the elements of its set; how sets are stored is not modelled. Messages are represented
  by the numbers in them.

### Assumptions of the k-d tree model (`KdTree`)

- Modelled: `Kdtree::sort()` and `Kdtree::find()` of `util/kdtree.hpp`, including the explicit stack of pending ranges of size
  `max_levels`. A stack overflow (failed assertion) is `none`, and the theorems show that it does not happen.
- Coordinates are elements of an ordered ring, and arithmetic is exact. Rounding of floating-point arithmetic is not modelled (the
  documentation says that the result can then be different). `std::nth_element()` is an arbitrary function that satisfies its contract.
- The number of points is less than 2 to the power of `max_levels`. This is always the case in the code, because `max_levels` is the
  number of value bits in the difference type of the iterator.

### Assumptions of the word wrapping model (`WordWrap`)

* The `goto` labels are states of a machine whose steps are the code between labels. A number bounds the number of steps; the theorems
  hold for any number that suffices, and one exists (`C68_terminates`). Assertions and out of bounds accesses yield `none`.
* The largest values of `std::size_t` and of the badness type are parameters. Theorems assume that every line size is less than the
  former, and that the latter is not zero. Indexes of geometry objects must be valid, as documented.
* Contents of slots from earlier operations are taken to be zero; they are written before they are read.
* Not modelled: memory exhaustion, overflow of the size of the cache, number of steps.

### Assumptions of the rectangle packer model (`RectPacker`)

- Modelled: `RectanglePacker` of `util/rectangle_packer.hpp` except `suggest_bin_width()`: constructor, `reset()`, `add_rect()`, `pack()`,
  and the accessors. Overflow of components is undefined behavior in the model, and the theorems show that there is none.
- Spacing and margin are not negative (the class does not check this).
- `std::stable_sort()` is modelled as an insertion sort. Exceptions due to memory exhaustion are not modelled.

### Assumptions of the command-line processing model (`CliProc`)

- Modelled: `Processor::process()` of `cli/impl/processor.hpp` with all its labels, `unpack_option()`, `build_opt_form()`, and the extraction of option
  arguments in `invoke_options()`. The pattern matcher is that of `CliPattern` (C82), and the specification is that of `CliSpec` (C88).
- Not modelled: decoding and widening of characters, and quoting and elision in messages. An action of an option is represented by the index of the option.
- C90: modelled are `process()`, `do_process()`, `invoke_options()`, `report_errors()`, and `gather_errors()` of `cli/processor.hpp`, and `BasicLoggingErrorHandler`.
  Actions of options, functions of patterns, error handlers, and loggers are arbitrary total functions on an arbitrary state, and value parsers are arbitrary
  predicates. They do not throw. The levels that are handed over in a delegation are a list. `std::stable_sort()` is an insertion sort.

### Assumptions of the pixel iterator model (`ImageIter`)

- Modelled: all of `Iter` and `Tray` of `image/iter.hpp` and `image/tray.hpp` that touches pixels. Memory has one cell per component, each of which is outside all
  arrays, without a value, or with a value. Access outside arrays, reading of a cell without a value, overlapping arguments of `std::copy()`, overflow of type
  `int`, and failing assertions are undefined behavior, which is a result of its own.
- Not modelled: the rule that pointers must not be moved outside their array (only accesses are checked), overflow of `std::ptrdiff_t`, conversion between
  component types in `copy_to()`.

### Assumptions of the image reader model (`ImageReader`)

- Modelled: everything that takes place between `get_block()` and `Image::read()`. The latter is modelled by its contract: boxes must be inside the image, and
  the pixels of the box are stored in the tray. Conversions of pixels are arbitrary functions on lists of components.
- The palette cache and the representations of the background color are parameters; how they come about is not part of this model. Workspaces are separate
  memory of just the right size. Memory exhaustion is not modelled, nor are custom falloff functions other than the three modes.

### Assumptions of the random integer model (`RandInt`)

- Modelled: the branch of `rand_int()` for types that are not supported by `std::uniform_int_distribution`, for `MulPrecInt` types. The random numbers
  of the part type are arguments of the model. That `std::uniform_int_distribution` draws them uniformly from the requested ranges is an assumption.
- An infinite sequence of rejected attempts is possible in principle; its probability is zero by `C70_attempts` (not formalized as probability).
- The part type of the exchange representation is not subject to promotion, which follows from its definition (`mul_prec_int.hpp:207`).

### Assumptions of the bit medium model (`BitMedium`)

- Modelled: `unpacked_type`, `pack_int()`, `unpack_int()`, `unpack_int_a()` for built-in integer types, and `int_to_int()` of `comp_types.hpp`.
- `bool` and types like `MulPrecInt` are not covered.

### Assumptions of the pixel format models (`PixelLoops`, `SubwordPixel`, `IndexedPixel`)

- Modelled: `get_buffer_size()`, `read()`, `write()`, `fill()` and everything they call. The tray of `write()` is a partial function from
  positions to pixels; the tray that `read()` fills is the list of rows.
- Index arithmetic is exact (the number of pixels of the image is representable in `std::ptrdiff_t`, and sizes are not negative).
- More than 16 bits per channel leads to floating-point transfer, which is not modelled. Components are those of the transfer representation,
  that is, 8 or 16 bits packed in an integer type of sufficient width.
- `IndexedPixelFormat` does not mask color indexes; an index that does not fit changes neighboring pixels (`example` in `IndexedPixel/Props.lean`). It
  also accepts more than 8 bits per pixel, although color indexes are transferred as 8 bits. Both are excluded by the hypotheses.
- When rows are not aligned, `get_buffer_size()` throws when the number of pixels is too large for `std::size_t`, even if the number of words is not.

### Assumptions of the models of formats with one pixel per group of words (`PixelGrid`, `BitField`, `PackedPixel`, `IntegerPixel`)

- The same as for the other pixel formats, with respect to index arithmetic, trays, and floating-point transfer (fields wider than 16 bits).
- `color_2` in `fill()` is an array of indeterminate values before `write_pixel()` sets all of it; the theorems hold for all initial contents.
- In the packed format, an image is a function to raw bits, such that every buffer of in-range words is covered (`C78_every_buffer`).

### Assumptions of the color slot model (`ColorSlot`)

- The type of native components and of floating point components are parameters, as is the arithmetic on them (`Scheme`). Assumed: division by 1 changes nothing, the maximum component corresponds to 1 (`Laws`), and an opaque default color given in native form is not changed by conversion to floating point and back (`DefaultsOk`; `white_ok` shows this for white).
- Conversion between color spaces is arbitrary. The result of conversion of a foreign color is a parameter of the operation, and a converted color that is retrieved is represented by the input of the conversion.
- Exceptions are not modelled (failing memory allocation, failing color space conversion).

### Assumptions of the palette model (`Palette`)

- The same as for color slots. The palette image is read by a function that is only assumed to do what C92 says (`Reads`), and this is proved for each of the three ways in which that happens (`reads_lossless`, `reads_converted`, `reads_converted_float`).
- Allocation of memory does not fail, and the computation of the size of the memory does not overflow.
- Type `int` has at least 10 bits, and `std::size_t` has more value bits than `int`.

### Assumptions of the image writer model (`ImageWriter`)

- `WritableImage::write()` and `WritableImage::fill()` do what their documentation says. That this is true of the image types that are based on pixel formats is the subject of C75, C76, C78, and C79.
- Conversion of single pixels, arithmetic on components, and the lookup of a color in the palette are arbitrary functions. In particular, floating point arithmetic is not modelled.
- Workspaces are separate memory. By inspection, no two workspaces that are in use at the same time use the same buffer.
- Memory allocation does not fail, conversion between color spaces does not throw, and the image that is written to is not the image that is the origin of the pixels.
- `(n + 1) * 4096` is representable in type `int`, where `n` is the number of color channels (`WriterOk`).

### Assumptions of the pixel conversion model (`PixelConvert`) and the reverse lookup model (`ReverseLookup`)

- Conversion of single components between representation schemes, and floating-point arithmetic, are abstract; the laws that are used (`Lawful`) say that full opacity is one, that conversion to and from the floating-point scheme agrees with the identity there, and that dividing by, and multiplying with an opacity of one has no effect. Statements about black background and opacity are proved with exact arithmetic in a field.
- Color spaces are arbitrary functions to and from RGB with a number of channels. Custom converters are arbitrary functions.
- Distances are computed in an ordered ring, that is, without rounding. The contents of the palette cache are the subject of C94.
- `std::nth_element()` is an arbitrary function that satisfies what the standard says about it, as for C42.

### Assumptions of the buffer format model (`BufferFormat`)

- The platform is a parameter: number of bits of a byte, sizes and widths of integer types, and the byte order that `core::try_get_byte_order()` detects, if any. A detected byte order is assumed to be the real one (`Machine`). A word that is made up of one byte is assumed to have the bits of that byte.
- Formats that are not integer-based (floating-point, indexed) have no contents in the model; casts of these always return `false`.
- `set_integer_format()` and so on, which assign to the members of the format, and `try_map_integer_type()` are not modelled. By inspection, `try_map_integer_type()` and `try_map_float_type()` return `true` without setting the type when the type is not supported.

### Assumptions of the string template model (`StringTemplate`)

- Characters are an abstract type. Parameter names in a template are compared after narrowing, as the code does, where the mapping of characters is a parameter. The character that introduces a parameter (`@`) is distinct from the character that opens a bracketed reference (`{`).
- Evaluation functions are arbitrary functions on the context and the state of the stream (text, format flags, field width, fill character, and the rest), that may throw. `C99_expand` requires that the field width is zero, and that evaluation functions leave it so. The error state of the stream is not modelled.
- Error messages are represented by their arguments.
- Substitutions are entries of the map of parameters. In the code, they are pointers into that map, so the `Parameters` object must outlive the template. This is not documented.

### Assumptions of the memory stream models (`MemStream`)

- The virtual functions of `std::basic_streambuf` that are not overridden are modelled according to the standard: `sputc()`, `xsputn()`, `sgetn()`, `sputbackc()`, and `sungetc()`.
- The largest value of the stream offset type is no greater than that of `std::size_t`, and the largest value of `int` is not zero.
- Memory that is passed to the functions of a stream buffer is not the memory of that stream buffer. For `BasicSeedMemoryStreambuf::append()`, passing a string that lies in the contents of the stream buffer itself is a use of deallocated memory when the memory is expanded. This is not documented.

### Assumptions of the super integer model (`SuperInt`)

- `std::uintmax_t` has `N` value bits for any positive `N`, and is not narrower than the integer types that are converted to and from. It is not promoted (it is at least as wide as `int`).
- The output operator is modelled as the text that it produces. The text is produced by the integer formatter (C26), in memory that can hold the text, and formatting in the stream (field width) is not modelled.

### Assumptions of the stable sort model (`StableSort`)

The range is a list, and moving an element leaves the value behind. Comparison functions are pure and do not throw.

### Assumptions of the CSS color model (`CssColor`)

The components of a color are natural numbers (a component type with 8 bits makes them at most 255, which is a hypothesis of the theorems). `Env` collects what is left to the platform: the widths of `int` and of the unsigned type that is used for hex values (at least 32 bits), the maximum size and the seed memory of buffers, the type of floating-point numbers, and the functions that read and write them (`core::ValueParser`, `core::StringFormatter`). Reading is assumed to reject the empty string. The round trip of functional forms assumes that the text of a number reads back as that number. With the default precision of output streams, which is what the code uses, this holds only for numbers with at most six significant digits. `std::lower_bound()` is represented by its result on a partitioned range. The options for upper case and for omission of spaces on output are not modelled. The `level` argument (`CssLevel`) is ignored by the code. Conversion of the functional forms to components (`to_hex()`) is a parameter here.

### Assumptions of the color space model (`ColorSpace`)

Floating-point numbers are rational numbers. Conversion between color spaces is modelled in exact arithmetic, that is, without
rounding errors. Conversion of components and the periodic modulo operation are modelled with a rounding function that is applied
to the result of each operation. Theorems about these quantify over all rounding functions with a bounded relative error, which
includes IEEE 754 rounding to nearest as long as there is no underflow (`relErr_roundBin`). `std::fmod()` is exact, as it is in
IEEE 754. Infinities and NaN are not represented. Highest values of integer types are assumed to be exactly representable in the
floating-point type, which is the case for 8-bit and 16-bit types and `float`.

### Assumptions of the model of floating-point and integer conversion (`FloatInt`)

- A floating-point type is given by its set of finite values (rational numbers), its radix, and the operations that the code uses: conversion from integer, division, and `nextafter(f, 0)`. What is assumed about them is the documented list of requirements (`Spec.Conforms`), which leaves rounding open. Positive and negative zero are not distinguished.
- Comparisons between floating-point values, and `std::trunc()` are the mathematical operations extended with NaN and infinities.
- An integer type is given by its range, the range of its promotion, and its signedness (`bool` is included). Conversion of a floating-point value to the promoted type is undefined when the truncated value is out of range, and the model then has no result.
- The assertions on the sign of the argument in the two `..._not_...` functions are hypotheses of the theorems. `float_to_int()`, which throws when `try_float_to_int()` fails, is not modelled separately.
- Theorems assume that all integers of magnitude up to the radix are representable (`Digits`). This holds for binary formats. It is not among the documented requirements, and `C115_requirements_insufficient` shows that something of the kind is needed.

### Assumptions of the model of matrix inversion (`LuInverse`)

- Arithmetic is exact: components are elements of an ordered field. Rounding, overflow, and NaN are not modelled. With floating-point components, the theorems describe what the algorithm computes up to rounding, and "singular" then becomes "identified as singular".
- A matrix is a function from pairs of natural numbers, and the size is passed along. That accesses stay inside the matrix follows from the loop limits and from `C119_pivots`.
- In-place updates are modelled as a sequence of updates of one component, row, or column at a time, in the order of the code.
- The determinant, product, and inverse in the statements are those of Mathlib.

### Assumptions of the model of key bindings (`KeyBindings`)

- Modelled: `KeyBindings` (registration, binding, key events, loss of focus, resumption), and the built-in modifier handlers with their bindings. Not modelled: labels of handlers, lookup of handlers by label, virtual trackball, window events, and the mapping from key codes to keys.
- Keys are elements of an arbitrary linearly ordered type. That keys given by a well-known key and keys given by the corresponding key code have been unified is outside the model.
- A handler is an arbitrary function of its argument, the modifier mode, and a state of the surroundings. Its effect is a new state, a new mode, a list of bindings to be made, and whether to proceed. Registration of handlers from within a handler is not modelled (see finding 57).
- Timestamps are integers (milliseconds). The difference between timestamps is assumed not to overflow.
- The flat map of handlers of a slot is an association list. The flat map of slots is a list in order of keys, because that order is observable.
- Insertion of a slot during iteration over slots is undefined behavior, because the underlying vector may be reallocated, and because elements are moved.

### Assumptions of the rotation model (`Rotation`) and the trackball model (`Trackball`)

- Floating-point numbers are real numbers with exact arithmetic. Rounding and overflow are not modelled.
- `Rotation`: division by zero is Lean's division by zero (zero). The theorems that involve division require a divisor other than zero.
- `Trackball`: values that are not finite are absent (`none`): the point on the ball if a radius of the ball is zero, and the spin if its angle is the result of a division by zero. A zero angle times infinity is NaN, so the spin is absent in that case too.
- `Trackball`: integers (times of mouse events, positions) are unbounded. The real-time clock is an argument (`now`).
- `Trackball`: data members that are not initialized by the constructor have arbitrary values. The theorems hold for all of them.
- Rotations that are passed to `set_orientation()` and `set_spin()` have unit axes, as required by the documentation of `math::Rotation`.

### Assumptions of the perspective projection model (`PerspectProj`)

- Arithmetic is exact (real numbers). `std::sqrt()`, `std::tan()`, `std::atan()`, and `std::round()` are the corresponding real functions.
  `core::clamped_float_to_int()` is modelled for `int` of 32 bits.
- Parameters are positive (`Valid`); the defaults are.
- In the specification, the solid angle of a rectangle at distance one is the iterated integral of `1 / (x^2 + y^2 + 1)^(3/2)` over the
  rectangle. The projection of a sphere is the set of points of the plane at distance one whose rays from the eye meet the sphere.


### Assumptions of the Perlin noise model (`Perlin`)

- Arithmetic is exact (real numbers), so the note in the documentation about slight overflow of the amplitude does not apply. Positions
  are finite.
- The number of dimensions is arbitrary. The two labels of the `goto` program are modelled as states of a machine with a bound on the
  number of steps. The theorems include that the bound suffices.
- `std::size_t` has an arbitrary maximum value. Grid sizes are of type `int`, but any integer in the model. Indexes of gradients are
  unbounded in the model. Since they are proved to be less than the number of gradients, no overflow occurs in the actual code, except
  possibly in the multiplier after the last iteration, where it is equal to the number of gradients.
- Random initialization of gradients is not modelled: gradients are arbitrary. For the bound on the magnitude, they are assumed to be no
  longer than one.

### Assumptions of the histogram model (`Histogram`)

- Arithmetic is exact (rational numbers) and values are finite. Counters are unbounded. The maximum value of `std::size_t` is arbitrary.
- Conversion of a floating-point value to an integer type that cannot represent it, and conversion of a NaN, is the undefined outcome.
- How numbers are formatted is arbitrary. The number type has an infinity.

### Assumptions of the EDID model (`Edid`)

- Bytes are numbers less than 256. Reading outside of the data is the undefined outcome. The transcoder is an arbitrary function.

### Assumptions of the list formatting model (`AsList`)

- Elements are formatted to, and parsed from strings by arbitrary functions. For the round trip, an element must be recovered from its own
  text, and the text must not contain the separator or start or end with space, as stated by `Suitable`. What is left in an element by a
  failed parse is arbitrary.
- Streams are sequences of characters. Padding to a field width is not modelled.

### Assumptions of the logger model (`Log`)

- Modelled: root loggers, prefix loggers, limit loggers, channel loggers, duplicating loggers, encoding loggers, selection of channels, copying of loggers, formatting of messages, and the setting of limits.
- A message is the result of parameter substitution. The state that limits and prefixes can depend on (variable limits, the clock) does not change while a message is logged.
- Channel names are elements of an arbitrary linear order, and patterns of limit loggers are arbitrary predicates.
- Levels are at most 8 (`LogLevel` has nine levels). A fixed limit is not changed after construction.
- Not modelled: storage of names and channels in memory, locks, exceptions from streams, jail loggers, and the conversion of characters between character types (an encoder is an arbitrary function on strings that maps the empty string to itself).

### Assumptions of the text file model (`TextFile`)

- Modelled: `GenericTextFile`, `BufferedTextFileImpl`, and `PrimPosixTextFileImpl` for a degenerate character codec, including the flags and assertions that exist only in debug mode. `TextFileImpl2` is modelled only with respect to writing, and for a codec with no shift states and no encoding errors (C155).
- A file is a list of characters with a position. Every system call can fail, in which case it has no effect, or transfer less than what was asked for, but at least one character. A gap that arises from writing beyond the end is filled. There are no other users of the file, and the file is not in append mode.
- Sizes and positions are unbounded, so lack of space in integer types (retained size, file offsets) is not modelled. Memory allocation does not fail. Expansion of a buffer always makes it larger.
- Not modelled: `imbue()`, `unshift()`, dynamic end of file, `read_line()`, and the Windows implementation.

### Assumptions of the stream model (`Streams`)

- Files are as in the text file model. Sources are arbitrary state machines that satisfy the documented contract of `Source` (`Conforms`); file sources and buffered file sources are proved to satisfy it. What remains to be read from a source is a finite list.
- The buffer of a rewindable source always grows when it is expanded (see C16 and C58 for buffers). Memory allocation does not fail.
- Error codes are reduced to success and failure. Sizes are unbounded.

### Assumptions of the file format model (`ImageFormat`)

- Modelled: registration and lookup on top of the flat map model, `try_load_a()`, `detect_file_format()` for saving, and `recognize()` of the PNG format, in the form of a comparison with a signature (`png_sig_cmp()` from libpng is taken to be that).
- File formats are arbitrary programs that read from a source. They do not throw, and they do not use the source in other ways than through `try_read_some()` and `try_read()`.
- Empty strings as arguments of `load()` and `save()` are represented separately. `operator<` of strings is any strict weak order in which only equal strings are equivalent. The set of already checked file formats is a list.
- Not modelled: the limit on the number of file formats (`int`), opening of files, extraction of filename extensions from paths, and the default registry (which is a particular registry).

### Assumptions of the test runner model (`TestRunner`)

- Modelled: `TestRunner::run()` (selection, sorting, repetition, shuffling as an arbitrary rearrangement, choice of the number of threads, joining of threads, summary, and return value), `ThreadContextImpl::run()`, `nonconcur_run()`, `run(exec, lock)`, `finalize()`, `check_failed()`, `test_failed()`, and `ensure_subdir()`. An execution is a sequence of steps of the threads in any order; a step is what a thread does while it holds the mutex, or a check performed by a test.
- What the tests do is arbitrary: any number of successful and failing checks, and then return or exception. Checks are performed by the testing thread.
- The mutex provides mutual exclusion. `std::stable_sort()` is a stable sort. Joining a thread waits for the thread to terminate.
- Left out: messages, elapsed times, log files, exceptions from reporters, loggers, and creation of threads. Counters are unbounded. Source paths are strings, and the mapping of source paths is an arbitrary function.
- For `ensure_subdir()`, a path is a list of segments, and directories can always be created.

### Assumptions of the XML reporter model (`XmlReport`)

- Modelled: `as_xml_escaped()`, and `begin()`, `fail()`, `end()`, and `root_end()` of `check::XmlReporter`. The map of test executions is an association list sorted by key. Assertion failure is `none`, and so is use of a string view whose string is gone.
- Elapsed times are texts, as they appear in the output. Formatting of floating point values is not modelled.
- A failure carries a reference to the path of the test (alive when the report is written), or to the path mapping cache of the testing thread (`check/noinst/thread_context_impl.cpp:152-202`), which is overwritten or destroyed before `root_end()` is invoked.
- The reader against which the output is judged (`Spec.lean`) is an automaton for a fragment of XML: tags with attributes in quotation marks, the five predefined entities, and normalization of white space in attribute values as in the XML specification.

### Assumptions of the visual selection model (`VisualSelect`)

- Modelled: `VisualFinder::find()`, `find_all()`, `filter()`, `less()`, and `get_class_value()`. The class of a visual is one of the six classes of the X protocol; other values fail an assertion in the code. Integers are unbounded; they are only compared, except that the order of classes is computed from small numbers.
- `std::stable_sort()` is merge sort.
- The list of visuals is given. How it is obtained from the X server and from GLX is not modelled.

### Assumptions of the colormap model (`Colormap`)

- Modelled: `try_record_bit_fields()`, `MultFieldSpec::pack()` and `unpack()`, `PermMultFieldSpec`, `make_rev_perm()`, `MultFields::pack()`, `MultFieldsDigest::is_valid_and_compact()` for color visuals, the initialization functions for colormaps, `setup_standard_pseudocolor_colormap()`, and the allocation of gray levels in the default colormap.
- `unsigned long` has 64 bits. A failed assertion, and division by zero are `none`.
- `std::sort()` produces any permutation of the channels in which the multipliers are in order.
- `XStoreColors()` stores colors one after the other, each at the entry given by its pixel value. On a `DirectColor` visual, it stores a component at the position given by the field of the pixel value. Nothing else changes the colormap in the meantime.
- Conversion of bit width in the initialization of `DirectColor` colormaps is a parameter.

### Assumptions of the palette map model (`PaletteMap`)

- Modelled: all member functions of `impl::PaletteMap`. Search and sorting in k-d trees are those of the model `KdTree`, and components in floating point form are exact.
- Conversion of components from native to floating point form is a parameter. `std::nth_element()` is any function that fulfils its specification.
- A lookup has undefined behavior in the model if any component of any color of the tree is outside the array of components, whether or not the search gets there.
- When a palette image is read, the multiplications for the number of components are assumed not to overflow; an exception would be thrown. `get_block_a()` writes one component at a time.
- For ownership, a palette map is reduced to the array of native components that it owns. If a constructor throws, the destructor is not invoked.

### Assumptions of the pixel block model (`PixelBlock`)

- Modelled: all functions of `Block`, `PixelBlock`, and `IndexBlock`, and construction, `get_size()`, `read()`, `write()`, and `fill()` of the four classes of tray images. The memory model is that of `ImageIter`.
- Failure of memory allocation is not modelled. Trays are copied under the condition that the tray and the block do not share memory, and that the color for `fill()` is outside the block.
- The palette of an indexed image is not represented. `get_transfer_info()` and `get_palette()` return what was passed to the constructor, and are not modelled.

### Assumptions of the text codec model (`TextCodec`)

- Modelled: `decode()`, `encode()`, and `unshift()` of the decoders and encoders of `TextCodecImpl2`, `PrimPosixTextCodecImpl`, and `PrimWindowsTextCodecImpl`, including the compound ones. `newline_codec` is that of the `Newline` model.
- The character codec is a parameter. It is required to do what `char_codec_concept.hpp` says, which is expressed by means of a transition function (`Conforms`, `ConformsUnshift`). The simulated decoding operations (`decode_simul()`) are not modelled. For C195, it is also required that a sequence that is valid or invalid remains so when more data follows (`Stable`).
- `Buffer::expand()` is only known to make the buffer larger. Exceptions, such as for buffers that cannot be made larger, are not modelled.
- The Windows decoders pass an uninitialized variable as `clear` (finding 96). In the model, it is zero.

### Assumptions of the pixel size and position model (`PixelSize`)

- Modelled: all functions of `pixel::Size` and `pixel::Pos` except trivial constructors, projections, `min()`, `max()`, and `splice()`. Formatting and parsing is by way of the `AsList` and `IntText` models.
- Characters are ASCII characters of type `char`. Other characters are narrowed to zero, as when the locale has no narrow form for them. State and formatting flags of the stream (such as a field width) are not modelled.
- The value parser passes the string to the list parser, and substrings of it to the integer parser (`core/value_parser.hpp`), which is taken for granted.

### Assumptions of the integers in streams model (`AsInt`)

- Modelled: the stream operators and `parse_value()` for the result of `core::as_int()` (and hence of `core::as_dec_int()` and so forth) and `core::as_flex_int()`, `core::istream_sentry()`, and `core::BasicStreamInputHelper`. Formatting and parsing of numerals is by way of the `IntText` model.
- Construction of `std::basic_istream::sentry` is as specified by the C++ standard. Tied streams, exceptions, and `badbit` are not modelled. A field width of an output stream is not modelled.
- Characters are ASCII characters of type `char`. Classification of characters is arbitrary in C201, except that the minus sign is not a letter or a digit. In C202, digits and capital letters are classified as in any reasonable locale.

### Assumptions of the test file model (`TestPath`)

- Modelled: `check::TestPathGuard` with `check::TestFile` and `check::TestDir`, and `check::TestContext::make_test_path()`. The repetition number is formatted by way of the `AsInt` model.
- Operations of the file system succeed, and no exceptions are thrown. Paths are lists of components, without `.` and `..`, and two paths are the same location only if they are the same list. In particular, case matters in file names, and there are no links.
- Names of tests and variables are identifiers, so there are no dots and no slashes in them. Names of tests are unique in a test list (`check/test_macros.hpp:95`).

### Assumptions of the text parser model (`TextParser`)

- Modelled: both versions of `core::BasicTextParser::parse()`, with `set()` and `add()` for fields without a condition. Splitting into words is by way of the `StringSplit` model, and the words are characterized by the specification that goes with it.
- The value parser is a function of the word, and is a parameter for each field. When it fails, the variable of the field can have any value afterwards. All fields have the same type of value. Exceptions are not modelled.

### Assumptions of the terminal model (`Terminal`)

- Modelled: `core::terminal::TextAttributes` with the functions that set attributes, comparison, `change()`, and `min_change_buffer_size()`, and the functions in `core::terminal::seq`. Not modelled: `should_enable_escape_sequences()`.
- Bit-fields are fields of a structure. Comparison is by the memory that the bit-fields occupy, and unused bits of it are assumed to remain zero.
- The terminal is part of the specification. It interprets the parameters 0, 1, 2, 4, 5, 7, 22, 24, 25, 27, 30 to 37, 39, 40 to 47, and 49 of ECMA-48, and ignores others. An empty parameter means 0. There are two kinds of terminals, as bold and faint exclude each other in some (the console of Linux), and are independent in others (`xterm`).

### Assumptions of the enumeration model (`Enum`)

- Modelled: `core::Enum` with the mapper, and the stream operators, when the character type is `char`. Input streams are those of the `AsInt` model.
- A `std::map` is a list of entries with inequivalent keys. The conversion to upper case is that of the classic locale. The field width of output streams is zero, and integers are written as in the classic locale.

### Assumptions of the fallback font model (`FallbackFont`)

- Modelled: `load_spec()`, `FaceImpl::find_glyph()`, `FaceImpl::load_glyph()`, and `FaceImpl::do_render_glyph_mask()`. Not modelled: loading of the image, regeneration of the font, and the metrics that are only stored.
- A file is a list of lines that are not blank. Each line comes with what the text parser (see `TextParser`) makes of it for each kind of line. A `std::map` is a list of associations.
- Conversion of the translation of the glyph to integers is left out. Reading of luminances from the image (see `ImageReader`) is copying of pixels.

### Assumptions of the model of formatted values (`FormatAs`)

- Modelled: the output for `core::as_ordinal()`, `as_percent()`, `as_time_a()`, `as_byte_size()`, `as_quant()`, and `as_quant_bin()`, up to the number that is then formatted by the stream. Not modelled: `as_optional()`, `as_num_of()` except for the choice between singular and plural, and `as_format_func()`.
- Numbers are finite and rational, and arithmetic is exact, except for percentages, where the product is rounded to a nearest number with 53 significant bits. The range of exponents is unbounded.

### Assumptions of the timer model (`Timer`)

- Modelled: `core::Timer::get_elapsed_time()` on systems that have `clock_gettime()`. The conversion of the result to a floating-point number is exact. `std::time_t` is a signed type.

### Assumptions of the model of parameterized strings (`Format`)

- Modelled: `core::format()`, `core::formatted()`, and `format_alt()` in `core/format.hpp`, when the character types of the string and of the stream are the same. A parameter is its string representation. The field width of the stream is zero, except for `formatted()`, and writing to the stream succeeds.

### Assumptions of the model of code points (`CodePoint`)

- Modelled: all of `font/code_point.hpp`. `wchar_t` is signed, `std::wint_t` is unsigned, they have the same width, and `WEOF` is the largest value of the latter, as is the case on Linux. The formatting and parsing of integers are those of the models `AsInt` and `Format`, so characters of type `char` are ASCII characters. The field width of the stream is zero, and writing to the stream succeeds.
- The constructor of `CodePointRange` accepts a first code point that is greater than the last one. Such a range is written as its first code point, so it is not recovered by parsing.

### Assumptions of the model of stride iterators (`StrideIter`)

- Modelled: `core::StrideIterator` in `core/stride_iterator.hpp`. The underlying iterator is a random access iterator of class type whose operators take arguments of type `std::ptrdiff_t`, and the positions that it moves to are all valid. `std::ptrdiff_t` and `std::size_t` have the same width. The operators that are the negations or the mirror images of those modelled are left out. `operator->()` and `make_stride_iterator()` are left out.

### Assumptions of the model of inexact comparison (`InexactCompare`)

- Modelled: all of `core/inexact_compare.hpp`. Floating-point numbers are rational numbers, so infinities, NaNs, and overflow are left out. The results of subtraction and multiplication are rounded by an arbitrary function that preserves order, and treats numbers and their negations alike, as is the case for rounding to nearest. Taking an absolute value, a minimum, or a maximum is exact.

### Assumptions of the seed sequence model (`SeedSeq`)

- Modelled: `SeedSeq::generate()`, `size()`, and, separately, constructors, `no_copy()`, `no_copy_a()`, `param()`, and move operations.
- `unsigned int` is not wider than the element type of the destination, and that type is not subject to promotion.
- `C71` requires that sums of sizes do not overflow `std::size_t` (with some slack: largest of seed size plus one and destination size, plus twice the
  destination size).
- In the model of moving, memory that is referred to by the caller's spans is unchanged. Assertions are enabled.
- The independent statement of the algorithm was compared to libstdc++ for some seeds and ten destination sizes (one of these is an `example`).

## 4. Findings (code disagrees with the property)

Numbers are referred to from the table above. Each is to be backed by a theorem with a concrete witness.

1. `base64` decoder never consumes `=`; padded encodings do not round trip.
2. `base64` decode reports "insufficient buffer space" for bad input when the output buffer is exactly full; the wrapper then asserts instead of throwing.
3. `Buffer::at(size())` does not throw.
4. `Deque::erase_near_front` out of bounds for divided contents.
5. `Deque::erase_near_back` out of bounds for divided contents.
6. `Deque` copy assignment from itself loses the data.
7. `can_twos_compl_cast` wrong for promoted unsigned source.
8. Lenient UTF functions overwrite previous output.
9. `decode_utf8_incr` reports "input exhausted" for input that no continuation makes valid.
10. `Vector::resize` growing writes out of bounds.
11. `Vector::reserve(n)` reserves `size + n` and may fail spuriously.
12. `FrozenSets::unite` of sets whose union coincides with an operand destroys storage: everything from the first operand on is discarded. With two default-constructed identities, everything is. Equal sets frozen separately do not share an identity.
13. `HashFNV1a_32::add_int` of a negative narrow value is not the hash of its octets.
14. `RandomSeed` input rejects the all-ones word pair and accepts overlong blocks.
15. `int_to_int_a` rounds ties down whereas its documented floating point equivalent rounds ties up.
16. `RectanglePacker::pack` called a second time without `reset` aborts on an assertion (`C46_second_time`).
17. `Vector::push_back(v[i])` and `Deque::push_back(d[i])` use a dangling reference when they reallocate.
18. UTF-8 decoding with code units wider than 8 bits accepts units above 255 as continuation bytes.
19. `decode_utf16_incr()` cannot be instantiated for a 16-bit `wchar_t`, contrary to its documentation (static assertion; not a theorem).
20. `change_bit_width` overflows for a signed type when the target width is the full width (the assertions allow it).
21. `Box::intersects` has undefined behavior for valid boxes that are far apart; `contains` of an empty box is extent inclusion.
22. The truncated quoted form is documented as the escaped form of the longest prefix that fits. In the code, the length of an octal escape sequence depends on the following character even when that character is cut off, so that the prefix can be shorter than documented (`C44_context`).
23. A negative maximum distance passed to `kdtree_find()` acts like its absolute value, because it is squared (`C41_negative_limit`). The documentation says that only points closer than the maximum distance are considered, and there are none.
24. `KnuthWrapper::get_badness()` after wrapping of less than two words reports the value of an earlier operation (`C69_stale`). Wrapping throws when the smallest badness is exactly the largest value of the type, although it is representable (`C69_badness_partial`, `C68_overflow`).
25. Move assignment of `SeedSeq` does not release the target's own seed sequence when the source refers to seeds in other places (`no_copy_a()`, default constructed, or moved from). Moving the target afterwards triggers an assertion (`C72_negation`).
26. `IntegerPixelFormat::read_comp()` starts by shifting a zero by the number of bits per word. This is undefined when that number is the width of the unpacked component type, which is the case for all the predefined 32-bit formats (`C79_assembly_undefined`, `C79_undefined_32`).
27. When `PatternMatcher` reports a positional ambiguity, the message has the numbers of positions in the automaton instead of the numbers of the symbols in the pattern. These differ in all patterns but the first one (`C81_positional_numbers_wrong`). For the patterns `foo` and `bar|bar`, the message is "Positional ambiguity in 2nd pattern (between 3rd and 4th symbol)".
28. `PatternFuncChecker` accepts a parameter of type `std::size_t` for an alternatives construct without parameters, such as `foo | bar`, but `PatternArgsParser::State::parse_elem()` does not handle that case. When such a pattern is matched, `ARCHON_ASSERT(desc.elem->type == Elem::Type::sym)` fails (`C84_size_for_alternatives_fails`). In builds without assertions, the index of the branch is used as the index of an argument.
29. An option that takes no argument is accepted with an action that cannot do without one, such as `assign(as_list(v))` (`C87_required_argument_missing`). `Spec::add_option()` compares the action with the option only if the option takes an argument. When such an option is used, `ARCHON_ASSERT_UNREACHABLE()` is reached in `OptionAction::invoke_without_arg()`.
30. According to the documentation of `short_circuit`, errors are not reported when there is a short-circuit option, even if they occur earlier. However, if there is a delegating pattern, an argument that does not match any pattern, or an unknown option, ends the processing if it occurs while delegation is still possible, and then a later short-circuit option has no effect (`C89_short_circuit_missed`).
31. With a delegating pattern `-a`, the command line `-a -b` delegates the processing of `-b`, but `-ab` is an error (`C89_compound_delegated`).
32. If an option that is part of a pattern, and takes no argument, is given one (`-b-x` or `--b=x`), the option is not matched against the pattern, so there can be an additional error about too few command-line arguments although there is one for every part of the pattern (`C89_unexpected_argument`). The branch of `process()` that says "in" about an unknown option is never taken (`C89_errors` has no such message).
33. According to the documentation of `BasicProcessor::process()` (processor.hpp:111-114, 126-128), it returns true, and assigns the exit status, if the function of a pattern returned a nonzero exit status. However, the exit status is dropped, and false is returned if the pattern is not `completing` (`C90_nonzero_status_dropped`). The documentation of `completing` (attributes.hpp:53) says that this is as it should be, so the two are in conflict.
34. According to the documentation of `Image::get_palette()` (image.hpp:130-133), a palette can have zero colors. However, if the width of the palette image is zero, `instantiate_palette()` divides by zero when pixels are read (`C94_zero_width`).
35. In `instantiate_palette()`, `palette_image_size.width * m_num_channels_ext` overflows type `int` when the palette image is very wide, even though at most 256 colors are used (`C94_wide`).
36. When blending is enabled, and the origin of `Writer::put_image()` has no alpha channel, but the target image has one, then what is seen beyond the boundary of the origin, if that is the background color, is written without blending, even if the background color has transparency (`C95_background_not_blended`). The decision in writer.cpp:156-166 is based on the pixels of the origin only.
37. If a coordinate of a position is the least value of type `int`, the clipping in `Writer::fill()`, `put_block_a()`, and so on, overflows, although areas are allowed to lie fully outside the image (`C95_least_position`).
38. Conversion of a pixel from the degenerate color space to another color space gives white with components that are not multiplied by the opacity, so half transparent white becomes opaque white when the alpha channel is removed (`C96_degenerate`).
39. Conversion of a pixel to or from a format with no components (degenerate color space without alpha channel) fails an assertion when it goes through floating-point components (`C96_no_components`).
40. `Writer::color_sqdist_a()` uses an uninitialised component if a color is specified without an alpha component, and so does `Writer::reverse_palette_lookup_a()` if the image has an alpha channel (`C97_no_alpha`).
41. The same functions take another component for the alpha component if the color is from a color space with a different number of channels than that of the image (`C97_other_channels`).
42. `BufferFormat::try_cast_to(IntegerFormat&)` on a packed format gives the channels in the opposite order whenever the word order of the new format is that of the original one; for example, RGB as three bytes with the most significant one first becomes BGR (`C98_opposite`, `C98_swapped`).
43. `BufferFormat::try_cast_to(IntegerFormat&)` on a subword format, with bytes as the new words, uses the number of bytes per word as the number of bytes per channel, so if there is more than one channel or pixel per word, the new format extends beyond the memory of the image (`C98_overrun`).
44. `BufferFormat::try_cast_to(PackedFormat&)` is not implemented: it fails an assertion for every valid integer-based format (`C98_packed_missing`).
45. `BufferFormat::SubwordFormat::is_valid()` divides by zero if there are no channels (`C98_no_channels`).
46. `StringTemplate::Parser` keeps a reference to a locale (string_template.hpp:340) whose default argument is a temporary object (line 268), so the reference dangles once the parser has been constructed. `parse()` uses it even when there is no error (line 631), which is undefined behavior (`C99_default_parser`). The constructor of `StringTemplate` that parses is not affected.
47. `BasicSeedMemoryStreambuf::overflow()` extends the contents by one character, whose value is indeterminate, when it is called without a character (`traits::eof()`), where the standard says that nothing should be appended (`C101_overflow_eof`). The public functions of the standard library call it only with a character.
48. `SuperInt::operator>>=()` shifts in zeros, so right shift of a negative number is not a division by a power of two: `SuperInt(-2) >> 1` is 2^64 - 1 (`C105_shift_right_negative`). Shifting by `digits` places or more, in either direction, is undefined behavior, even though `width` is `digits + 1` (`C105_shift_limits`). Neither is documented.
49. The CSS color keyword `yellowgreen` is missing from the named colors (`util/colors.hpp` and `util/css_color.cpp`), so parsing it fails (`C107_missing`).
50. Parsing of CSS colors is sensitive to letter case in the names of functions and colors (`C109_case`), and does not accept white space except spaces after a comma, although the documentation promises all forms that are allowed by CSS Color Module Level 3. CSS is not sensitive to letter case, and allows white space around arguments. `format()` is able to write names in upper case, which `parse()` then rejects.
51. 16-bit color components do not survive conversion to single-precision floating-point form and back (`C113_not_16_bit`). `image::int_to_float()` followed by `image::float_to_int()`, both using `float` (`image::float_type`), increments each of the values 65408 through 65534. The documentation of `util::unit_frac::int_to_flt()` says that the default model is numerically less stable, but the pixel formats use it with 16-bit components.
52. Conversion of a CSS color from HSL does not clip a negative saturation to zero, as CSS demands. It is as if the hue was opposite (`C111_negative_saturation`).
53. `float_less_int()`, `float_greater_int()`, `float_less_equal_int()`, and `float_greater_equal_int()` are not always correct, although the documentation promises that. With binary32, and 32-bit integers, `float_greater_int(16777218.0f, 16777217)` is `false`, and `float_less_equal_int(16777218.0f, 16777217)` is `true`, and similarly for the negated values with the other two functions (`C116_wrong_single`). The functions step to the adjacent value towards zero, which skips integers that lie between the two values. The exact conditions are `C116_wrong_positive` and `C116_wrong_negative`.
54. The documented requirements for floating-point types do not suffice for `max_float_not_above_nonneg_int()` to be correct when the radix is greater than 2 (`C115_requirements_insufficient`): footnote 4 of the proof in the code (float.hpp:480-483) takes for granted that the floating-point value is greater than 1, which does not follow when small integers are not representable.
55. With the built-in bindings of a render engine, composed modifier modes never come into effect (`C126_never_composed`). The modifier keys are bound for modifier mode `modif_none` only, so after control is pressed, pressing shift has no effect (`C126_composed_fails`). Keys that the application binds for, say, `modif_shift | modif_ctrl` can never be activated. For the same reason, when both shift keys are pressed, and the first one is released, shift mode ends (`C126_both_sides_fails`).
56. Binding a key while it is pressed makes the engine forget that it is pressed, so the handler that was called for key down is never called for key up (`C123_bind_while_pressed`). If the key is a modifier key, its mode remains in effect forever (`C126_stuck`): the handler for key up is not called, and the key has no binding in the mode that is now in effect.
57. A key handler that binds a new key while it is called on behalf of loss of focus, invalidates the iterators of the loop in `resume_incomplete_on_blur()` (`C125_bind_while_blur`), although the documentation explicitly allows handlers to call all functions of the engine other than `set_scene()` and `run()`. By reading only: a handler that registers another handler may cause reallocation of the vector of handlers, which destroys the function object that is being executed.
58. By reading only: bindings of the left mouse button are accepted, but have no effect, because `on_mousedown()` and `on_mouseup()` in engine_impl.cpp reserve that button for the virtual trackball.
59. The documentation of the creation of a quaternion from axis and angle (quaternion.hpp:154) says that the angle will be clamped to the range from 0 to 2*pi. It is not: an angle of 3*pi does not give the same quaternion as an angle of 2*pi (`C129_not_clamped`). The performed rotation is the same as for the angle modulo 2*pi (`C129_periodic_partial`).
60. The virtual trackball does not follow the mouse when it is moved to the point that is opposite on the ball, such as from the left edge to the right edge of a quadratic viewport (`C131_opposite`, `C131_opposite_example`). `VirtualTrackball::calc_rotation()` treats this in the same way as two coinciding points, so the orientation is the one from before the ball was acquired, where half a turn would be expected. By reading only: near that point, rounding may bring the dot product below -1, and then the angle is NaN, as `calc_rotation()` checks for values above 1 only.
61. If the virtual trackball is acquired and released within the same millisecond, and the mouse is moved by 4 pixels or more in the meantime, the speed of the spin is a division by zero in `VirtualTrackball::release()`, and the orientation of the scene is NaN from then on (`C133_lost`). It stays so even if the trackball is acquired again, or a spin is set. Only `set_orientation()` helps.
62. `FiniteCurveMemory` chooses the distance between samples as the smallest N such that N * (max_samples - 1) >= millis_back. That is not enough for the memory to always reach back by `millis_back` milliseconds, because the last sample is generally not at the end of its interval: with 100 milliseconds and 16 samples, the position of 100 milliseconds earlier may be reported as the position of 99 milliseconds earlier (`C134_window_too_short`). N * (max_samples - 2) + 1 >= millis_back would be enough (`C134_interpolation`).
63. `PerspectiveProjection::get_neutral_solid_angle_of_view()`, `get_effective_solid_angle_of_view()`, and the corresponding setters use a formula that lacks a factor of half the mean field of view. The result is the actual solid angle only when the mean field of view is 2 (`C137_solid_angle_partial`). With the default parameters, the reported solid angle is more than three times the actual one (`C137_wrong`).
64. `PerspectiveProjection::auto_dist()` declares a local variable `zoom_factor` of value one, which hides the data member of the same name. The sphere of interest therefore fits only when the zoom factor is one (`C138_auto_dist_partial`, `C138_auto_dist_wrong`).
65. The documentation of `PerlinNoise::amplitude()` says that the amplitude is `sqrt(n/2)`. The function returns `sqrt(n/4)`, which is also the actual maximum (`C140_amplitude`, `C140_amplitude_attained`, `C140_documented_amplitude`).
66. `Histogram::add()` converts the bin index to `std::size_t` before it is checked against the number of bins (`core/histogram.hpp:143-161`). That is undefined behavior for values that are far above the range (`C141_undefined`, `C141_undefined_witness`).
67. A value that is equal to the upper end of the range of a histogram is counted as being over the range, but the documentation says that only values that are greater than the upper end are (`C141_upper_end`).
68. Printing a histogram to which no value was added divides zero by zero, and converts the result to an integer, which is undefined behavior (`core/histogram.hpp:334` and `349`, `C142_empty`).
69. An empty bracketed list is formatted with space inside of the brackets in loose mode. The documentation says that no space is added when there are no elements (`C144_loose_empty`).
70. An empty sequence that is formatted as a bracketed list cannot be parsed back, because the check for emptiness is applied to the whole string rather than to what is between the brackets (`core/as_list.hpp:419`, `C144_empty_bracketed`).
71. The parser of `as_list_a()` does not check the minimum number of elements, so it accepts strings where too many elements are elided (`C145_minimum_not_enforced`).
72. When `as_list_v()` is used with a length of zero, what is formatted does not parse back to a length of zero: it is rejected, or becomes a list of one element, depending on the element type (`C146_empty`).
73. A limit logger whose pattern does not match the selected channel still applies the limit to messages that are logged through itself, but a copy of it does not (`log/limit_logger.hpp`, `C147_limit_on_unmatched_channel`).
74. With one limit logger on top of another one, `will_log()` and `get_log_level_limit()` reflect only the outer one, so `will_log()` can hold although nothing will be written (`C148_nested_limits`).
75. The assertion in `set_log_level_limit()` is inverted: it fails when the limit is variable, and succeeds when it is fixed (`log/limit_logger.hpp:105`, `C148_set_variable_limit`, `C148_set_fixed_limit`).
76. With a channel logger on top of a prefix logger on top of an encoding logger, the prefix that was added last comes first (`C151_prefix_order_inverted`).
77. `log/jail_logger.hpp:54` refers to a class that does not exist (`BasicCannelMap`), so the header cannot be compiled. It is not modelled.
78. `TextFileImpl2::write()` does not report the number of characters that it has accepted when it fails because of a failure to write to the file (`core/impl/text_file_impl.hpp:459`). The caller starts over, so text can end up in the file more than once (`C155_retry_duplicates`). `PrimWindowsTextFileImpl::write()` has the same problem.
79. Opening another file with a text file object does not reset the reading and writing flags (`core/text_file.hpp:385-390` and `500-522`). If something was written and not flushed, reading from a file that is opened for reading only fails (`C156_reopen_after_write`).
80. `FileFormatRegistry::register_file_format()` takes the iterator for the information on whether an entry was inserted (`image/file_format_registry.cpp:151` has `p.first` where `p.second` was meant). Iterators of flat maps are pointers, so duplicates are never rejected (`C161_same_format_accepted`, `C161_duplicate_accepted`).
81. `ThreadContextImpl::nonconcur_run()` clears the counters of the testing thread on which it is invoked (`check/noinst/thread_context_impl.cpp:82`), and the counters from the concurrent tests on that thread have not been added to the totals at that point. With two threads and two tests, one of which allows concurrency and fails, `TestRunner::run()` returns `true` (`C168_result_violated`). `C168_counts_partial` says exactly what is counted.
82. With more than one thread configured, and a single test execution, which allows concurrency, both `ThreadContextImpl::run()` and `nonconcur_run()` finalize the testing thread, so that `thread_end()` is invoked twice (`C169_end_violated`). The counters are not counted twice, because of 81.
83. Contrary to the documentation of `TestConfig::num_repetitions` and `TestOrder`, tests that do not allow concurrency are initiated after all the others, also across repetitions, when there is more than one thread (`C167_order_violated`).
84. `XmlReporter::fail()` retains a string view of the mapped path of the failure (`check/xml_reporter.cpp:90`). When the failure is located in another file than the test itself, that string is owned by the testing thread, and is gone when `root_end()` writes the report (`C175_dangling`). `C175_report_partial` assumes that all failures are located in the files of their tests.
85. `XmlReporter::root_end()` does not escape the path of a failure (`check/xml_reporter.cpp:140`). A path that contains an ampersand makes the report malformed (`C175_path_not_escaped`).
86. Control characters are not escaped in XML reports. A line break in a failure message is read as a space, and other control characters make the report malformed (`C174_read_back_violated`).
87. `x11::init_pseudocolor_colormap()` and `x11::init_grayscale_colormap()` set the pixel value of each color to its position in the chunk of at most 256 colors, rather than to its position in the colormap (`display/noinst/x11/support.cpp:2830` and `:2886`). Entries beyond the first 256 are never initialized (`C181_beyond_256`), and the colors of a section that does not begin at zero are stored in the wrong place (`C181_offset_violated`).
88. In the same functions, the end of the section lacks the offset, so part of a section that does not begin at zero is left out, or is filled with black (`C181_offset_violated`).
89. Initialization of a `PseudoColor` colormap divides by zero when a channel has only one level, as is the case for visuals of depth 2 or less (`C181_single_level`).
90. `MultFields::pack()` leaves out the offset (`display/noinst/x11/support.hpp:692-696`), so interned colors are wrong when the base pixel of a standard colormap is not zero (`C183_intern_violated`).
91. After failed allocation of gray levels in the default colormap, the pixel values 0, 1, and so on are released, rather than those that were allocated (`display/noinst/x11/support.cpp:1374-1380`, and likewise at `:1526-1532` for colors; `C184_violated`).
92. `PaletteMap::move_from()` does not transfer the number of channels including alpha (`display/noinst/palette_map.cpp:90-102`), so lookups go wrong after a move (`C185_move_violated`).
93. `PaletteMap::read_palette()` divides by zero when the palette image is empty (`display/noinst/palette_map.hpp:195`; `C186_empty`).
94. `PaletteMap::init()` releases ownership of the native components before `convert()` and `setup_kdtree()`. If one of them throws, the destructor is not invoked, and the memory is leaked (`display/noinst/palette_map.hpp:239-242`; `C187_leak`).
95. `Block::determine_buffer_size()` checks the product of the width and the height, and not the signs of them (`image/block.hpp:248-256`). A block can be created with a size where both components are negative, or where one is negative and the other is zero (`C189_both_negative_accepted`, `C189_negative_and_zero_accepted`).
96. The Windows decoders declare `std::size_t clear` without a value, and pass it to `newline_codec::decode()` (`core/impl/text_codec_impl.hpp:476-487, 537-561`), which reads it (`core/newline_codec.cpp:41`). Strictly speaking, this is undefined behavior. The value has no effect on what is decoded.
97. `operator/(pixel::Size, int)` is documented to round down, but it rounds toward zero, so the quotient is rounded up when a negative component is divided by a positive number (`util/pixel_size.hpp:193-198, 402-408`, `C199_negative_rounds_up`).
98. The description of `Size::contains()` says that it returns `true` if the specified box can contain this box (`util/pixel_size.hpp:106-111`). It is the other way around, as the brief description has it.
99. The documentation of `core::as_flex_int()` says that parsing is as with `as_oct_int()` when applied to the part that follows the prefix `0` (`core/as_int.hpp:76-81`). It is applied to the whole string (`core/as_int.hpp:251-253`). As documented, `0` would not be accepted, and `0-7` would be. Also, the documented prefix is `0x`, but `0X` is accepted as well. C200 states what the code does.
100. Two guards of test files in the same test have the same path if the variables have the same name, as can be the case with nested scopes, such as in a lambda expression for a subtest. When the second one is created, the file of the first one is removed (`C204_same_name`). This is not mentioned in the documentation.
101. In the text parser, the versions of `set()` and `add()` for fields with a condition refer to `cond(var)` rather than to `field.cond(var)` and `field_seq.cond(var)` (`core/text_parser.hpp:288`, `core/text_parser.hpp:316`). Nothing of that name is in scope, so a program that uses a field with a condition does not compile. They are not modelled.
102. The escape sequence for switching from bold to faint, or the other way, does not turn off the old weight (`core/terminal.cpp:53-65`). In a terminal where bold and faint are independent, such as `xterm`, the text ends up being both bold and faint (`C208_bold_to_faint`). The parameter 22 would have to come first.
103. An enumeration value whose name has characters in it that are not letters, digits, or underscores cannot be read back from a stream after it was written (`C212_hyphen`). The same goes for values without a name. This is not mentioned in the documentation.
104. A glyph of negative size is accepted in the specification of the fallback font, and if the size is extremely negative, the check has undefined behavior (`font/loader_fallback.cpp:291`, `C213_negative_size`). The cause is that `pixel::Box::contained_in()` relies on the size not being negative.
105. The upper edge of the glyph is computed without check for overflow, although overflow is checked for in the following two statements (`font/loader_fallback.cpp:545`, `C214_unchecked_top`). There is a comment in the code about similar cases.
106. An amount of time from 59 and a half minutes to an hour is formatted as `1h0m`, and one from 59 and a half seconds to a minute as `1m0s`, although the documentation says that hours are used only for amounts of at least an hour, and minutes only for amounts of at least a minute (`core/format_as.hpp:507-520`, `C216_boundaries`). A comment in the code has 59m59s as the upper end of the range for minutes and seconds, but this is never shown.
107. Zero is formatted as a quantity with the prefix for the lowest power (`core/format_as.hpp:564-573`, `C217_zero`), so a time of zero seconds is shown as `0ys`.
108. An amount of memory from 999.5 to 1024 bytes is shown as a fraction of a kibibyte, although the documentation says that amounts less than 1024 are shown as a number of bytes (`core/format_as.hpp:540`, `C218_boundary`).
109. Negative percentages are rounded away from zero, although a comment says that rounding has to be towards zero (`core/format_as.hpp:496`, `C219_negative`).
110. **C225**: in `StrideIterator`, the difference between two iterators is divided by the stride, which is of type `std::size_t`, so the division is unsigned (stride_iterator.hpp:203). With a stride of two or more, the difference is wrong, and is never negative, whenever the first iterator precedes the second one (`C225_negative`). With a stride of 3 and 64-bit integers, the difference is 6148914691236517203 rather than -2. Separately, and from reading only, `make_stride_iterator()` is declared with its template parameters in one order, and defined with them in the other order (stride_iterator.hpp:89 and 263), so the function that is declared is never defined.
