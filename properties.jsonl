{"id": "C01", "title": "Base64 round trip", "statement": "Decoding the Base64 text produced by base64 encoding returns exactly the original bytes, whenever the decoder is configured to accept the alphabet, line breaks and padding that the encoder was configured to produce.", "quantifier": "every byte string of any length; every encode configuration (alphabet variant, padding on/off, every line size); every matching decode configuration", "why_tests_cant": "The input space is unbounded and the behaviour depends on length modulo 3, on the line size, and on where line breaks fall inside a 4-character group; tests sample a few lengths and configurations.", "anchors": ["src/archon/core/base64.cpp: IncrementalEncoder::encode, IncrementalDecoder::decode", "src/archon/core/base64.hpp: encode, decode"]}
{"id": "C02", "title": "Base64 output buffer sizes are exact upper bounds", "statement": "A buffer of the size reported by the encode/decode buffer size functions is always large enough: encoding succeeds with it and fills it exactly, and decoding into it never reports lack of space.", "quantifier": "every input length, every line size, every padding setting; every decoder input", "why_tests_cant": "A size formula that is off by one fails only at particular combinations of length, line size and padding.", "anchors": ["src/archon/core/base64.cpp: encode_buffer_size, decode_buffer_size"]}
{"id": "C03", "title": "Base64 incremental operation equals one-shot operation", "statement": "Feeding the input to the incremental Base64 encoder (or decoder) in arbitrary pieces, into output buffers of arbitrary sizes, produces the same output and the same success verdict as a single call.", "quantifier": "every input, every way of splitting it, every sequence of output buffer sizes", "why_tests_cant": "The number of ways to split input and output is exponential in the input length, and held-over state differs at each split.", "anchors": ["src/archon/core/base64.hpp: IncrementalEncoder, IncrementalDecoder", "src/archon/core/base64.cpp"]}
{"id": "C04", "title": "Base64 decoder rejects malformed input gracefully", "statement": "Decoding text that is not valid Base64 always reports a decode error to the caller; it never terminates the program and never reports lack of buffer space when the buffer has the documented size.", "quantifier": "every character string, every decode configuration", "why_tests_cant": "Only malformed strings whose valid prefix exactly fills the output buffer expose the difference.", "anchors": ["src/archon/core/base64.hpp: BasicDecoder::decode, decode", "src/archon/core/base64.cpp: decode"]}
{"id": "C05", "title": "Base64 decoder accepts only canonical encodings", "statement": "If decoding succeeds, the input with white space removed is exactly the canonical unpadded encoding (in the selected alphabet) of the returned bytes; in particular two different white space free inputs never decode to the same bytes.", "quantifier": "every character string, every decode configuration", "why_tests_cant": "It is a statement about all strings that are accepted; tests can only list some strings that should be rejected.", "anchors": ["src/archon/core/base64.cpp: IncrementalDecoder::decode, valid_partial"]}
{"id": "C06", "title": "UTF-8 round trip", "statement": "Encoding any sequence of valid code points as UTF-8 and decoding the result returns the same sequence, consuming all input.", "quantifier": "every finite sequence of valid code points", "why_tests_cant": "There are 1.1 million code points and unboundedly many sequences; boundary handling between 1-, 2-, 3- and 4-byte forms must hold in every combination.", "anchors": ["src/archon/core/unicode.hpp: encode_utf8_incr, decode_utf8_incr"]}
{"id": "C07", "title": "UTF-8 decoder accepts exactly well-formed UTF-8", "statement": "A byte string is accepted by the UTF-8 decoder if, and only if it is the UTF-8 encoding of a sequence of valid code points, and then that sequence is the result (no overlong forms, no surrogates, no values above U+10FFFF are ever accepted).", "quantifier": "every byte string", "why_tests_cant": "Rejection of every ill-formed string is a universally quantified statement; security-relevant overlong forms are easily missed by sampling.", "anchors": ["src/archon/core/unicode.hpp: decode_utf8_incr, try_decode_utf8"]}
{"id": "C08", "title": "UTF-16 round trip and exact acceptance", "statement": "A sequence of 16-bit code units is accepted by the UTF-16 decoder if, and only if it is the UTF-16 encoding of a sequence of valid code points, and then that sequence is the result. In particular decoding inverts encoding.", "quantifier": "every finite sequence of 16-bit code units", "why_tests_cant": "Surrogate pairing errors appear only for particular combinations and positions of units.", "anchors": ["src/archon/core/unicode.hpp: encode_utf16_incr, decode_utf16_incr"]}
{"id": "C09", "title": "UTF-8/UTF-16 transcoding round trip", "statement": "Transcoding well-formed UTF-8 to UTF-16 and back yields the original bytes, and likewise from UTF-16 to UTF-8 and back.", "quantifier": "every well-formed byte string / code unit sequence", "why_tests_cant": "Same unbounded input space as the codecs themselves.", "anchors": ["src/archon/core/unicode.hpp: transcode_utf8_to_utf16, transcode_utf16_to_utf8"]}
{"id": "C10", "title": "UTF codecs are independent of buffering", "statement": "Decoding or encoding incrementally, with the input delivered in arbitrary pieces and the output taken in buffers of arbitrary sizes, yields the same output as a single call with everything available.", "quantifier": "every input and every split of input and output", "why_tests_cant": "Exponentially many splits.", "anchors": ["src/archon/core/unicode.hpp: decode_utf8_incr, encode_utf8_incr, decode_utf16_incr, encode_utf16_incr"]}
{"id": "C11", "title": "Lenient decoding keeps all well-formed text", "statement": "Lenient decoding and transcoding of text that contains ill-formed parts outputs every well-formed character in order, with replacement characters only in place of the ill-formed parts.", "quantifier": "every byte string (or code unit sequence), well-formed or not", "why_tests_cant": "The output after the second and later errors depends on buffer offsets accumulated over the whole history.", "anchors": ["src/archon/core/unicode.hpp: decode_utf8_l, decode_utf16_l, transcode_utf8_to_utf16_l, transcode_utf16_to_utf8_l"]}
{"id": "C12", "title": "Incremental UTF-8 decoder reports 'more input needed' only for incomplete input", "statement": "When the incremental decoder stops because input is exhausted, the remaining bytes are a proper prefix of a valid character's encoding, so that more input could complete them; otherwise an error is reported.", "quantifier": "every byte string", "why_tests_cant": "Ill-formed prefixes form an infinite family.", "anchors": ["src/archon/core/unicode.hpp: decode_utf8_incr"]}
{"id": "C13", "title": "Double-ended queue behaves like a sequence", "statement": "Any sequence of push/pop at either end, indexing, clear, reserve and shrink operations on a deque has the same observable results as on a mathematical sequence; memory outside the allocated, initialized slots is never touched.", "quantifier": "every element type value, every operation history, every initial capacity", "why_tests_cant": "Wrap-around states of the ring buffer depend on the whole history; growth while wrapped is rarely reached by tests.", "anchors": ["src/archon/core/deque.hpp: Deque"]}
{"id": "C14", "title": "Deque range erase", "statement": "Erasing a range of positions from a deque removes exactly the elements at those positions and keeps all others in order, without touching memory outside live elements.", "quantifier": "every deque layout (offset, size, capacity) and every valid range", "why_tests_cant": "Eight layout cases (divided / undivided, near front / near back, range before / across / after the wrap point); only a full case analysis covers all.", "anchors": ["src/archon/core/deque.hpp: erase, erase_near_front, erase_near_back"]}
{"id": "C15", "title": "Checked element access throws exactly when out of range", "statement": "at(i) of buffers, vectors and deques returns the i'th element when i is less than the size and throws out_of_range for every other i.", "quantifier": "every container size, every index", "why_tests_cant": "The faulty index is one value out of 2^64 for each size.", "anchors": ["src/archon/core/buffer.hpp: at, verify_index", "src/archon/core/vector.hpp: at", "src/archon/core/deque.hpp: at"]}
{"id": "C16", "title": "Buffer growth policy", "statement": "The suggested new buffer size is never less than the requested minimum or the current size, never exceeds the maximum, never overflows, and grows by at least one half unless capped, so that n single-element appends cause only logarithmically many reallocations.", "quantifier": "every current size, minimum and maximum representable in size_t", "why_tests_cant": "Overflow behaviour lives at the far end of the 64-bit range; amortized complexity quantifies over all append counts.", "anchors": ["src/archon/core/memory.hpp: suggest_new_buffer_size", "src/archon/core/buffer.hpp: reserve_extra"]}
{"id": "C17", "title": "Small-buffer vector behaves like a sequence", "statement": "Any sequence of push/emplace back, insert, erase, pop, clear, reserve and shrink operations on the vector with inline storage has the same observable results as on a mathematical sequence, with no access outside its memory.", "quantifier": "every operation history, every inline capacity", "why_tests_cant": "The transition from inline to heap memory and back can occur at any point of a history.", "anchors": ["src/archon/core/vector.hpp: Vector", "src/archon/core/impl/vector_impl.hpp: VectorImpl"]}
{"id": "C18", "title": "Vector resize", "statement": "resize(n) leaves the vector with exactly n elements, the old ones preserved and the new ones equal to the fill value, and writes no memory outside the vector's capacity.", "quantifier": "every vector state, every n and fill value", "why_tests_cant": "An out-of-bounds write is not observable as a wrong result in a unit test unless it happens to hit something.", "anchors": ["src/archon/core/impl/vector_impl.hpp: resize"]}
{"id": "C19", "title": "Vector reserve", "statement": "reserve(n) ensures a capacity of at least n, never changes the elements, does nothing when the capacity is already sufficient, and fails only if n elements cannot be represented.", "quantifier": "every vector state, every n up to the maximum of size_t", "why_tests_cant": "Failure conditions are only reached near the maximum of size_t.", "anchors": ["src/archon/core/vector.hpp: reserve", "src/archon/core/impl/vector_impl.hpp: reserve, do_reserve_extra"]}
{"id": "C20", "title": "Checked integer arithmetic is exact", "statement": "The checked addition, subtraction and multiplication functions succeed exactly when the mathematically correct result fits in the type of the left operand, and then store that result; otherwise the operand is left unchanged. No undefined behaviour occurs.", "quantifier": "every pair of integer types (any width and signedness) and every pair of values", "why_tests_cant": "2^128 value pairs for the common case, times all type combinations including those subject to integral promotion.", "anchors": ["src/archon/core/integer.hpp: try_int_add, try_int_sub, try_int_mul, int_add, int_sub, int_mul"]}
{"id": "C21", "title": "Integer comparison and value-preserving casts", "statement": "Mixed-signedness comparison functions agree with mathematical comparison, and the checked cast succeeds exactly when the value fits in the target type.", "quantifier": "every pair of integer types and every pair of values", "why_tests_cant": "Same unbounded type/value space.", "anchors": ["src/archon/core/integer.hpp: int_equal, int_less, try_int_cast, int_cast"]}
{"id": "C22", "title": "Two's complement cast check is exact", "statement": "The checked two's complement cast from one integer type to another succeeds whenever no information is lost by reinterpreting modulo the target width, as documented, and reports failure only otherwise.", "quantifier": "every pair of integer types and every value", "why_tests_cant": "Fails only for specific type pairs (promoted unsigned source) and specific values.", "anchors": ["src/archon/core/integer.hpp: can_twos_compl_cast, try_twos_compl_cast, twos_compl_cast_a"]}
{"id": "C23", "title": "Integer division rounding helpers", "statement": "The division helpers return exactly the documented rounding (ceiling, half down) of the quotient for every pair of operands, without intermediate overflow.", "quantifier": "every dividend and positive divisor of every width", "why_tests_cant": "Overflow of the intermediate sum occurs only near the type maximum.", "anchors": ["src/archon/core/integer.hpp: int_div_round_up, int_div_round_half_down"]}
{"id": "C24", "title": "Checked integer powers and roots", "statement": "Checked exponentiation succeeds exactly when the power is representable and then yields it; integer square root yields the floor of the real square root.", "quantifier": "every base, exponent and width", "why_tests_cant": "Unbounded domain, overflow in an intermediate squaring must not cause a false failure.", "anchors": ["src/archon/core/integer.hpp: try_int_pow, int_pow, int_sqrt"]}
{"id": "C25", "title": "Integer parser accepts exactly the representable numerals", "statement": "Parsing a numeral in radix r succeeds exactly if it is an optional permitted sign followed by one or more digits whose mathematical value is in range of the target type, and then yields this value; on failure the target is unchanged.", "quantifier": "every character string, radix 2 to 36, every target width and signedness", "why_tests_cant": "Overflow detection must be right at every digit for every radix and width.", "anchors": ["src/archon/core/integer_parser.hpp: BasicIntegerParser::parse"]}
{"id": "C26", "title": "Integer format/parse round trip", "statement": "Parsing the text produced by formatting an integer (same radix) yields the original integer.", "quantifier": "every integer of every width, every radix 2 to 36, both digit cases, every minimum digit count", "why_tests_cant": "All values including the most negative one, whose negation is not representable.", "anchors": ["src/archon/core/integer_formatter.hpp: do_format", "src/archon/core/integer_parser.hpp: parse"]}
{"id": "C27", "title": "Multi-precision integer ring arithmetic", "statement": "Addition, subtraction, negation and multiplication of multi-part integers equal the mathematical operation modulo 2^width, and comparison agrees with the represented values.", "quantifier": "every part width, every number of parts, all operand values", "why_tests_cant": "Carry chains of arbitrary length; the operand space is 2^(2*width).", "anchors": ["src/archon/core/mul_prec_int.hpp: MulPrecInt"]}
{"id": "C28", "title": "Multi-precision division", "statement": "Division and remainder of multi-part integers satisfy a = q*b + r with |r| < |b| and the sign conventions of truncated division, for every nonzero divisor.", "quantifier": "every part width, every number of parts, all operand values with nonzero divisor", "why_tests_cant": "The add-back step of long division is needed with probability about 2/2^32; random tests never reach it.", "anchors": ["src/archon/core/mul_prec_int.hpp: unsigned_long_div, unsigned_short_div, divmod"]}
{"id": "C29", "title": "Newline codec round trip", "statement": "Decoding the encoded form of any text yields the original text, also for text that itself contains carriage returns.", "quantifier": "every character string", "why_tests_cant": "Strings with unusual CR/LF sequences are an infinite family.", "anchors": ["src/archon/core/newline_codec.cpp: NewlineCodec::encode, decode"]}
{"id": "C30", "title": "Newline codec is independent of buffering", "statement": "Decoding or encoding in arbitrary input pieces into output buffers of arbitrary sizes gives the same result as processing all text at once; a CR/LF pair that straddles two pieces is still recognized.", "quantifier": "every text, every sequence of piece sizes and buffer sizes", "why_tests_cant": "Exponentially many splits, the interesting ones between CR and LF.", "anchors": ["src/archon/core/newline_codec.cpp: NewlineCodec::encode, decode"]}
{"id": "C31", "title": "Simulated newline decoding finds the right offset", "statement": "Simulated decoding of n characters advances over exactly the encoded characters that decode to the first n characters, or reports failure if there are fewer.", "quantifier": "every text and every n", "why_tests_cant": "Needs agreement between two separate loops for every text.", "anchors": ["src/archon/core/newline_codec.cpp: simul_decode"]}
{"id": "C32", "title": "Flat map behaves like a finite map", "statement": "After any sequence of insertions, assignments and erasures, lookup, membership, count and size of a flat map or set agree with a mathematical finite map, and iteration is in strictly increasing key order.", "quantifier": "every key type with a strict weak order, every operation history", "why_tests_cant": "Binary search boundaries depend on size and position; histories are unbounded.", "anchors": ["src/archon/core/impl/flat_map_impl.hpp: FlatMapImpl", "src/archon/core/flat_map.hpp", "src/archon/core/flat_set.hpp"]}
{"id": "C33", "title": "Flat multimap keeps equal keys in insertion order", "statement": "A flat multimap keeps all inserted pairs, iterates in nondecreasing key order with equivalent keys in insertion order, equal_range returns exactly the entries with an equivalent key, and erasing a key removes exactly those and reports their number.", "quantifier": "every operation history", "why_tests_cant": "Same.", "anchors": ["src/archon/core/impl/flat_map_impl.hpp: insert_multi, equal_range, erase", "src/archon/core/flat_multimap.hpp"]}
{"id": "C34", "title": "Range map update is a point-wise update", "statement": "After any sequence of range updates, the value stored for each key is the result of applying, in order, exactly those updates whose range contains the key; ranges in the map are nonempty, sorted and disjoint. Defragmentation changes no key's value and leaves no two adjacent mergeable ranges.", "quantifier": "every sequence of updates over any integer range", "why_tests_cant": "Splitting and gap filling depends on the relative position of unboundedly many ranges.", "anchors": ["src/archon/core/range_map.hpp: RangeMap::update, defrag"]}
{"id": "C35", "title": "Frozen sets are immutable and canonical", "statement": "Once a set has been frozen its contents never change by later operations on the collection, two frozen sets are given the same identity exactly if they have equal contents, and union of two frozen sets yields the set-theoretic union.", "quantifier": "every history of freeze and unite operations", "why_tests_cant": "The failure needs a union whose result coincides with an operand; the damage shows up only later.", "anchors": ["src/archon/core/frozen_sets.hpp: FrozenSets"]}
{"id": "C36", "title": "Wildcard matching is correct", "statement": "A compiled matcher matches a string exactly if the string matches one of the added patterns under the definition of the pattern language, and reports the identity of the first pattern in order of addition that matches.", "quantifier": "every set of patterns and every string", "why_tests_cant": "Subset construction over all patterns; errors appear for particular overlaps of patterns.", "anchors": ["src/archon/core/string_matcher.hpp: BasicStringMatcher::Builder::build, match"]}
{"id": "C37", "title": "Pattern ambiguity detection", "statement": "When inter-pattern ambiguity is disallowed, building fails exactly if some string is matched by two different patterns.", "quantifier": "every set of patterns", "why_tests_cant": "Quantifies over all strings for each set of patterns.", "anchors": ["src/archon/core/string_matcher.hpp: build_dfa"]}
{"id": "C38", "title": "Literal hash map lookup", "statement": "A literal hash map finds a value for a key exactly if the key is among the initializing associations, and then returns the value associated with the first occurrence of that key.", "quantifier": "every list of associations, every key, every hash function", "why_tests_cant": "Depends on collisions; the probing/bucket layout varies with every key set.", "anchors": ["src/archon/core/literal_hash_map.hpp: LiteralHashMap::init, find"]}
{"id": "C39", "title": "FNV-1a hash conforms", "statement": "Hashing a sequence of bytes gives the published 32-bit FNV-1a value, and hashing an integer is the hash of its little-endian two's complement octets, independently of how the value is split into calls.", "quantifier": "every byte sequence, every integer type and value", "why_tests_cant": "Unbounded input; sign-extension defects show up only for narrow negative values.", "anchors": ["src/archon/core/hash_fnv.hpp: HashFNV1a_32"]}
{"id": "C40", "title": "Timestamp unwrapping", "statement": "If the auxiliary clock is accurate to within half of the wrap-around period, unwrapped timestamps equal the true (unbounded) timestamps minus a constant, so they never jump when the limited-width counter wraps, any number of times.", "quantifier": "every timestamp width, every sequence of true times, every clock error below half a period", "why_tests_cant": "Wrap-around of a 32-bit millisecond counter happens every 49.7 days, and any number of wraps may pass between two events.", "anchors": ["src/archon/display/noinst/timestamp_unwrapper.hpp: TimestampUnwrapper::unwrap_next_timestamp"]}
{"id": "C41", "title": "k-d tree nearest neighbour search is exact", "statement": "Searching a k-d tree returns a stored point of minimal distance to the query among those closer than the search limit, and reports failure exactly if there is none.", "quantifier": "every dimension, every finite set of points, every query and limit (exact arithmetic)", "why_tests_cant": "Pruning errors appear only for particular geometric configurations.", "anchors": ["src/archon/util/kdtree.hpp: kdtree_find"]}
{"id": "C42", "title": "k-d tree sorting", "statement": "Sorting an array of points for k-d search permutes the points and establishes the order that the search relies on at every level of the tree.", "quantifier": "every array of points, every dimension, every admissible behaviour of nth_element", "why_tests_cant": "All array lengths and all permutations allowed to the library partition function.", "anchors": ["src/archon/util/kdtree.hpp: kdtree_sort"]}
{"id": "C43", "title": "Hex dump respects its size limit", "statement": "A hex dump never exceeds the specified maximum size (but at least the size of the ellipsis); it is the complete dump when that fits and otherwise the dump of the longest prefix that fits together with the ellipsis.", "quantifier": "every array, every size limit and formatting configuration", "why_tests_cant": "Quantifies over all lengths and limits; off-by-one only at exact fits.", "anchors": ["src/archon/core/hex_dump.hpp: do_hex_dump"]}
{"id": "C44", "title": "Quoting respects its size limit", "statement": "A quoted string never exceeds the specified maximum size (but there is always room for an ellipsis and two quotation characters), is the complete quotation when that fits, and otherwise consists of the escaped characters of the longest prefix that fits together with the ellipsis and the quotation characters, where each character is escaped as in the complete quotation. In smart mode, what is written is the documented choice between the unquoted and the quoted form.", "quantifier": "every string, every size limit and quoting style", "why_tests_cant": "Escape lengths depend on neighbouring characters.", "anchors": ["src/archon/core/quote.hpp: do_quote"]}
{"id": "C45", "title": "Quoting is unambiguous", "statement": "Two different strings never have the same complete quotation, neither in quoted nor in smart style without a size limit, so that the original string can be recovered by interpreting the C-style escape sequences. A truncated quotation denotes a proper prefix of the string followed by an ellipsis. Nothing is escaped without reason.", "quantifier": "every pair of strings", "why_tests_cant": "Ambiguity arises from an escape being followed by a digit character; needs all adjacent pairs.", "anchors": ["src/archon/core/quote.hpp: do_quote, render lambdas"]}
{"id": "C46", "title": "Rectangle packing is valid", "statement": "When packing succeeds, every rectangle lies inside its bin with the requested margin, no two rectangles in the same bin are closer than the requested spacing (in particular they do not overlap), no more than the allowed number of bins is used, and the reported utilized size is exactly the extent of the rectangles plus margin.", "quantifier": "every list of rectangles, bin size, spacing, margin and bin limit", "why_tests_cant": "Placement depends on all earlier placements.", "anchors": ["src/archon/util/rectangle_packer.hpp: RectanglePacker::do_pack"]}
{"id": "C47", "title": "Random seed text round trip", "statement": "Writing a random seed to a stream and reading it back yields the same seed, and every accepted text is the serialized form of the resulting seed.", "quantifier": "every seed (any number of 192-bit blocks) and every text", "why_tests_cant": "The failing value is one in 2^64 per word pair.", "anchors": ["src/archon/check/random_seed.hpp: operator<<, operator>>"]}
{"id": "C48", "title": "Pixel box predicates agree with pixel sets", "statement": "intersects and clip on valid pixel boxes agree with intersection of the sets of pixels that the boxes denote, and contains agrees with inclusion of the sets of pixels, for all boxes whose positions are not so far apart that their difference is unrepresentable. For an empty argument box, contains is inclusion of extents.", "quantifier": "every pair of valid boxes", "why_tests_cant": "Four coordinates and sizes per pair; touching edges, empty boxes and extreme coordinates.", "anchors": ["src/archon/util/pixel_box.hpp: Box::intersects, Box::contains, Box::clip"]}
{"id": "C49", "title": "Bit width change of unit fractions", "statement": "Changing the bit width of a fraction of unity gives exactly the documented value: floor(v / (2^n - 1) * 2^m), clamped to 2^m - 1; narrowing inverts widening.", "quantifier": "every source width n, target width m, and value v", "why_tests_cant": "Width pairs and values span the whole integer range.", "anchors": ["src/archon/util/unit_frac.hpp: change_bit_width"]}
{"id": "C50", "title": "Exact rescaling of unit fractions", "statement": "Converting a fraction of unity between integer representations is the correctly rounded exact rational value, agrees with the documented floating-point alternative done in exact arithmetic, maps 0 to 0 and max to max, is monotone, and round trips when the target is at least as wide.", "quantifier": "every pair of maxima and every value", "why_tests_cant": "All value/maxima triples; ties are rare.", "anchors": ["src/archon/util/unit_frac.hpp: int_to_int_a", "src/archon/core/integer.hpp: int_div_round_half_down"]}
{"id": "C51", "title": "Wildcard test filter semantics", "statement": "A test is selected by a filter string exactly if its name matches an include pattern (or there are none) and no exclude pattern, as given by the documented grammar.", "quantifier": "every filter string and every test name", "why_tests_cant": "Unbounded filters and names.", "anchors": ["src/archon/check/wildcard_filter.cpp: WildcardFilter", "src/archon/core/string.hpp: for_each_word"]}
{"id": "C52", "title": "Byte order detection", "statement": "Byte order detection of a multi-byte integer type reports big (little) endian exactly if the memory representation of every value of that type is its big (little) endian byte string, and reports failure for every other byte arrangement.", "quantifier": "every number of bytes and every assignment of value bytes to memory positions", "why_tests_cant": "The machine running the tests has only one byte order; the other arrangements cannot be exercised.", "anchors": ["src/archon/core/endianness.hpp: try_get_byte_order"]}
{"id": "C53", "title": "Newline decoder clear position", "statement": "After a newline decoding call, either no newline sequence was decoded, the clear position is unchanged, and the consumed input was copied verbatim; or the clear position is the given clear offset plus the buffer position just after the last decoded newline, and everything produced after that position is a verbatim copy of the tail of the consumed input.", "quantifier": "every input, every offset, every buffer size and position, every clear offset", "why_tests_cant": "The position depends on which newline sequence was the last to fit in the buffer, for every combination of input and buffer size.", "anchors": ["src/archon/core/newline_codec.hpp: BasicNewlineCodec::decode"]}
{"id": "C54", "title": "Periodic remainder", "statement": "The periodic remainder function yields the value congruent to the dividend modulo the divisor that lies between zero (included) and the divisor (excluded), and that value is representable in the type of the divisor; no undefined behaviour occurs, even for the most negative dividend and a divisor of -1.", "quantifier": "every pair of integer types, every dividend, every nonzero divisor", "why_tests_cant": "Mixed signedness goes through modular arithmetic that is only correct by a number theoretic argument; corner cases depend on type widths.", "anchors": ["src/archon/core/integer.hpp: int_periodic_mod"]}
{"id": "C55", "title": "Positions of most significant bit and digit", "statement": "The position of the most significant bit is the floor of the binary logarithm (-1 for zero), whichever of the two implementations is used, and the number of digits in any base is exact.", "quantifier": "every integer type, every value and every base", "why_tests_cant": "Binary search over the bits of types of any width, and repeated division: unbounded domain.", "anchors": ["src/archon/core/integer.hpp: int_find_msb_pos, int_find_msd_pos, int_num_digits"]}
{"id": "C56", "title": "Shifts, masks and the power-of-two test", "statement": "The checked left shift succeeds exactly when the shifted value fits; logical shifts by any nonnegative amount, including amounts beyond the width, yield the mathematical result; a mask has exactly the requested number of ones; and the power-of-two test is exact.", "quantifier": "every integer type, every value and every shift amount", "why_tests_cant": "Shift amounts at or beyond the width are undefined behaviour unless handled, and depend on promotion.", "anchors": ["src/archon/core/integer.hpp: try_int_arith_shift_left, int_logic_shift_left, int_logic_shift_right, int_mask, int_is_power_of_two"]}
{"id": "C58", "title": "Buffer growth preserves contents", "statement": "Appending to (prepending to) an expandable buffer at the end (beginning) of its used part keeps the used part and adds exactly the specified data, also when the memory has to be reallocated; assignment and expansion likewise. A length error occurs exactly if the required size is not representable, and no memory outside the buffer is accessed.", "quantifier": "every buffer size, every used size, all data, every maximum size", "why_tests_cant": "Whether a reallocation happens, and the offset adjustment when it does, depends on the whole history of sizes.", "anchors": ["src/archon/core/buffer.hpp: append, append_a, prepend, prepend_a, assign, expand, reserve_extra_a, do_reserve"]}
{"id": "C59", "title": "Container operations that throw leave the sequence unchanged", "statement": "If an operation on a vector or a deque, other than assignment, throws an exception (because a constructor of the element type throws, or because memory cannot be allocated, or because the size would be too large), then the container has the same elements in the same order as before the operation, and no object has been leaked or destroyed twice.", "quantifier": "for all containers, all contents, all operations and all points at which a constructor or an allocation can fail", "why_tests_cant": "The number of failure points grows with the size of the operation and the memory layout; tests do not inject a failure at every one of them.", "anchors": ["src/archon/core/vector.hpp", "src/archon/core/deque.hpp", "src/archon/core/memory.hpp"]}
{"id": "C60", "title": "An element of a container can be pushed onto the same container", "statement": "push_back(c[i]), for a valid index i of a vector or deque c, appends a copy of that element, regardless of whether the operation has to reallocate.", "quantifier": "for all containers, all capacities and all valid indexes", "why_tests_cant": "With spare capacity it works, and after a reallocation the released memory often still has the old contents, so a test can pass by accident.", "anchors": ["src/archon/core/vector.hpp", "src/archon/core/deque.hpp:835-846"]}
{"id": "C61", "title": "Deque iterators are random access iterators that survive insertion and removal at the ends", "statement": "Iterators of a deque support random access: incrementing, decrementing, adding, subtracting, comparing and dereferencing agree with positions in the sequence. After pop_front() all iterators but those to the removed element remain valid, including end iterators. After pop_back() iterators to the removed element are end iterators and all others remain valid. After push_front() with spare capacity all iterators remain valid. After push_back() with spare capacity former end iterators refer to the inserted element, and all others remain valid.", "quantifier": "for all deques, all ways in which their contents wrap around, and all pairs of positions", "why_tests_cant": "It depends on the position at which the contents wrap around and on the fill level; all combinations cannot be enumerated.", "anchors": ["src/archon/core/deque.hpp:69-87", "src/archon/core/deque.hpp:279-452"]}
{"id": "C62", "title": "Container capacity: no reallocation if it is sufficient", "statement": "No operation on a vector or deque other than shrink_to_fit() reduces the capacity. An operation for which the capacity is already sufficient does not reallocate, and throws only if a constructor of the element type throws. After reserving, the capacity is at least what was asked for. After shrink_to_fit() the capacity of a deque, or of a vector with dynamically allocated memory, is its size.", "quantifier": "for all containers and all operations", "why_tests_cant": "It has to hold for each combination of size, capacity and operation.", "anchors": ["src/archon/core/deque.hpp:50-61", "src/archon/core/deque.hpp:732-789", "src/archon/core/vector.hpp"]}
{"id": "C63", "title": "Copy assignment of a deque gives it the elements of the source", "statement": "After a = b, the deque a has the same elements as b had before the assignment, also if a and b are the same deque.", "quantifier": "for all pairs of deques", "why_tests_cant": "Tests have assignment between different deques; the elements are lost only in a self-assignment of a non-empty deque.", "anchors": ["src/archon/core/deque.hpp:515-521"]}
{"id": "C64", "title": "Multi-precision bit operations, shifts, extreme values and bit position", "statement": "For multi-part integers, and/or/xor/not act on each bit of the two's complement representation, left shift multiplies by a power of two modulo 2^width, right shift of a nonnegative value gives the floor of the quotient, min() and max() are the least and greatest values of the type, and find_msb_pos() gives the position of the most significant bit, -1 for zero, and the number of value bits for negative values.", "quantifier": "every part width, every number of parts, signed and unsigned, all operand values, all shift amounts less than the width", "why_tests_cant": "Shifts move bits across part boundaries in width * (number of parts) different ways for each of 2^width values.", "anchors": ["src/archon/core/mul_prec_int.hpp: operator<<, operator>>, operator&, operator|, operator^, operator~, min, max, find_msb_pos"]}
{"id": "C57", "title": "Copying bits between arrays of different part types preserves the value", "statement": "int_bit_copy() copies an integer stored as an array of parts, least significant part first, into an array of parts of another width. Every part of the target is written regardless of its earlier contents. Afterwards the target holds the value of the source, read as a two's complement number when sign extension is requested and as an unsigned number otherwise, modulo two to the width of the target. In particular a value that the target can represent is preserved. No shift is out of range and no element outside the arrays is accessed.", "quantifier": "For all part widths (including widths that do not divide each other), all array lengths greater than zero, both settings of sign extension, and all contents of source and target.", "why_tests_cant": "The loops carry a bit offset across part boundaries, and the interplay of the two widths, the two lengths and the sign extension has no bounded set of cases that represents the others.", "anchors": ["src/archon/core/integer.hpp:2152-2256"]}
{"id": "C65", "title": "Conversions to, from and between multiple precision integers are modular", "statement": "Converting a multiple precision integer to another multiple precision type yields the value of the target type that is congruent to the original value modulo two to the width of the target type. The same holds for conversions from a fundamental integer type to a multiple precision type, and from a multiple precision type to a fundamental integer type. Therefore a value representable in both types is unchanged, and conversion there and back is the identity on such values.", "quantifier": "For all part widths, numbers of parts and signedness of the multiple precision types, all fundamental integer types other than bool, and all values.", "why_tests_cant": "The conversion goes through up to three bit copies between different part widths with sign extension; the number of combinations of types and values is unbounded.", "anchors": ["src/archon/core/integer.hpp:1235-1264", "src/archon/core/mul_prec_int.hpp:236-250", "src/archon/core/mul_prec_int.hpp:850-878", "src/archon/core/integer_traits.hpp:122-210"]}
{"id": "C66", "title": "Splitting a string yields exactly its pieces, and trimming removes exactly the delimiters at the ends", "statement": "Repeatedly extracting words from a string by way of the string splitter, or having a function called for each word, yields exactly the pieces of the string, each one once, from left to right. A piece is a nonempty substring that does not contain the delimiter, and that is bounded on each side by a delimiter or by an end of the string. Trimming a string yields the substring that remains when all delimiters are removed from both ends, and nothing else is removed.", "quantifier": "For all strings and all delimiters.", "why_tests_cant": "Tests can only check particular arrangements of delimiters; runs of delimiters of any length may occur at any place.", "anchors": ["src/archon/core/string.hpp:261-319"]}
{"id": "C67", "title": "Greedy word wrapping puts as many words as possible on each line", "statement": "The breakpoints produced by the greedy word wrapping function put as many words as possible on the first line, then as many as possible on the second line, and so on, where a line that has only one word is allowed to be too short for it. Space at line breaks does not count, but space before the first word and trailing space do. The breakpoints are determined by this, and no other allowed way to break the words into lines has fewer lines.", "quantifier": "For all sequences of words, all sizes of spaces and words including sizes whose sums overflow, and all sequences of line sizes less than the largest size.", "why_tests_cant": "Tests fix a few texts and line sizes; the cases in which additions saturate, in which a word is longer than the line, and in which line sizes vary from line to line combine in unboundedly many ways.", "anchors": ["src/archon/core/word_wrap.cpp:39-98", "src/archon/core/word_wrap.hpp:36-62"]}
{"id": "C68", "title": "Word wrapping with Knuth's algorithm minimizes the sum of the squares of the gaps", "statement": "The breakpoints produced by the wrapper that uses Knuth's algorithm are an allowed way to break the words into lines, and no allowed way has a smaller sum of squares of the gaps at the end of all lines but the last one. In particular, the result is never worse than the one of the greedy function. The algorithm terminates, and it throws only if no allowed way has a sum that is less than the largest value of the badness type.", "quantifier": "For all sequences of words, all sizes of spaces and words, and all sequences of line sizes less than the largest size.", "why_tests_cant": "The algorithm is a search with pruning by bounds and a cache of partly evaluated results. Whether the pruning is sound depends on the order in which results become known, and the number of ways to break a text into lines is exponential.", "anchors": ["src/archon/core/word_wrap.cpp:101-351", "src/archon/core/word_wrap.hpp:66-98"]}
{"id": "C69", "title": "The reported badness is that of the last wrapping operation", "statement": "After a wrapping operation with Knuth's algorithm, the reported badness is the sum of the squares of the gaps at the end of all lines but the last one for the breakpoints that were produced by that operation.", "quantifier": "For all arguments of the operation, and all previous operations on the same object.", "why_tests_cant": "The reported value depends on the history of the object, which is unbounded.", "anchors": ["src/archon/core/word_wrap.cpp:101-114", "src/archon/core/word_wrap.cpp:339-350", "src/archon/core/word_wrap.hpp:89-98"]}
{"id": "C70", "title": "Random multiple precision integers are uniformly distributed over the requested range", "statement": "Generation of a random multiple precision integer between a minimum and a maximum value produces a value in that range, and it has no undefined behavior. Every value in the range corresponds to exactly one outcome of the random numbers of the part type that are drawn in an attempt, so that the result is uniformly distributed if those are independent and uniformly distributed. More than half of the outcomes of an attempt are accepted, so that the expected number of attempts is less than two.", "quantifier": "For all part widths, numbers of parts, signedness, all ranges (including those of negative values and the full range of the type), and all outcomes of the random numbers that are drawn.", "why_tests_cant": "Uniformity is a statement about all outcomes of the random number generator. Tests can only sample some of them, and carry propagation errors affect a tiny fraction.", "anchors": ["src/archon/core/random.hpp:204-283", "src/archon/core/random.hpp:304-309", "src/archon/core/mul_prec_int.hpp:850-878"]}
{"id": "C71", "title": "Seed sequences generate the same integers as std::seed_seq", "statement": "The integers that are generated from an initial seed sequence are exactly those that are required by the C++17 standard for `std::seed_seq::generate()`. They do not depend on how the initial seed sequence is distributed over multiple places in memory, nor on the width of the element type of the destination (at least 32 bits) or of the size type. The whole destination is filled, and every integer is a 32-bit integer.", "quantifier": "For all initial seed sequences and ways of splitting them, all sizes of the destination, and all widths of the involved types.", "why_tests_cant": "The algorithm has different parameters for different sizes, and mixes every element of the seed into many elements of the result. Tests can compare finitely many cases only, on platforms with particular widths of types.", "anchors": ["src/archon/core/random.hpp:122-143", "src/archon/core/random.hpp:524-593", "src/archon/core/random.cpp:84-92"]}
{"id": "C72", "title": "Moving of a seed sequence object transfers the initial seed sequence", "statement": "After move construction or move assignment between different seed sequence objects, the target has the initial seed sequence that the source had, and the source has an empty one. This holds for objects that were created in any of the supported ways, and no assertion fails.", "quantifier": "For all sequences of operations on any number of objects.", "why_tests_cant": "The outcome depends on the history of the target and the source, and there are infinitely many histories.", "anchors": ["src/archon/core/random.hpp:495-521", "src/archon/core/random.hpp:604-655", "src/archon/core/random.cpp:71-81"]}
{"id": "C73", "title": "Bit fields of any width are stored in, and retrieved from any integer type without loss", "statement": "A nonnegative integer of at most N bits can be packed into any integer type, signed or unsigned, that has at least N bits, the sign bit included. The result is the integer itself, or, if bit N-1 is set and coincides with the sign bit, the negative integer with the same bits in two's complement. Unpacking restores the original integer. When all bits are used, every value of the type arises in this way.", "quantifier": "For all integer types of any width and signedness, all N that fit, and all values.", "why_tests_cant": "There are many combinations of types and widths, and wide types have too many values for exhaustive testing. Only types that exist on the test platform can be tested.", "anchors": ["src/archon/image/bit_medium.hpp:169-203", "src/archon/image/impl/bit_medium.hpp:36-63"]}
{"id": "C74", "title": "Conversion of packed integer components follows the unit fraction model", "statement": "Conversion of a color component of M bits, packed in one integer type, to a component of N bits in another integer type, yields the packed form of the represented fraction of unity multiplied by 2 to the power of N and rounded down, except that unity becomes the largest integer of N bits. Conversion to a number of bits that is not smaller, and back, restores the component.", "quantifier": "For all pairs of integer types, all positive widths M and N that fit in them, and all component values.", "why_tests_cant": "The conversion goes through intermediate types that depend on both types and both widths. Tests cover a few combinations of the values and types of one platform.", "anchors": ["src/archon/image/comp_types.hpp:170-180", "src/archon/image/bit_medium.hpp:169-203"]}
{"id": "C75", "title": "Pixel formats with several pixels per word read and write exactly the addressed pixels", "statement": "In a pixel format that stores several pixels per word, reading a rectangular area of an image yields exactly the pixels of that area, converted to the transfer representation. Writing or filling an area changes exactly the pixels of that area to the given colors, rounded to the resolution of the format, and leaves all other pixels, and all unused bits, unchanged. A pixel that is read can be written back without loss. Areas that are not contained in the image are rejected, the reported buffer size is the smallest that can hold the image, and no memory outside the buffer is accessed.", "quantifier": "For all word types and component types, all numbers of channels, bits per channel (up to 16), and pixels per word that fit, both bit orders, all channel orders, aligned and unaligned rows, all image sizes, all areas, and all contents.", "why_tests_cant": "The formats are templates with many parameters, and the position of an area relative to word boundaries leads to different code paths. Tests can sample a few formats and areas only.", "anchors": ["src/archon/image/subword_pixel_format.hpp:258-273", "src/archon/image/subword_pixel_format.hpp:299-617"]}
{"id": "C76", "title": "Indexed pixel formats read and write exactly the addressed color indexes", "statement": "In an indexed pixel format, where several pixels are stored in a bit compound that consists of one or more words, reading a rectangular area of an image yields exactly the color indexes of that area. Writing or filling an area with color indexes that fit in a pixel changes exactly the pixels of that area, and leaves all other pixels unchanged. Areas that are not contained in the image are rejected, the reported buffer size is the smallest that can hold the image, and no memory outside the buffer is accessed.", "quantifier": "For all compound, word, and index types, all numbers of bits per pixel (up to 8), pixels per compound, bits per word, and words per compound that are accepted, all bit and word orders, aligned and unaligned rows, all image sizes, all areas, and all contents.", "why_tests_cant": "The formats are templates with many parameters, and the position of an area relative to compound boundaries leads to different code paths. Tests can sample a few formats and areas only.", "anchors": ["src/archon/image/indexed_pixel_format.hpp:336-352", "src/archon/image/indexed_pixel_format.hpp:382-632"]}
{"id": "C77", "title": "Bit field sequences are validated correctly and locate disjoint fields", "statement": "valid_bit_fields() returns true if, and only if every field has a positive width and a nonnegative gap, and the sum of all widths and gaps does not exceed the number of available bits, even when that sum cannot be represented in type int. For a valid sequence, get_bit_field_width() and get_bit_field_shift() give the number of bits of the field and the number of bits that come after it; the fields do not overlap, an earlier field is more significant than a later one, and all are within the available bits; get_bit_field_mask() gives the packed form of the integer that has exactly the bits of the field set, also in signed types; widest_bit_field() gives the greatest width.", "quantifier": "for all sequences of bit fields, all numbers of available bits, all integer types, and all widths of type int", "why_tests_cant": "The sequence of fields has arbitrary length and arbitrary widths and gaps, and the overflow case needs sums beyond the range of type int.", "anchors": ["src/archon/image/bit_field.hpp:129-189"]}
{"id": "C78", "title": "Packed pixel formats read and write exactly the pixels of the specified area", "statement": "For every packed pixel format with fields of at most 16 bits, reading an area from a buffer gives, for each pixel of the area, the values of the bit fields of that pixel, in canonical channel order, converted to the transfer representation, regardless of the contents of unused bits. Writing or filling an area changes exactly the words of the pixels of the area, such that each field holds the converted value of its channel and unused bits are zero. A pixel that is read and written back has unchanged channel values. No word outside the buffer is accessed, areas outside the image are rejected, and the reported buffer size is the number of words of the image, or an error if it cannot be represented.", "quantifier": "for all integer types, field layouts, numbers of words per pixel, word orders, channel orders, image sizes, areas, buffer contents, and colors", "why_tests_cant": "The format is a family with unbounded parameters (field widths, gaps, word sizes, types, orders), and buffers and areas are arbitrary; tests can only instantiate a few.", "anchors": ["src/archon/image/packed_pixel_format.hpp:128-157", "src/archon/image/packed_pixel_format.hpp:273-565"]}
{"id": "C79", "title": "Integer pixel formats read and write exactly the pixels of the specified area", "statement": "For every integer pixel format, reading an area from a buffer gives, for each pixel of the area, its channel values, each assembled from its words, in canonical channel order, converted to the transfer representation. Writing or filling an area changes exactly the words of the pixels of the area, such that the words of each channel hold the converted value. A pixel that is read and written back has unchanged channel values. No word outside the buffer is accessed, no operation has undefined behavior, areas outside the image are rejected, and the reported buffer size is the number of words of the image, or an error if it cannot be represented.", "quantifier": "for all integer types, numbers of bits per word, numbers of words per channel, word orders, channel orders, image sizes, areas, buffer contents, and colors", "why_tests_cant": "The format is a family with unbounded parameters (word sizes, types, orders), and buffers and areas are arbitrary; undefined behavior of a shift operation is not observable by a test.", "anchors": ["src/archon/image/integer_pixel_format.hpp:121-147", "src/archon/image/integer_pixel_format.hpp:260-520"]}
{"id": "C80", "title": "The command-line pattern matcher accepts exactly what the patterns allow", "statement": "After any sequence of successfully consumed keywords, options and values, the pattern matcher accepts another one if, and only if the extended sequence is the beginning of a match of one of the patterns. It reports a match if, and only if the consumed sequence is matched by one of the patterns, and it then reports the first such pattern. It reports that more can be consumed if, and only if the sequence is a proper prefix of a match, and that delegation is possible if, and only if the sequence is the beginning of a match of a delegating pattern. No assertion fails.", "quantifier": "for all lists of patterns (symbols, sequences, optionality, repetition, and alternatives, nested arbitrarily), all configurations, and all sequences of arguments", "why_tests_cant": "Patterns are trees of unbounded depth, and the sequences of arguments that they match are unbounded; the matcher is a deterministic automaton whose states are sets of positions.", "anchors": ["src/archon/cli/impl/nfa.hpp:48-120", "src/archon/cli/impl/nfa_builder.hpp:60-376", "src/archon/cli/impl/pattern_matcher.hpp:124-430"]}
{"id": "C81", "title": "Ambiguous sets of command-line patterns are rejected, and no others", "statement": "Construction of the pattern matcher terminates. It fails if, and only if two patterns match the same sequence (unless that is allowed), or some sequence can be associated in two ways with the symbols of a single pattern (unless that is allowed), or a sequence that is matched first by a delegating pattern is a proper prefix of a match. A reported error is true of the patterns that it mentions, and the symbols that it mentions are those of the ambiguity.", "quantifier": "for all lists of patterns and all configurations", "why_tests_cant": "Both the absence of an error and the presence of an error are statements about all sequences of arguments, of which there are infinitely many.", "anchors": ["src/archon/cli/impl/pattern_matcher.hpp:135-301"]}
{"id": "C82", "title": "Arguments are associated with the symbols of the pattern that they match", "statement": "After a match, backtracking gives one entry for each consumed argument, with the index of the argument and the position of a symbol of the matched pattern, such that the visited symbols make up a match of the pattern as a whole and are the consumed symbols. The final entry holds the number of symbols in the pattern and the number of arguments. If positional ambiguity is disallowed, there is only one such association. No assertion fails.", "quantifier": "for all lists of patterns, all configurations, and all sequences of arguments", "why_tests_cant": "Patterns are trees of unbounded depth, and matches of repetitions are unbounded.", "anchors": ["src/archon/cli/impl/pattern_matcher.hpp:364-412"]}
{"id": "C83", "title": "A match of a command-line pattern has one structure, and that is what is reported", "statement": "For a pattern that is not rejected for structural ambiguity, the generated descriptors for a match (which argument for each value slot, whether each optionality construct was matched, how many times each repetition construct was repeated, which branch of each alternatives construct was chosen) form the one and only description of the match. No assertion fails. A pattern that is rejected for structural ambiguity has a match with two different descriptions. The notion of a repeating sub-pattern is exact: There is something nonempty such that it, and all repetitions of it are matched.", "quantifier": "for all patterns and all matches of them", "why_tests_cant": "Patterns are trees of unbounded depth, and matches of repetitions are unbounded. Uniqueness is a statement about all conceivable descriptions.", "anchors": ["src/archon/cli/impl/pattern_args_parser.hpp:113-268", "src/archon/cli/impl/spec_parser.hpp:500-590"]}
{"id": "C84", "title": "A function is accepted for a pattern precisely when its parameter types fit, and then receives the values that go with the match", "statement": "A pattern function is accepted if, and only if the number and the types of its parameters fit the value slots, optionality, repetition, and alternatives constructs of the pattern (bool for a flag, std::size_t for a number of repetitions, std::optional, std::vector, std::variant, and tuples for nested structure). When an accepted function's pattern has been matched, its parameters get the one and only values that go with the match, and precisely the arguments that could not be parsed as a value are reported. No assertion fails.", "quantifier": "for all patterns, all parameter types, all matches, and all outcomes of parsing of values", "why_tests_cant": "Both patterns and types are trees of unbounded depth, and uniqueness is a statement about all conceivable values.", "anchors": ["src/archon/cli/impl/pattern_func_checker.hpp:87-382", "src/archon/cli/impl/pattern_args_parser.hpp:268-463"]}
{"id": "C85", "title": "The structure recorded for a command-line pattern is the structure of the pattern expression", "statement": "For every parsed pattern expression (keywords, options, value slots, `[...]`, `...`, juxtaposition, `|`), the recording of the pattern ends. It succeeds if, and only if none of its error messages would be true: nothing that can match nothing inside `[...]` or before `...`, nothing that repeats before `...`, no two branches that can match nothing, and no reference to an option that takes an argument, is short-circuiting, or takes the remaining arguments. On success, the recorded structure, including positions, parameter counts, nullability, and collapsibility, is that of the expression. It matches precisely the sequences of symbols that the expression matches. It stays in place when further patterns are recorded, and the same keyword or option in two patterns is the same symbol.", "quantifier": "for all pattern expressions of any size and nesting, all sets of keywords and options already registered, and all previously recorded patterns", "why_tests_cant": "Expressions are trees of unbounded depth, and the recorder works with explicit stacks and staging buffers whose offsets depend on everything recorded before.", "anchors": ["src/archon/cli/impl/spec_parser.hpp:286-601", "src/archon/cli/impl/spec.hpp:183-250"]}
{"id": "C86", "title": "Every text is parsed as the one pattern expression that it denotes, or rejected with a true complaint", "statement": "The parsing of the text of a command-line pattern ends for every text. A text denotes at most one expression. It is accepted if, and only if it denotes an expression that is not unparenthesized alternatives, and has no value slots if the pattern is delegating, or if it is made of spaces alone. The result then represents the expression that the text denotes, so what is recorded for it is the structure of that expression. There is a complaint about multiple patterns, about unparenthesized alternatives, or about value slots in a delegating pattern precisely when it is true, and there is some other complaint precisely when the text is not a list of expressions. Every expression with well-formed symbols can be written.", "quantifier": "for all texts, all expressions, and all locales where the special characters are distinct from the other ones and are not alphanumeric", "why_tests_cant": "There are infinitely many texts, and the grammar is recursive. That nothing outside of the grammar is accepted, and that nothing has two readings, are statements about all texts.", "anchors": ["src/archon/cli/impl/spec_parser.hpp:232-250", "src/archon/cli/impl/spec_parser.hpp:604-871"]}
{"id": "C87", "title": "Options are accepted precisely when they are well-formed and distinct, and are then found by each of their names", "statement": "The declarations of options of a command-line processor (forms such as `-f, --foo`, an argument specification such as `<x>` or `[<x>]`, attributes, and an action) always lead to acceptance or to an error message. They are accepted if, and only if each of them has at least one form, nothing but forms among its forms, no unknown attributes, no argument if it is short-circuiting or turns further arguments into values, and an action that can take the argument, if any, and can do without it, if it is optional, and if no two options have a form in common. After that, each `-c` and each `--name` is found as the option that lists it, and nothing else is found. Arguments and attributes are those that were declared. An error is about the first declaration that is wrong, and is true. An action that needs an argument is never accepted for an option that might not provide one.", "quantifier": "for all lists of declarations, all texts of forms and arguments, and all attributes", "why_tests_cant": "There are infinitely many texts and declarations, and that nothing else is found is a statement about all names.", "anchors": ["src/archon/cli/impl/spec_parser.hpp:251-284", "src/archon/cli/impl/spec_parser.hpp:874-951", "src/archon/cli/impl/spec.hpp:293-375", "src/archon/cli/processor.hpp:603-629"]}
{"id": "C88", "title": "A specification of a command-line processor is accepted precisely when nothing is wrong with its options and patterns", "statement": "The construction of a command-line processor from a specification always ends with a processor or with an error message; no assertion fails. It succeeds precisely when there is nothing wrong with the options (C87), each pattern is blank or a pattern expression, has no value slots if it is for delegation, is free of the flaws of C85, refers to no option that takes an argument, is short-circuiting, or makes further arguments be values, has no unknown attributes, and has a function whose parameters go with the pattern (C84). An error message is true of the first option or pattern that is rejected. When it succeeds, each pattern is as written, with the specified function and attributes; if there are no patterns, there is one, which is empty. Keywords are those used in patterns. Options are recognized by the forms that are declared or used in patterns, two forms are for the same option only if they are declared for the same option, and precisely the options that are used in patterns, under any of their names, are regarded as such.", "quantifier": "For all lists of option declarations and pattern declarations, all texts, all types of parameters of pattern functions, and all classifications of characters.", "why_tests_cant": "There are infinitely many specifications, and errors are about interactions between several options and patterns, such as a pattern that refers to an option by another of its names.", "anchors": ["src/archon/cli/processor.hpp:601-664", "src/archon/cli/impl/spec.hpp:135-141", "src/archon/cli/impl/spec.hpp:262-290", "src/archon/cli/impl/spec_parser.hpp:232-250", "src/archon/cli/impl/pattern_action.hpp:58", "src/archon/cli/impl/pattern_action.hpp:106-211"]}
{"id": "C89", "title": "Command-line arguments are processed as specified", "statement": "Given a command-line processor made from an accepted specification (C88), arguments are read in one way: an argument is a value if it is an argument of an option before it, if it comes after an option that makes further arguments be values, if it is a single dash, or has no leading dash; otherwise it is one long form option, possibly with `=` and an argument, or a sequence of short form options, the last of which possibly has an argument, which is what remains of the argument or is the next command-line argument. Processing always ends, without a failed assertion. A pattern is invoked precisely when there are no errors, no short-circuit option, and it is the first pattern that accepts the keywords, values, and options used in patterns, that occur on the command line. It is delegated to precisely when it is the first pattern that accepts what occurs in an initial part of the command line, and no shorter part brings that about; what remains is what comes after that part. The options that are to be acted on are those that were given, in order, with their arguments. If a short-circuit option is acted on, it is the first one on the command line, and it is always acted on, unless there are delegating patterns. Every reported error is a true statement about the argument that it refers to, errors are reported in the order of arguments, and unless there are delegating patterns, every erroneous option is reported, and there is at most one error about matching patterns. Unless there are delegating patterns, `-ab` is the same as `-a -b` if `-a` does not take an argument.", "quantifier": "For all accepted specifications, all lists of arguments, all offsets, and all prior states of the error accumulator.", "why_tests_cant": "The processing is a loop with many labels where the interpretation of an argument depends on preceding arguments and on the pattern, and there are infinitely many command lines and specifications.", "anchors": ["src/archon/cli/impl/processor.hpp:158-420", "src/archon/cli/impl/processor.hpp:423-536", "src/archon/cli/attributes.hpp:64-81"]}
{"id": "C90", "title": "Processing a command line acts on options in order, calls the pattern function with the right values, delegates, and reports all errors in argument order", "statement": "For every accepted specification and every command line, cli::Processor::process() terminates without violating an assertion. If a short-circuiting option is encountered, only that option is acted on, and the exit status is EXIT_SUCCESS. If there is delegation, the function of the delegating pattern is called, no option is acted on by the delegating processor, and options given and errors found so far are handed over to the processor that the rest of the arguments is delegated to, which acts on them before its own. Otherwise, if there are no errors so far, all options are acted on in the order in which they were given, parents' options first, and, if all their arguments and the arguments for the pattern can be parsed, the function of the first matching pattern is called exactly once, after the options, with the values that go with the match. If there are errors of any kind, in this processor or in those that delegated to it, the function of the pattern is not called, all errors are gathered and passed to the error handler in the order of arguments, errors about the same argument in the order in which they were found, together with EXIT_FAILURE, and what the error handler returns becomes the exit status; without an error handler the first eight are logged, and the exit status is EXIT_FAILURE. An exit status is assigned if, and only if process() returns true, which it does except when there was no error and the matched pattern is not completing.", "quantifier": "for all option declarations, patterns, argument lists, delegation chains, actions, functions, error handlers, and value parsers", "why_tests_cant": "The outcome is determined by the interplay of arbitrary specifications, arbitrary argument lists and arbitrarily deep delegation, with user-supplied actions and functions; tests exercise a handful of command lines.", "anchors": ["src/archon/cli/processor.hpp:410-469", "src/archon/cli/processor.hpp:671-708", "src/archon/cli/processor.hpp:723-765", "src/archon/cli/impl/processor.hpp:424-459", "src/archon/cli/impl/pattern_action.hpp:138-211", "src/archon/cli/logging_error_handler.hpp:78-84"]}
{"id": "C91", "title": "Filling, copying, and repeating pixels changes exactly the pixels it should", "statement": "Given pixel iterators and trays with any strides, under which the components of distinct pixels are distinct memory cells: filling an area stores the color in all pixels of the area; copying a tray to or from other, non-overlapping pixels makes each destination pixel equal to the corresponding source pixel and leaves the source as it was; repeating a nonempty pattern box inside an area makes every pixel of the area equal to the pixel of the pattern that is reached by shifting by whole multiples of the width and height of the pattern, and leaves the pattern as it was; repeating leftwards, rightwards, upwards, or downwards from a box does the same for the adjacent box of the requested extent. No other memory is changed, no memory outside the affected pixels is written, nothing without a value is read, std::copy() is not given overlapping ranges, and no arithmetic overflows, whenever the area is a valid box. The pixel at a position relative to a subtray is the pixel of the tray at the corresponding position. A tray that is laid out row by row with room for all components satisfies the assumption on distinctness.", "quantifier": "for all strides, component counts, boxes, patterns, colors, memory contents, and widths of int", "why_tests_cant": "The claim is about all sizes, positions, strides and memory contents, including that nothing else changes and that nothing overflows; a test sees a few grids.", "anchors": ["src/archon/image/iter.hpp:62-85", "src/archon/image/iter.hpp:284-437", "src/archon/image/tray.hpp:55-241"]}
{"id": "C92", "title": "Reading a block of pixels yields what is seen through the falloff modes, at every position", "statement": "When a block is read by an image reader from any valid box, inside, partially inside, or outside of the image, every pixel of the destination gets the color that is seen at its position: inside the image that is the color of the image; outside, in each of the two directions, it is the background color, the nearest pixel of the edge, or the periodic continuation, according to the falloff mode of that direction, and it makes no difference in which order the two extensions are applied. If the image has no pixels, the background color is seen everywhere. If pixels are requested in the representation and color space of the image, and not without an alpha channel that the image has, the components are exactly those of the image (with full opacity if the image has no alpha channel); otherwise they are the conversion of the color that is seen. Colors of an indexed-color image are those of the palette, or the background color if the index is not in the palette. Memory other than that of the requested pixels is not changed, and no arithmetic overflows, no assertion fails, and no uninitialised memory is read. Large blocks are read in parts of at most 4096 pixels, each pixel being in exactly one part.", "quantifier": "for all images, image sizes, positions and sizes of blocks, falloff modes, palettes, background colors, destination strides, conversions, and widths of int", "why_tests_cant": "There are three falloff modes in two directions, each with several cases depending on how block and image overlap, for unboundedly many sizes and positions, including ones close to the limits of int.", "anchors": ["src/archon/image/reader.hpp:979-988", "src/archon/image/reader.hpp:1160-1211", "src/archon/image/reader.hpp:1214-1516", "src/archon/image/reader.hpp:1519-1602", "src/archon/image/reader.hpp:1879-1915", "src/archon/image/reader.cpp:69-186"]}
{"id": "C93", "title": "The color slots of an image reader always give the color last assigned, in every form", "statement": "The background and foreground color of an image reader are kept in up to three forms (floating point, native, and native without transparency) that are produced on demand. In every sequence of operations that set a color, retrieve a color in any representation and color space, with or without alpha, or make the reader use one of the forms, each operation gives what the color last assigned to that slot (or else the default color) calls for, regardless of which forms happened to be produced earlier. A color specified in the native representation and color space with opacity 1 is retrieved exactly. Retrieving and using colors have no effect on later results, and the two slots do not affect each other. A color that has been multiplied by an opacity, or was specified in a foreign color space, is kept in floating point form, and is converted to native form only when needed. No stale form is used, no uninitialised memory is read, and no assertion fails.", "quantifier": "for all sequences of operations, colors, opacities, numbers of channels, component representations, and results of color space conversion", "why_tests_cant": "Which forms are valid depends on the whole history of operations; there are unboundedly many histories, and a stale form gives a plausible but wrong color.", "anchors": ["src/archon/image/reader.hpp:360-430", "src/archon/image/reader.hpp:466-522", "src/archon/image/reader.hpp:1004-1068", "src/archon/image/reader.hpp:1605-1850", "src/archon/image/reader.cpp:189-264"]}
{"id": "C94", "title": "Palette lookup gives the colors of the palette image in row-major order, whatever happened before", "statement": "The number of colors of a palette is the number of pixels of the palette image, limited to 256, and zero if there is no palette, regardless of how large the palette image is. In every sequence of operations on an image reader (set and retrieve slot colors, look up palette entries in any representation and color space, read pixels), the lookup of a color index gives the pixel at that position of the palette image in row-major order, and the background color that was last assigned if the index is not less than the number of colors. When pixels of an indexed-color image are read, the same colors are used. The palette is fetched from the palette image in blocks when first needed, and neither this, nor the production of the floating-point form of the palette, has an effect on later results or on slot colors. There is no overflow, no read of uninitialised memory, and no access outside of the palette image.", "quantifier": "for all palette images of all sizes, sequences of operations, color indexes, numbers of channels, and component representations", "why_tests_cant": "The palette is cached in two forms that are produced on demand; the correctness of each depends on the whole history of operations and on the shape of the palette image (number of full rows, partial last row, more than 256 pixels).", "anchors": ["src/archon/image/reader.cpp:47-66", "src/archon/image/reader.cpp:267-338", "src/archon/image/reader.hpp:1071-1135", "src/archon/image/reader.hpp:1519-1602", "src/archon/image/reader.hpp:1853-1877", "src/archon/image/image.hpp:120-138"]}
{"id": "C95", "title": "Writing of blocks, masks, images, and fills changes exactly the targeted pixels, and to the right colors", "statement": "When an image writer writes a block of pixels, a stencil through a mask, or a part of another image, or fills an area, then those pixels of the target area that fall inside the image get the color that is called for: the color of the corresponding pixel of the block (or the preliminary pixel of the stencil, or what is seen at the corresponding position of the other image, as determined by the falloff modes of its reader, or the slot color), converted to the color space of the image, scaled by the opacity of the writer, and, if blending is enabled, composited over the color that the pixel had before the operation. No other pixel is changed. In images with indexed color, the index is what palette lookup gives for that color. In the cases that are documented as lossless, the pixels are exactly those that were specified, with full opacity added where the image has an alpha channel and the origin does not. The target area can have any position and size, and can be partly or fully outside the image. The subdivision into smaller boxes has no effect on the result. There is no overflow, no access outside the image or the memory of the block, and no use of uninitialised workspace memory.", "quantifier": "for all image sizes, positions, blocks, strides, opacities, numbers of channels, representations, color conversions, blending arithmetic, and contents of images", "why_tests_cant": "The result depends on an interplay of clipping, subdivision into boxes of limited size, and intermediate workspaces; errors show only for certain combinations of position, size, and representation, and blending reads pixels of the same image that is being written to.", "anchors": ["src/archon/image/writer.hpp:535-654", "src/archon/image/writer.cpp:48-330", "src/archon/image/blend.hpp:66-76", "src/archon/image/impl/workspace.hpp:145-207"]}
{"id": "C96", "title": "Conversion of pixels preserves what the pixel means", "statement": "When a pixel is converted from one pixel representation to another (component type, presence of alpha channel, color space), the resulting pixel means what the original one means, moved to the destination color space: a color and an opacity, where integer components are understood as not multiplied by opacity and floating-point components as multiplied by it. If both representations are integer representations, the color space is the same, and no alpha channel is removed from a color that is not opaque, components are converted one by one, so nothing is lost through an excursion to floating-point; with the same representation scheme the components are unchanged. An alpha channel that is added has full opacity. Removal of the alpha channel amounts to having black behind. The two conversion functions agree where both apply. Nothing outside of the destination and the documented intermediate memory is written, and no uninitialised component is used.", "quantifier": "for all component values, numbers of channels, representation schemes, color spaces with or without custom converters, and presence or absence of alpha channels in origin and destination", "why_tests_cant": "There are many combinations of representation, alpha channel, and color space, each taking its own path through the code, and the property is about every pixel value and every color space, also custom ones.", "anchors": ["src/archon/image/pixel_convert.hpp:97-208", "src/archon/image/comp_repr.hpp:650-708", "src/archon/image/color_space.hpp:498-508", "src/archon/image/color_space.cpp:35-121"]}
{"id": "C97", "title": "Reverse palette lookup finds a closest color, and color distance is Euclidean distance", "statement": "For every color, specified in any representation and color space, reverse palette lookup through an image writer returns the index of a color in the palette of the image that is not further away from the specified color, as measured in the color space of the image, than any other color of the palette; if there is no palette, or it is empty, the result is zero. This is so for every lookup in a sequence of lookups, of which the first one instantiates the search structure. The square distance between two colors, as computed by a writer, is the square of the Euclidean distance between them in the color space of the image with opacity as an additional dimension. No uninitialised component is used.", "quantifier": "for all palettes, sequences of lookups, colors, representations, and color spaces", "why_tests_cant": "That the color found is a closest one is a statement about all colors of all palettes, and it depends on a search structure whose shape depends on the palette.", "anchors": ["src/archon/image/writer.hpp:655-749", "src/archon/image/writer.cpp:332-377"]}
{"id": "C98", "title": "When a buffer format is cast, pixels can be accessed according to the new format", "statement": "A cast of a valid buffer format to an integer, packed, or subword format with a specified type of words always has a defined outcome, and an invalid format is rejected with an exception. When a cast succeeds, the new format is valid, it has the specified type of words, which is that of the original format or bytes, and pixels that are stored in memory according to the original format can be accessed as though they were stored according to the new format: every channel of every pixel has the same meaning and the same value, and only memory that is occupied according to the original format is accessed. A cast to the same kind of format with the same type of words succeeds and yields the original format.", "quantifier": "for all formats, numbers of channels, bit fields, platforms (sizes and widths of integer types, byte orders), contents of memory, and sizes of images", "why_tests_cant": "Whether bits end up in the same place is a statement about all contents of memory and about platforms other than the one that the tests run on, and the cases differ by format parameters of which there are too many combinations.", "anchors": ["src/archon/image/buffer_format.hpp:52-397", "src/archon/image/buffer_format.hpp:409-473", "src/archon/image/buffer_format.hpp:567-606", "src/archon/image/buffer_format.cpp:33-509"]}
{"id": "C99", "title": "Expansion of string templates", "statement": "Every string has exactly one reading as a string template (a sequence of characters and references to parameters) together with a list of faults. When a template is parsed, the error handler is called once for each fault, in order, until it refuses one; if it refuses none, parsing succeeds, and otherwise the template object is left as it was. When a template is expanded, each character is written to the output stream, and each parameter is written by its evaluation function, which sees the format flags that the stream had at the start, no matter what earlier evaluation functions did to them; format flags are reestablished also when an evaluation function throws. Doubling of the escape character makes any string a template that expands to that string. When the field width of the stream is nonzero, the expansion is padded as one string, and if an evaluation function throws, nothing is written. A parameter can be defined only once.", "quantifier": "for all strings, sets of parameters, evaluation functions, error handlers, contexts, and states of output streams", "why_tests_cant": "There are infinitely many templates, and the property is about arbitrary evaluation functions and error handlers, including ones that change the format flags, and ones that throw.", "anchors": ["src/archon/core/string_template.hpp:131-227", "src/archon/core/string_template.hpp:260-345", "src/archon/core/string_template.hpp:395-785", "src/archon/core/stream_output.hpp:372-436"]}
{"id": "C100", "title": "A stream that writes to memory of fixed size behaves like a file of limited size", "statement": "Every sequence of writes and seeks carried out on a stream buffer that writes to specified memory has the results it would have on a file of limited size: writes store as many characters as there is room for, at the current position, a seek to a position that is beyond the contents, but inside the memory, fills the gap with null characters, and a seek to anywhere else fails and changes nothing. The viewed contents are those of the file, and memory outside of the contents is never changed.", "quantifier": "for all memory sizes, initial contents, sequences of operations, and ranges of the involved integer types", "why_tests_cant": "Sizes larger than what can be represented in the integer types that are involved in positioning cannot be tested with, and there are infinitely many sequences of operations.", "anchors": ["src/archon/core/memory_output_stream.hpp:250-472"]}
{"id": "C101", "title": "A stream that writes to expanding memory contains what was written to it", "statement": "After every sequence of operations on a stream buffer that writes to memory that expands as needed, starting with seed memory of any size, the viewed contents are what was written since the contents were last cleared, in order. An operation can fail only when the required amount of memory exceeds what can be represented, or memory cannot be allocated, and if it fails, the contents are left as they were. As long as the seed memory suffices, no memory is allocated, and all allocated memory is deallocated when the stream buffer is destroyed.", "quantifier": "for all seed memory sizes, sequences of operations, and patterns of allocation failure", "why_tests_cant": "Tests cannot cover all sequences of operations and all patterns of allocation failure, nor sizes near the limits of the size type.", "anchors": ["src/archon/core/seed_memory_output_stream.hpp:170-370"]}
{"id": "C102", "title": "A stream that reads from memory behaves like a file with those contents", "statement": "Every sequence of reads, peeks, put backs, and seeks carried out on a stream buffer that reads from specified memory has the results it would have on a file with the same contents. A seek succeeds precisely when the target position is inside the contents or at their end. The contents are never changed.", "quantifier": "for all contents, sequences of operations, and ranges of the involved integer types", "why_tests_cant": "There are infinitely many sequences of operations, and limits of the involved integer types are out of reach for tests.", "anchors": ["src/archon/core/memory_input_stream.hpp:170-344"]}
{"id": "C103", "title": "Arithmetic and comparison of super integers agree with arithmetic on numbers", "statement": "With N value bits, objects of the super integer type correspond one to one with the integers from -2**N to 2**N - 1. Comparison operators compare the numbers. Addition, subtraction, multiplication, and negation produce the exact result reduced modulo 2**(N+1) to that range. Bitwise operators operate on each bit of the two's complement representation.", "quantifier": "for all pairs of super integers and all numbers of value bits", "why_tests_cant": "There are 2**130 pairs of super integers on an ordinary platform.", "anchors": ["src/archon/core/super_int.hpp:43-490"]}
{"id": "C104", "title": "Overflow detection for super integers is exact, and division truncates", "statement": "Addition, subtraction, multiplication, and division with detection of overflow report overflow precisely when the exact result (for division, truncated towards zero) is not representable. They leave the object unchanged if there is overflow, and otherwise assign the exact result. The quotient operator and the remainder operator produce the truncated quotient, which is wrapped around when the lowest number is divided by -1, and the matching remainder. Division by zero is the only cause of undefined behavior.", "quantifier": "for all pairs of super integers and all numbers of value bits", "why_tests_cant": "There are 2**130 pairs of super integers, and the cases where overflow detection is delicate are at the limits of the range.", "anchors": ["src/archon/core/super_int.hpp:370-397", "src/archon/core/super_int.hpp:493-653"]}
{"id": "C105", "title": "Conversion, shift, and output of super integers agree with the represented number", "statement": "Conversion from a built-in integer type is exact. Conversion to a built-in integer type succeeds, and is exact, precisely when the number is representable in that type. Left shift multiplies by a power of two and wraps around. Right shift divides by a power of two and rounds down. The text produced by the output operator is the decimal numeral of the number, including for the lowest number.", "quantifier": "for all super integers, integer types, shift amounts, and numbers of value bits", "why_tests_cant": "There are 2**65 super integers, each with an unbounded selection of target types.", "anchors": ["src/archon/core/super_int.hpp:174-234", "src/archon/core/super_int.hpp:424-442", "src/archon/core/super_int.hpp:668-704"]}
{"id": "C106", "title": "Stable sort sorts and keeps the order of equivalent elements", "statement": "The constexpr-friendly stable sort, when given a strict weak ordering, terminates without accessing anything outside the specified range, leaves a rearrangement of the original elements that is sorted according to the ordering, and never changes the relative order of elements that are equivalent. With any other comparison function it still terminates, stays within the range, and rearranges the elements.", "quantifier": "for all sequences of any length and element type, and all comparison functions", "why_tests_cant": "Sequences and orderings are unbounded; loss of stability, or of an element, can depend on a specific pattern of equivalent elements.", "anchors": ["src/archon/core/algorithm.hpp:53-71"]}
{"id": "C107", "title": "CSS named colors are the keywords of CSS Color Module Level 3", "statement": "Looking up a name finds it exactly when it is one of the color keywords of CSS Color Module Level 3, and gives the color that is assigned to the keyword by that standard. Looking up a color by value finds a name exactly when there is one, and finds the lexicographically first one when several keywords denote the color.", "quantifier": "for all strings and all colors", "why_tests_cant": "There are infinitely many strings and 2**32 colors. The correctness of each lookup depends on sorting at compile time and on binary search.", "anchors": ["src/archon/util/css_color.cpp:118-318", "src/archon/util/css_color.cpp:648-684", "src/archon/util/colors.hpp:40-186"]}
{"id": "C108", "title": "Formatting CSS colors is inverse to parsing them", "statement": "Parsing the text that is produced by formatting a CSS color gives back the color in the same form, except that an alpha component that is greater than one becomes equal to one. For the functional forms, this is under the condition that the text of a number reads back as that number, contains no comma and no percent sign, and does not start with a space. In hex form, the text has one digit for each component precisely when that is possible and not disabled, and the alpha component is left out precisely when the color is opaque. Writing any color with as_css_color() uses the name of the color if it has one, and parsing what was written gives back exactly that color, for any character type.", "quantifier": "for all CSS colors, all colors, and all character types", "why_tests_cant": "There are 2**32 colors and unboundedly many CSS colors; the hex form has four cases that interact with the table of names.", "anchors": ["src/archon/util/css_color.cpp:328-492", "src/archon/util/css_color.cpp:692-834", "src/archon/util/as_css_color.hpp:75-119"]}
{"id": "C109", "title": "The CSS color parser accepts exactly the notations", "statement": "Parsing succeeds exactly for strings that are a number sign followed by 3, 4, 6, or 8 hexadecimal digits, that are a function name (rgb, rgba, hsl, or hsla) followed by parenthesized arguments of the right number and kind (number or percentage) separated by a comma and any number of spaces, or that are the name of a named color. It results in the color that the notation denotes, and in no case is anything outside the string accessed. Letter case matters in names.", "quantifier": "for all strings, and all ways of reading numbers that reject the empty string", "why_tests_cant": "There are infinitely many strings; a parser can wrongly accept malformed ones that no test contains.", "anchors": ["src/archon/util/css_color.cpp:495-612", "src/archon/util/css_color.cpp:728-834"]}
{"id": "C110", "title": "Packing of colors is reversible", "statement": "Packing a color in RGBA form or in TRGB form places each component in the documented byte (with alpha replaced by its complement in TRGB form), the packed value fits in 32 bits, and unpacking gives back the color. Conversely, packing what was unpacked from a 32-bit value gives back that value. A color is reported as opaque exactly when its alpha is 255, which is when its TRGB value is less than 2**24, and is reported as gray exactly when its three color components are equal.", "quantifier": "for all colors and all 32-bit values", "why_tests_cant": "There are 2**32 colors.", "anchors": ["src/archon/util/color.hpp:119-192"]}
{"id": "C111", "title": "Conversion between RGB and HSL", "statement": "Conversion from HSL to RGB is the conversion that CSS Color Module Level 3 specifies, for every hue (any number of revolutions, negative ones included), saturation, and lightness. A color with components between 0 and 1 is recovered exactly when converted to HSL and back (in exact arithmetic), its hue is at least 0 and less than 1, and its saturation and lightness are between 0 and 1. An HSL color that is not gray is recovered when converted to RGB and back. Colors in range have RGB components in range.", "quantifier": "for all rational components, hues, saturations, and lightnesses", "why_tests_cant": "The formula of the code (Wikipedia's alternative with a clamped triangle wave) differs from the one of CSS, and agreement is a statement about a continuum of colors with six sectors and several boundaries. Tests cover a few colors.", "anchors": ["src/archon/util/color_space.hpp:153", "src/archon/util/color_space.hpp:177", "src/archon/core/math.hpp:161"]}
{"id": "C112", "title": "Conversion between RGB and HSV", "statement": "Conversion from HSV to RGB is the conventional conversion (Smith), for every hue, saturation, and value. A color with non-negative components is recovered exactly when converted to HSV and back (in exact arithmetic). The hue of a color is the same in HSV as it is in HSL. An HSV color that is not gray is recovered when converted to RGB and back. Colors in range are converted to colors in range.", "quantifier": "for all rational components, hues, saturations, and values", "why_tests_cant": "It is a statement about a continuum of colors with six sectors and several boundaries. Tests cover a few colors.", "anchors": ["src/archon/util/color_space.hpp:197", "src/archon/util/color_space.hpp:222", "src/archon/core/math.hpp:161"]}
{"id": "C113", "title": "Color components survive conversion to floating-point form and back", "statement": "Converting an integer color component to floating-point form and back gives the same component. In particular, a color survives conversion to a vector and back, and a CSS color given by integer RGB components becomes the color with those components. The unit interval is divided into equal parts, one for each integer value, and values outside the interval are clamped. A CSS color given by hue, saturation, and lightness becomes the color that CSS specifies.", "quantifier": "for all components, maximum values, rounding functions with bounded relative error, and floating-point values", "why_tests_cant": "Whether the value is recovered depends on the relation between the precision of the floating-point type and the number of possible integer values, for every value. Tests cover a few values.", "anchors": ["src/archon/util/unit_frac.hpp:197", "src/archon/util/unit_frac.hpp:232", "src/archon/image/comp_types.hpp:183", "src/archon/util/color.hpp:161", "src/archon/util/css_color.cpp:81"]}
{"id": "C114", "title": "Periodic modulo operation on floating-point numbers", "statement": "For a positive period, the result of the periodic modulo operation is at least zero and strictly less than the period, even when the sum that is involved is rounded. For a negative period, it is at most zero and strictly greater than the period. In exact arithmetic, the result differs from the first operand by a whole number of periods, and it is the only such number in range. With rounding, the error is bounded by the relative error of one addition, or else the result is zero and the right result is just below the period.", "quantifier": "for all operands and all rounding functions", "why_tests_cant": "The failure that the code guards against (a sum that is rounded up to the period) occurs only for operands that are negative and tiny relative to the period.", "anchors": ["src/archon/core/math.hpp:55", "src/archon/core/math.hpp:161"]}
{"id": "C115", "title": "Limits for conversion from floating-point to integer are the extreme representable values in range", "statement": "For every floating-point type that satisfies the documented requirements, and can represent all integers up to its radix, and for every standard integer type whose range is covered by the floating-point type, max_float_not_above_nonneg_int(i) is the greatest floating-point value that is not greater than i, min_float_not_below_nonpos_int(i) is the least floating-point value that is not less than i, and min_float_for_int() and max_float_for_int() delimit exactly the floating-point values that lie in the range of the integer type. Computing them never converts an out-of-range floating-point value to integer (undefined behavior). Without the extra assumption about small integers, the documented requirements are not sufficient.", "quantifier": "all floating-point types, all integer types, all integers in range", "why_tests_cant": "The claim ranges over all floating-point formats, rounding modes, and integer types, including combinations that do not exist on the machine where tests are run; and undefined behavior is not generally observable.", "anchors": ["src/archon/core/float.hpp:399-529", "src/archon/core/float_traits.hpp:61-161"]}
{"id": "C116", "title": "Comparisons between floating-point and integer values are correct in the mathematical sense", "statement": "float_equal_int(), float_less_int(), float_greater_int(), float_less_equal_int(), and float_greater_equal_int() give the result of the mathematical comparison for all floating-point values (false for NaN), and all integers, and never invoke undefined behavior. (The documented claim is false for all but float_equal_int(): when the integer is not representable in the floating-point type, and there is no representable value between the integer and the floating-point value, results are wrong. The exact condition is established.)", "quantifier": "all floating-point types, all integer types, all pairs of values", "why_tests_cant": "The failure occurs only for integers beyond the precision of the floating-point type, and only for the adjacent floating-point value; the number of pairs of values is far beyond enumeration.", "anchors": ["src/archon/core/float.hpp:58-90", "src/archon/core/float.hpp:280-341"]}
{"id": "C117", "title": "Checked and clamped conversion from floating-point to integer never invoke undefined behavior and are correct", "statement": "try_float_to_int() succeeds precisely when the floating-point value is finite and in the range of the integer type, and then gives the truncated value. clamped_float_to_int() gives the truncated value when the value is in range, the nearest limit when it is out of range (including infinities), and zero for NaN. Neither invokes undefined behavior. An integer that is representable in the floating-point type survives the round trip.", "quantifier": "all floating-point types, all integer types, all values", "why_tests_cant": "Undefined behavior in out-of-range conversion is not observable in general, and the set of values is too large for enumeration.", "anchors": ["src/archon/core/float.hpp:344-396"]}
{"id": "C118", "title": "Binary floating-point formats satisfy the requirements for floating-point types", "statement": "The set of finite values of every binary floating-point format with p bits of precision whose least exponent is no greater than -p, and whose greatest exponent (of the last bit) is at least 1, satisfies the documented requirements concerning representability, so the IEC 559 formats satisfy them automatically as documented. In such a type, float_greater_int() is correct for all integers of magnitude at most 2^p, but not for 2^p + 1.", "quantifier": "all precisions, all exponent ranges", "why_tests_cant": "The claim ranges over all binary formats, and over all of their values.", "anchors": ["src/archon/core/float_traits.hpp:37-161"]}
{"id": "C119", "title": "LU decomposition with partial pivoting factorizes every matrix as documented", "statement": "For every matrix (high, wide, or square, regular or singular) with components in an ordered field, math::decompose() leaves the matrix in a state, and returns pivots, such that the original matrix equals P * L * U, where P is derived from the pivots as documented (product of transposition matrices), L is the documented lower unitriangular or trapezoidal part, and U is the documented upper triangular or trapezoidal part. There are min(M,N) pivots, the pivot at position k is a row index not less than k and less than M, and no component of L has magnitude greater than one.", "quantifier": "all matrix sizes, all matrices over all ordered fields", "why_tests_cant": "The equation holds for infinitely many matrices of all sizes, and in floating-point arithmetic tests can only observe it approximately.", "anchors": ["src/archon/math/matrix.hpp:553-613", "src/archon/math/matrix.hpp:1114-1158"]}
{"id": "C120", "title": "Determinant", "statement": "math::det() returns the determinant (signed sum over permutations) of every square matrix with components in an ordered field, including zero for singular matrices, and it is multiplicative.", "quantifier": "all sizes, all square matrices", "why_tests_cant": "The sign depends on the parity of the row transpositions that happen to be carried out, so there are as many cases as there are permutations for each size.", "anchors": ["src/archon/math/matrix.hpp:411-415", "src/archon/math/matrix.hpp:922-936"]}
{"id": "C121", "title": "Matrix inversion is sound and complete", "statement": "In exact arithmetic, math::try_inv() returns false precisely when the determinant of the matrix is zero. Otherwise the resulting matrix is both a left and a right inverse of the original matrix, and it is the only one. math::inv() returns the same inverse, or the zero matrix if the specified matrix is singular.", "quantifier": "all sizes, all square matrices", "why_tests_cant": "In-place inversion must be right for all pivot orders and all values. Tests only observe it approximately for some matrices.", "anchors": ["src/archon/math/matrix.hpp:418-425", "src/archon/math/matrix.hpp:510-518", "src/archon/math/matrix.hpp:939-947", "src/archon/math/matrix.hpp:1023-1061"]}
{"id": "C122", "title": "Inversion of triangular matrices", "statement": "When math::try_upper_tri_inv() succeeds, the upper triangle of the matrix is the inverse of the original upper triangle, and correspondingly for math::try_lower_tri_inv(). They fail precisely when the matrix is not assumed to be unitriangular and there is a zero in the diagonal, so never when it is assumed to be unitriangular. Elements on the other side of the diagonal are neither read nor modified, and the same goes for the elements of the diagonal when the matrix is assumed to be unitriangular. The two functions are mirrored versions of each other.", "quantifier": "all sizes, all square matrices, both assumptions about the diagonal", "why_tests_cant": "That elements are not read is a statement about all pairs of matrices that differ only in those elements, and the inverse property is a statement about all sizes and values.", "anchors": ["src/archon/math/matrix.hpp:521-550", "src/archon/math/matrix.hpp:1064-1111"]}
{"id": "C123", "title": "Key down and key up calls come in pairs", "statement": "A key handler that is registered with a render engine, and bound to a key, is called for key up only right after it was called for key down on behalf of the same key. And when it was called for key down, the next call on behalf of that key is the call of the same handler for key up, even when the modifier mode has changed in the meantime, and even when there are repeated key down events. No sequence of key events, registrations, and bindings causes undefined behavior.", "quantifier": "all handlers, all sequences of registrations, bindings, changes of modifier mode, key events, loss of focus, and resumptions, all keys", "why_tests_cant": "It is about all interleavings of events on different keys with changes of modifier mode, rebinding from within handlers, and interrupted loss-of-focus processing.", "anchors": ["src/archon/render/impl/key_bindings.cpp:89-227", "src/archon/render/impl/key_bindings.hpp:40-138", "src/archon/render/engine.hpp:264-315"]}
{"id": "C124", "title": "Multiplicity of key presses", "statement": "When a key is pressed repeatedly, the position of a press in its series of quick presses (same modifier mode, no more than 250 milliseconds since the previous press) determines its multiplicity: it counts from one, and starts over after the greatest multiplicity for which the key is bound in any modifier mode. The handler that is called is the last one that was bound for that combination of key, modifier mode, and multiplicity, and if there is none, no handler is called.", "quantifier": "all sets of bindings, all series of presses with arbitrary times and modifier modes", "why_tests_cant": "The number of combinations of bindings, press times, and modes is unbounded, and the rule for starting over involves bindings in other modifier modes.", "anchors": ["src/archon/render/impl/key_bindings.cpp:100-181", "src/archon/render/impl/key_bindings.cpp:209-227", "src/archon/render/key_binding_support.hpp"]}
{"id": "C125", "title": "Release of all keys on loss of keyboard focus", "statement": "When keyboard focus is lost, every handler that was called for key down without having been called for key up, is called for key up exactly once, and in the order of the keys. If a handler demands that event processing is interrupted, the processing continues from there when it is resumed, and it takes no more resumptions than there are outstanding calls. Afterwards no key is considered pressed, and further resumption has no effect. Handlers are allowed to bind keys while this happens.", "quantifier": "all handlers, all preceding sequences of operations, all points of interruption", "why_tests_cant": "It involves all sets of pressed keys, all patterns of interruption, and all actions of handlers during iteration.", "anchors": ["src/archon/render/impl/key_bindings.cpp:184-205", "src/archon/render/impl/key_bindings.hpp:126-138", "src/archon/render/engine.hpp:280-282"]}
{"id": "C126", "title": "The modifier mode reflects the modifier keys that are pressed", "statement": "In a render engine with its built-in key bindings, the modifier mode that is in effect is the one where the shift, control, alt, and meta bits are set precisely when at least one of the two corresponding keys is pressed down.", "quantifier": "all sequences of key events", "why_tests_cant": "It is an invariant over all sequences of presses and releases of eight modifier keys and any other keys.", "anchors": ["src/archon/render/noinst/engine_impl.cpp:105-128", "src/archon/render/noinst/engine_impl.cpp:539-592", "src/archon/render/key_binding_support.hpp:110-175"]}
{"id": "C127", "title": "Quaternion arithmetic", "statement": "The operations on quaternions (sum, difference, product, quotient, conjugate, inverse, length, normalization, conjugation of a quaternion or of a vector by a quaternion) are those of Hamilton's quaternions. In particular, division undoes multiplication, and the length of a product is the product of the lengths.", "quantifier": "all pairs of quaternions, with exact arithmetic", "why_tests_cant": "These are algebraic identities in eight real variables.", "anchors": ["src/archon/math/quaternion.hpp:197-245", "src/archon/math/quaternion.hpp:389-531"]}
{"id": "C128", "title": "Quaternions, axis and angle, Euler angles, and rotation matrices specify the same rotations", "statement": "The quaternion that is created from an axis (unit vector) and an angle rotates vectors by that angle counterclockwise around that axis. The rotation matrix of a nonzero quaternion performs the same rotation as the quaternion, is orthogonal with determinant one, and the matrix of a product is the product of the matrices. The quaternion that is created from Euler angles performs the three documented rotations in the documented order.", "quantifier": "all axes, all angles, all vectors, all nonzero quaternions, with exact arithmetic", "why_tests_cant": "The claims are identities over continuous domains, involving trigonometric functions.", "anchors": ["src/archon/math/quaternion.hpp:150-195", "src/archon/math/quaternion.cpp:29-46", "src/archon/math/rotation.hpp:300-354"]}
{"id": "C129", "title": "Conversion between quaternion and axis with angle", "statement": "Conversion of a nonzero quaternion to axis and angle produces a unit vector, and an angle between 0 and 2*pi, that specify the rotation that is performed by the quaternion, and conversion back produces the normalized quaternion. When creating a quaternion from axis and angle, the angle is clamped to the range 0 to 2*pi, as documented.", "quantifier": "all nonzero quaternions, all axes and angles, with exact arithmetic", "why_tests_cant": "The claim is about continuous domains, and includes boundary cases (zero angle, full turn) that cannot be enumerated.", "anchors": ["src/archon/math/quaternion.hpp:150-195", "src/archon/math/quaternion.hpp:247-271"]}
{"id": "C130", "title": "Arithmetic of rotations", "statement": "The sum of two rotations performs the first one followed by the second one. The negation of a rotation is the inverse rotation, and subtraction undoes addition. Multiples of one rotation add up, and division by a number undoes multiplication by it.", "quantifier": "all rotations with unit axes, all factors, all vectors, with exact arithmetic", "why_tests_cant": "The claims are identities over continuous domains.", "anchors": ["src/archon/math/rotation.hpp:160-221", "src/archon/math/rotation.hpp:300-354"]}
{"id": "C131", "title": "The virtual trackball follows the mouse", "statement": "The virtual trackball is a sphere that appears round and as large as possible inside the viewport. While the trackball is acquired, the point of the sphere that was under the mouse at the first mouse event stays under the mouse: the orientation is the initial one followed by the rotation along the shortest path from the initial point to the current point, independently of the route that the mouse took in the meantime.", "quantifier": "all reachable states of the trackball, all viewport sizes and pixel aspect ratios, all sequences of mouse events", "why_tests_cant": "The claim is about arbitrary sequences of mouse events over continuous positions, including the positions outside the sphere.", "anchors": ["src/archon/render/virt_trackball.hpp:282-339", "src/archon/render/virt_trackball.cpp:52-94"]}
{"id": "C132", "title": "The orientation of the virtual trackball is continuous", "statement": "Acquiring the trackball stops it in its current orientation, and the first mouse event does not change that. Setting the orientation leaves the trackball at rest in exactly that orientation. Setting the spin leaves the current orientation as it is, and from then on the trackball rotates with constant angular velocity. Calls that are documented to have no effect in the current state have no effect.", "quantifier": "all reachable states of the trackball, all points in time", "why_tests_cant": "It is about all states that can be reached through arbitrary sequences of calls, and about all real-valued times.", "anchors": ["src/archon/render/virt_trackball.hpp:255-310", "src/archon/render/virt_trackball.cpp:69-94"]}
{"id": "C133", "title": "Spin of the virtual trackball after release", "statement": "When the trackball is released, it continues from its current orientation. If it was acquired for less than 200 milliseconds, and the mouse was moved by less than 4 pixels, it stays at rest. Otherwise it rotates with constant angular velocity, such that it continues the average movement of the mouse during the last 100 milliseconds, or during the time it was acquired, if that is less.", "quantifier": "all reachable states of the trackball, all sequences of mouse events with nondecreasing times", "why_tests_cant": "It is about arbitrary timing patterns of mouse events, including several events in the same millisecond.", "anchors": ["src/archon/render/virt_trackball.cpp:30-44", "src/archon/render/virt_trackball.cpp:97-134"]}
{"id": "C134", "title": "Bounded memory of a curve", "statement": "The bounded memory of a sequence retains the last elements in order. The bounded memory of a curve allows for determination of the position on the curve at any time within the specified number of milliseconds before the last sample: the position is found by linear interpolation between retained samples, no matter how many samples are added per millisecond.", "quantifier": "all capacities, all memory durations, all sequences of samples with nondecreasing times", "why_tests_cant": "It is about unbounded sequences of samples with arbitrary timing.", "anchors": ["src/archon/render/impl/finite_curve_memory.hpp:74-142", "src/archon/render/impl/finite_sequence_memory.hpp:83-126"]}
{"id": "C135", "title": "Physical and pixel-wise size of the viewport", "statement": "After setting the size of the viewport in meters or in pixels, getting it yields what was set, and only the mean field of view and the aspect ratio have changed. After setting the resolution in dots per inch or in dots per centimeter, getting it yields what was set.", "quantifier": "all perspective projections, all positive sizes and resolutions", "why_tests_cant": "It is about all real-valued sizes and resolutions.", "anchors": ["src/archon/util/perspect_proj.hpp:645-717"]}
{"id": "C136", "title": "Fields and angles of view of a perspective projection", "statement": "The horizontal, vertical, diagonal, minimum, and maximum fields and angles of view are those of a rectangle with the current aspect ratio at unit distance from the eye, whose size is reduced by the zoom factor in case of effective values. Getting an angle of view after setting it yields the set angle. The ratio of the distances of the clip planes is the specified one, with the camera distance as their geometric mean.", "quantifier": "all perspective projections, all angles between 0 and pi", "why_tests_cant": "It is about identities between trigonometric functions for all real-valued angles and aspect ratios.", "anchors": ["src/archon/util/perspect_proj.hpp:720-741", "src/archon/util/perspect_proj.hpp:757-766", "src/archon/util/perspect_proj.hpp:795-852"]}
{"id": "C137", "title": "Solid angle of view", "statement": "The neutral and effective solid angles of view are the solid angles, as seen from the eye, of the rectangular viewport; and setting a solid angle makes it the one that is reported.", "quantifier": "all fields of view and aspect ratios", "why_tests_cant": "The solid angle is a surface integral over the viewport. It has to be compared to a closed formula for all aspect ratios and fields of view.", "anchors": ["src/archon/util/perspect_proj.hpp:769-792"]}
{"id": "C138", "title": "Automatic zoom and distance make a sphere fit the viewport", "statement": "After automatic adjustment of the zoom factor, or of the distance of the camera, the projection of a sphere of the specified diameter around the center of interest is a disk whose diameter is the effective field of view along the specified dimension (the minimum one makes the sphere just fit the viewport).", "quantifier": "all perspective projections, all diameters and distances", "why_tests_cant": "It is about a geometric condition on tangent planes for all real-valued parameters.", "anchors": ["src/archon/util/perspect_proj.hpp:744-754"]}
{"id": "C139", "title": "Gradients of Perlin noise", "statement": "The number of gradients is the number of vertices of the grid; an exception is thrown exactly when it cannot be represented or when the grid is empty along some axis. Each vertex has its own gradient. Calculation of the noise value at any position finishes and never accesses a gradient beyond that number.", "quantifier": "all numbers of dimensions, all grid sizes, all positions inside and outside the grid", "why_tests_cant": "It is about all numbers of dimensions and all real-valued positions, including those at and beyond the boundary.", "anchors": ["src/archon/util/perlin_noise.hpp:205-217", "src/archon/util/perlin_noise.hpp:257-312"]}
{"id": "C140", "title": "Perlin noise", "statement": "The noise value is the weighted sum of the linear functions given by the gradients at the vertices of the surrounding grid module. It is a continuous function of the position, zero at the vertices, and constant in outward directions outside the grid. If gradients have unit length, its magnitude is at most the amplitude, and that is the smallest such bound. With a range, the value is in that range.", "quantifier": "all numbers of dimensions, all interpolation schemes, all grid sizes, gauges, positions, and gradients", "why_tests_cant": "It is about continuity, and about the maximum of a function over all positions and all gradients in all numbers of dimensions.", "anchors": ["src/archon/util/perlin_noise.hpp:238-253", "src/archon/util/perlin_noise.hpp:257-340", "src/archon/core/math.hpp:209-213"]}
{"id": "C141", "title": "Histogram counts", "statement": "After any sequence of additions to a histogram, each bin holds the number of added values in its part of the range, and values outside of the range are counted as under or over. No value is lost or counted twice. Values equal to the upper end of the range are counted in the range, as documented.", "quantifier": "all ranges, all numbers of bins, all sequences of values", "why_tests_cant": "It is about every value of a continuous range, including values arbitrarily far outside of the range, in all possible sequences.", "anchors": ["src/archon/core/histogram.hpp:133-161"]}
{"id": "C142", "title": "Histogram printing", "statement": "A printed histogram has a line for each bin, in order, and each line has the interval of the bin, its count, and a bar whose length is proportional to the count, such that the bar of the largest bin has the specified width. All lines are aligned. Any histogram can be printed.", "quantifier": "all histograms, all printing options, all ways to format numbers", "why_tests_cant": "It is about all histograms and all ways that numbers can be formatted, including the empty histogram.", "anchors": ["src/archon/core/histogram.hpp:194-361"]}
{"id": "C143", "title": "Parsing of EDID data", "statement": "Parsing of display identification data never accesses memory outside of the data. The data is accepted exactly when it has a full base block with a valid check sum and a supported version. When it is accepted, the reported monitor name is the one from the last descriptor that specifies a name, cut off at the line feed, and previous string data is preserved.", "quantifier": "all byte sequences of any length, all previous string data, all transcoders", "why_tests_cant": "The data comes from external devices, and can be any sequence of bytes.", "anchors": ["src/archon/display/noinst/edid.cpp:38-100"]}
{"id": "C144", "title": "Formatting and parsing of lists", "statement": "A sequence that is formatted by as_list() has the documented form, parsing succeeds exactly for strings with the documented syntax that have exactly one valid item for every element, and parsing what was formatted gives the original sequence.", "quantifier": "all sequences, all configurations of separator, brackets, and space, all element types, all strings", "why_tests_cant": "The number of strings, sequences, and configurations is infinite, and the round trip depends on how elements are formatted.", "anchors": ["src/archon/core/as_list.hpp:289-338", "src/archon/core/as_list.hpp:352-424"]}
{"id": "C145", "title": "Lists with elided trailing elements", "statement": "When a sequence is formatted by as_list_a(), the longest trailing section that can be elided is elided. Parsing what was formatted gives the original sequence. A string with fewer than the specified minimum number of elements is not accepted.", "quantifier": "all sequences, all default values, all minimum numbers of elements, all configurations", "why_tests_cant": "Maximality is about all possible trailing sections of all possible sequences.", "anchors": ["src/archon/core/as_list.hpp:501-589"]}
{"id": "C146", "title": "Lists of variable length", "statement": "A prefix of a sequence that is formatted by as_list_v() is recovered by parsing along with its length, and additional elements of the sequence are left as they were. Parsing succeeds exactly when the string has the right syntax, and no more items than there is room for.", "quantifier": "all sequences, all lengths of prefix, all configurations, all strings", "why_tests_cant": "The number of strings, sequences, and configurations is infinite.", "anchors": ["src/archon/core/as_list.hpp:599-650"]}
{"id": "C147", "title": "Routing and prefixes of log messages", "statement": "A message that is logged through any combination of root loggers, prefix loggers, limit loggers, channel loggers, and duplicating loggers is written exactly to those root loggers that can be reached without passing a limit that excludes its log level, each time with the prefixes in the order in which they were added.", "quantifier": "all loggers that can be built from the specified kinds, all channels, all log levels, all messages", "why_tests_cant": "Loggers can be composed without bound.", "anchors": ["src/archon/log/logger.hpp:627-666", "src/archon/log/prefix_logger.hpp:97-153", "src/archon/log/duplicating_logger.hpp:134-332", "src/archon/log/channel_logger.hpp:120-252"]}
{"id": "C148", "title": "Log level limits", "statement": "will_log() and get_log_level_limit() agree. If will_log() does not hold, nothing is written. A limit logger reports its own limit, drops messages above it, and has no effect on other messages. A limit that is not fixed can be changed.", "quantifier": "all loggers, all limits, all log levels", "why_tests_cant": "The claim is about all compositions of loggers.", "anchors": ["src/archon/log/limit_logger.hpp:92-232", "src/archon/log/logger.hpp:754-843"]}
{"id": "C149", "title": "Formatting of log messages", "statement": "Every line of a message is written with the complete prefix and a text for the log level in front of it, and a newline after it, and all of it is written in one operation.", "quantifier": "all messages, all sequences of prefixes, all log levels", "why_tests_cant": "The number of messages and prefixes is infinite.", "anchors": ["src/archon/log/prefix.hpp:115-156", "src/archon/log/logger.hpp:627-666"]}
{"id": "C150", "title": "Channels of loggers", "statement": "The channels of a logger have unique names and are in order. A channel can be selected exactly if it exists. A limit logger can be constructed exactly if the pattern matches a channel, and a duplicating logger exactly if all the origin channels exist. A channel logger can always be constructed.", "quantifier": "all loggers, all channel names, all patterns, all lists of rules", "why_tests_cant": "The claim is about all compositions of loggers.", "anchors": ["src/archon/log/channel_map.hpp:78-124", "src/archon/log/channel_logger.hpp:120-252", "src/archon/log/duplicating_logger.hpp:134-332", "src/archon/log/limit_logger.hpp:92-232"]}
{"id": "C151", "title": "Encoding loggers", "statement": "Logging through an encoding logger is the same as logging the encoded message through the base logger. Prefixes that are added on top of the encoding logger are encoded and come after the prefixes of the base logger. A channel logger with no additional channels makes no difference.", "quantifier": "all base loggers, all encodings that preserve the empty string, all messages", "why_tests_cant": "The claim is about all base loggers and all encodings.", "anchors": ["src/archon/log/impl/encoding_logger_impl.hpp:184-259", "src/archon/log/channel_logger.hpp:120-252"]}
{"id": "C152", "title": "Text files behave like ideal files", "statement": "For every sequence of read, write, flush, tell, and seek operations on a text file, no assertion fails, reading produces what is at the current position, writing replaces what is at the current position, and the reported position is the current position. A failed operation has no other effect than what is reported. This is with or without buffering, and for every size of the buffer.", "quantifier": "all files, all sequences of operations, all sizes of buffer, all patterns of failed system calls and short transfers", "why_tests_cant": "The number of interleavings of operations, failures, and short transfers is infinite.", "anchors": ["src/archon/core/text_file.hpp:525-647", "src/archon/core/text_file.hpp:731-779", "src/archon/core/impl/buffered_text_file_impl.hpp:155-465", "src/archon/core/impl/prim_text_file_impl.hpp:169-268", "src/archon/core/impl/prim_text_file_impl.cpp:46-93"]}
{"id": "C153", "title": "Flushing of text files", "statement": "When a flush operation succeeds, the contents of the file are those that result from all the preceding write operations, including those that succeeded only in part, and no matter how many previous attempts to flush failed.", "quantifier": "all files, all sequences of operations, all patterns of failures", "why_tests_cant": "The number of patterns of failures is infinite.", "anchors": ["src/archon/core/text_file.hpp:614-620", "src/archon/core/impl/buffered_text_file_impl.hpp:363-384", "src/archon/core/impl/buffered_text_file_impl.hpp:448-465"]}
{"id": "C154", "title": "Saving and loading of text files", "statement": "read_all() produces everything from the current position to the end of the file. Text that is written to an empty file and flushed is what is produced by read_all() when the file is opened again.", "quantifier": "all texts, all sizes of buffers, all patterns of short transfers", "why_tests_cant": "The number of texts and patterns of transfer is infinite.", "anchors": ["src/archon/core/text_file.hpp:581-597"]}
{"id": "C155", "title": "Recovery from failed flush of text file", "statement": "When an attempt to flush a text file fails, and a later attempt succeeds, what was written is in the file exactly once. This is also the case when a character codec is used.", "quantifier": "all texts, all codecs, all numbers of failed attempts", "why_tests_cant": "Failures have to be injected at every possible point.", "anchors": ["src/archon/core/impl/text_file_impl.hpp:439-469", "src/archon/core/impl/text_file_impl.hpp:556-578", "src/archon/core/impl/text_file_impl.hpp:681-698"]}
{"id": "C156", "title": "Reuse of text file objects", "statement": "When a text file object is used to open another file, operations behave as they would if the object was new.", "quantifier": "all files, all preceding sequences of operations, all subsequent sequences of operations", "why_tests_cant": "The claim is about all histories of an object.", "anchors": ["src/archon/core/text_file.hpp:385-390", "src/archon/core/text_file.hpp:500-522"]}
{"id": "C157", "title": "Sources deliver files in order", "statement": "Every sequence of try_read() and try_read_some() on a file source, or on a buffered file source with any buffer, delivers the contents of the file from the current position in order with nothing lost or repeated. If try_read() succeeds, it delivers all that was asked for, or all there is. If it fails, it reports what was delivered so far.", "quantifier": "all files, all buffer sizes, all sequences of requests, all patterns of failed system calls and short transfers", "why_tests_cant": "The number of patterns of failures and short transfers is infinite.", "anchors": ["src/archon/core/source.cpp:35-51", "src/archon/core/file_source.cpp:34-63"]}
{"id": "C158", "title": "Rewindable sources", "statement": "A rewindable source delivers what the underlying source delivers. After each rewind() it starts over from the very beginning, no matter how much was read before, and no matter what failed. After release(), it continues from where it was, and stores nothing more.", "quantifier": "all sources, all sequences of reading, rewinding, and releasing", "why_tests_cant": "The claim is about all sources and all interleavings of operations.", "anchors": ["src/archon/core/rewindable_source.cpp:34-59", "src/archon/core/rewindable_source.hpp:121-131"]}
{"id": "C159", "title": "Sinks write what they accept", "statement": "What has been written to the file by a buffered file sink is always a beginning of what the sink has accepted, and after a successful flush it is all of it, also when writing and flushing is resumed after failures. If writing fails, the reported amount was accepted.", "quantifier": "all files, all buffer sizes, all sequences of operations, all patterns of failures", "why_tests_cant": "Failures have to be injected at every possible point.", "anchors": ["src/archon/core/file_sink.cpp:35-77"]}
{"id": "C160", "title": "Lookup in file format registry", "statement": "The registered file formats are listed in order of registration. Looking up an identifier produces the file format with that identifier. Looking up a MIME type or a filename extension produces exactly the file formats that list it, in order of registration, or the first one of them.", "quantifier": "all sequences of registered file formats, all keys", "why_tests_cant": "The number of sequences of registrations is infinite.", "anchors": ["src/archon/image/file_format_registry.cpp:75-160", "src/archon/image/file_format_registry.hpp:147-159"]}
{"id": "C161", "title": "Registration of duplicate file formats", "statement": "Registration of a file format throws if the registry already contains that file format, or another file format with the same identifier, and succeeds otherwise.", "quantifier": "all registries, all file formats", "why_tests_cant": "The number of registries is infinite.", "anchors": ["src/archon/image/file_format_registry.cpp:136-160"]}
{"id": "C162", "title": "Image file format detection", "statement": "When an image is loaded, and no file format is asked for, the file formats are tried in order: those that go with the MIME type, then those that go with the filename extension, then all others. The first one that recognizes the input is used. Each one gets to see the input from the beginning no matter how much the others have read, and so does the loader. Detection fails only if all registered file formats refuse. A file format that is asked for is used without detection.", "quantifier": "all sources, all registries, all recognition and loading procedures, all MIME types and filename extensions", "why_tests_cant": "The claim is about all file formats and all ways of delivering the input.", "anchors": ["src/archon/image/load.cpp:80-149", "src/archon/image/file_format_png.cpp:151-162"]}
{"id": "C163", "title": "Choice of file format for saving", "statement": "An image is saved in the file format that is asked for. If none is asked for, it is saved in the first file format that goes with the MIME type, and if there is none, in the first one that goes with the filename extension. If the saved file begins with the signature of that file format, loading by the same filename extension chooses the same file format.", "quantifier": "all registries, all identifiers, MIME types, and filename extensions", "why_tests_cant": "The number of registries is infinite.", "anchors": ["src/archon/image/save.cpp:49-74", "src/archon/image/load.cpp:80-149"]}
{"id": "C164", "title": "Selection of tests", "statement": "TestRunner::run() executes exactly the tests that are enabled and pass the filter, sorted stably by the configured order. If two tests have the same name, the first clash is reported by an exception and no test is executed. Negative numbers of repetitions or threads are rejected. The summary accounts for every test in the list as disabled, excluded, or selected.", "quantifier": "all test lists and configurations", "why_tests_cant": "The number of test lists is infinite.", "anchors": ["src/archon/check/test_runner.cpp:119-237"]}
{"id": "C165", "title": "Each test execution takes place exactly once", "statement": "When TestRunner::run() returns, every selected test has been begun and ended exactly once per repetition, and nothing else has been executed. At any time, a testing thread executes at most one test, and everything reported on behalf of a test is reported between its beginning and its end.", "quantifier": "all test lists, configurations, schedules of the threads, and behaviors of the tests", "why_tests_cant": "The number of test suites and of interleavings of threads is unbounded.", "anchors": ["src/archon/check/noinst/thread_context_impl.cpp:48-138", "src/archon/check/test_runner.cpp:206-237"]}
{"id": "C166", "title": "Mutual exclusion of tests", "statement": "While a test that does not allow concurrency is executed, no other test is executed. The number of tests that are executed at the same time does not exceed the configured number of threads.", "quantifier": "all test lists, configurations, schedules of the threads, and behaviors of the tests", "why_tests_cant": "The number of test suites and of interleavings of threads is unbounded.", "anchors": ["src/archon/check/noinst/thread_context_impl.cpp:48-91", "src/archon/check/test_runner.cpp:180-229", "src/archon/check/test_runner.cpp:353-391"]}
{"id": "C167", "title": "Order of test execution", "statement": "If shuffling is not enabled, test executions are initiated in the documented order: by repetition, and within a repetition in the order of the selected tests.", "quantifier": "all test lists, configurations, schedules of the threads, and behaviors of the tests", "why_tests_cant": "The number of test suites and of interleavings of threads is unbounded.", "anchors": ["src/archon/check/test_config.hpp:118-131", "src/archon/check/test_runner.cpp:206-220"]}
{"id": "C168", "title": "Summary and result of a test run", "statement": "The summary passed to root_end() counts all checks, all failed checks, and all failed test executions, and TestRunner::run() returns true if, and only if nothing failed.", "quantifier": "all test lists, configurations, schedules of the threads, and behaviors of the tests", "why_tests_cant": "The number of test suites and of interleavings of threads is unbounded.", "anchors": ["src/archon/check/noinst/thread_context_impl.cpp:80-91", "src/archon/check/noinst/thread_context_impl.cpp:142-149", "src/archon/check/test_runner.cpp:393-405"]}
{"id": "C169", "title": "Sequence of reports", "statement": "The report begins with root_begin() and, when the run is complete, ends with root_end(). For each testing thread, thread_begin() is invoked exactly once, before everything else that is reported for that thread, and thread_end() is invoked exactly once, after everything else that is reported for that thread.", "quantifier": "all test lists, configurations, schedules of the threads, and behaviors of the tests", "why_tests_cant": "The number of test suites and of interleavings of threads is unbounded.", "anchors": ["src/archon/check/noinst/thread_context_impl.cpp:48-91", "src/archon/check/noinst/thread_context_impl.cpp:142-149", "src/archon/check/test_runner.cpp:350-402"]}
{"id": "C170", "title": "Seeds and locations", "statement": "The repetition dependent part of the random seed of a test execution depends on nothing but the repetition number and the configured override. A failure is reported with the location where it occurred, and with the source path mapped as configured, no matter what was reported before.", "quantifier": "all test lists, configurations, schedules of the threads, and behaviors of the tests", "why_tests_cant": "The number of test suites and of interleavings of threads is unbounded.", "anchors": ["src/archon/check/noinst/thread_context_impl.cpp:95-104", "src/archon/check/noinst/thread_context_impl.cpp:152-202"]}
{"id": "C171", "title": "Abort on failure", "statement": "If abort on failure is enabled, the program is aborted right after the first failure has been reported. Otherwise the program is never aborted.", "quantifier": "all test lists, configurations, schedules of the threads, and behaviors of the tests", "why_tests_cant": "A test that aborts cannot go on to examine the rest of the program, and the interleavings are unbounded.", "anchors": ["src/archon/check/noinst/thread_context_impl.cpp:152-202"]}
{"id": "C172", "title": "Test runs terminate", "statement": "There is no deadlock: as long as a test run is in progress, there is a thread that can proceed once the test that it executes has returned. The number of steps of the test runner is bounded, so a run completes if all tests return.", "quantifier": "all test lists, configurations, schedules of the threads, and behaviors of the tests", "why_tests_cant": "Absence of deadlock is a claim about all schedules.", "anchors": ["src/archon/check/noinst/thread_context_impl.cpp:48-149", "src/archon/check/test_runner.cpp:350-405"]}
{"id": "C173", "title": "Log files stay inside the base directory", "statement": "When log files are placed in subdirectories according to the paths of the tests, the subdirectory is created if, and only if the path is relative and does not lead outside the base directory at any point. Nothing is created outside the base directory, and parent directories are created first.", "quantifier": "all paths", "why_tests_cant": "The number of paths is infinite.", "anchors": ["src/archon/check/test_runner.cpp:64-90"]}
{"id": "C174", "title": "Escaping in XML reports", "statement": "Text that is escaped for an XML report contains no angle bracket and no quotation mark, different texts are escaped differently, and a reader of an attribute value that was escaped gets back the original text.", "quantifier": "all texts", "why_tests_cant": "The number of texts is infinite.", "anchors": ["src/archon/check/xml_reporter.cpp:33-71"]}
{"id": "C175", "title": "XML report document", "statement": "The XML reporter writes a well-formed XML document in which each test execution that was begun is listed exactly once, ordered by test and then by repetition, together with exactly the failures that were reported for it, in the order of their occurrence.", "quantifier": "all sequences of reports, in particular for any interleaving of concurrent tests", "why_tests_cant": "The number of sequences of reports is infinite, and use of a dangling reference may go unnoticed.", "anchors": ["src/archon/check/xml_reporter.cpp:80-147", "src/archon/check/xml_reporter.hpp:56-76"]}
{"id": "C176", "title": "Finding X11 visuals", "statement": "Comparison of visuals is a strict weak ordering. A search for a visual finds one if, and only if the screen has a visual that meets the requirements, and no visual that meets the requirements is better than the one that is found. A search for all visuals lists each visual that meets the requirements exactly once, from best to worst, and its first entry is what a search for a single visual finds.", "quantifier": "all lists of visuals, all search parameters, all screens", "why_tests_cant": "The number of combinations of visuals, requirements, and preferences is beyond what can be tested, and violation of the ordering requirements of a sort function shows up only for particular lists.", "anchors": ["src/archon/display/noinst/x11/support.cpp:229-457", "src/archon/display/noinst/x11/support.cpp:2738-2751"]}
{"id": "C177", "title": "Preferences when finding X11 visuals", "statement": "When the default visual is preferred and is acceptable, it is the one that is found. Otherwise, when the default depth is preferred, the depth is at least the default depth if possible, and then as low as possible. Without those preferences, the class of the visual decides first: TrueColor, DirectColor, StaticColor, PseudoColor, StaticGray, GrayScale.", "quantifier": "all lists of visuals, all search parameters, all screens", "why_tests_cant": "The number of combinations of visuals, requirements, and preferences is beyond what can be tested.", "anchors": ["src/archon/display/noinst/x11/support.cpp:296-457"]}
{"id": "C178", "title": "Channel masks of X11 visuals", "statement": "The red, green, and blue masks of a visual are accepted if, and only if each is a nonempty contiguous sequence of bits and no bit belongs to two of them, and the recorded shifts and widths describe the masks.", "quantifier": "all triples of 64-bit masks", "why_tests_cant": "There are 2^192 triples of masks.", "anchors": ["src/archon/display/noinst/x11/support.cpp:461-487"]}
{"id": "C179", "title": "Packing of color components by multiplication", "statement": "Components that are packed into a pixel value are recovered when that pixel value is unpacked. Unpacking of any pixel value produces components that are in range; they are all zero if the pixel value does not correspond to any color. The same holds when pixel values are permuted, as long as no two colors share a pixel value.", "quantifier": "all field specifications, all components, all pixel values, all permutations", "why_tests_cant": "The number of combinations of fields, components, and pixel values is beyond what can be tested.", "anchors": ["src/archon/display/noinst/mult_pixel_format.hpp:192-226", "src/archon/display/noinst/mult_pixel_format.hpp:517-545", "src/archon/display/noinst/x11/support.cpp:527-552", "src/archon/display/noinst/x11/support.cpp:788-796"]}
{"id": "C180", "title": "Check of standard colormap parameters", "statement": "If the parameters of a standard colormap pass the check for being valid and compact, then there is a one-to-one correspondence between colors and the entries of a contiguous section of the colormap. Conversely, parameters with such a correspondence, and with at least two levels per channel, pass the check.", "quantifier": "all field parameters and colormap sizes", "why_tests_cant": "The number of combinations of fields, components, and pixel values is beyond what can be tested.", "anchors": ["src/archon/display/noinst/x11/support.cpp:1017-1063"]}
{"id": "C181", "title": "Initialization of PseudoColor and GrayScale colormaps", "statement": "After initialization of a colormap, the entry that corresponds to a color contains that color, with each component scaled to the nearest 16-bit intensity. Entries outside the section of the colormap are black if filling was requested, and unchanged otherwise.", "quantifier": "all field parameters, colormap sizes, and initial contents", "why_tests_cant": "The number of combinations of fields, components, and pixel values is beyond what can be tested. Common test environments offer only visuals with 8-bit colormaps or no colormap at all.", "anchors": ["src/archon/display/noinst/x11/support.cpp:2795-2909", "src/archon/display/noinst/x11/support.cpp:2981-3011"]}
{"id": "C182", "title": "Initialization of DirectColor colormaps", "statement": "After initialization of a colormap for a DirectColor visual, each level of each channel has the corresponding intensity, and nothing else has changed.", "quantifier": "all disjoint bit fields, colormap sizes, and initial contents", "why_tests_cant": "The number of combinations of fields, components, and pixel values is beyond what can be tested.", "anchors": ["src/archon/display/noinst/x11/support.cpp:2912-2964"]}
{"id": "C183", "title": "Interned colors agree with images", "statement": "The pixel value of an interned color is the pixel value of that color in an image.", "quantifier": "all field parameters and colors", "why_tests_cant": "The parameters come from a property of the root window, and are under control of other programs.", "anchors": ["src/archon/display/noinst/x11/support.hpp:692-696", "src/archon/display/noinst/x11/support.cpp:700-784"]}
{"id": "C184", "title": "Allocation of gray levels in the default colormap", "statement": "If all gray levels can be allocated, each of them is represented by the pixel value that was allocated for it. Otherwise, exactly those pixel values that were allocated are released again.", "quantifier": "all outcomes of the allocations", "why_tests_cant": "The outcome depends on what other programs have allocated in the default colormap.", "anchors": ["src/archon/display/noinst/x11/support.cpp:1336-1382", "src/archon/display/noinst/x11/support.cpp:1525-1531"]}
{"id": "C185", "title": "Lookup of colors in a palette map", "statement": "A reverse lookup in a palette map produces the index of a color that is as close to the specified color as any color of the palette, unless the palette is empty. This is also so after the palette map has been moved.", "quantifier": "all palettes, all colors, all results of partial sorting that the standard library may come up with", "why_tests_cant": "The number of palettes and colors is beyond what can be tested.", "anchors": ["src/archon/display/noinst/palette_map.cpp:60-74", "src/archon/display/noinst/palette_map.cpp:90-144", "src/archon/display/noinst/palette_map.hpp:215-243"]}
{"id": "C186", "title": "Reading of palettes", "statement": "When a palette image is read, the colors are those of the image, row by row, up to the maximum size of the palette, and nothing is written outside the allocated memory. An empty image results in an empty palette.", "quantifier": "all palette images and all maximum sizes", "why_tests_cant": "The number of image sizes and maximum sizes is beyond what can be tested.", "anchors": ["src/archon/display/noinst/palette_map.hpp:167-212"]}
{"id": "C187", "title": "Ownership of palette components", "statement": "The memory that holds the components of a palette in native form is released exactly once, no matter how palette maps are constructed, moved, assigned, and destroyed, and no matter whether construction fails.", "quantifier": "all sequences of operations on any number of palette maps", "why_tests_cant": "The number of sequences of operations is infinite, and leaks go unnoticed.", "anchors": ["src/archon/display/noinst/palette_map.hpp:109-126", "src/archon/display/noinst/palette_map.hpp:229-243", "src/archon/display/noinst/palette_map.cpp:77-102"]}
{"id": "C188", "title": "Storage of pixel blocks", "statement": "A block of pixels of a non-negative size is created exactly when the number of components per row and in total can be represented, and, when a buffer is provided, the buffer is large enough. The components of a new block are zero. The pixels occupy disjoint ranges of the buffer in row-major order, and together they make up the necessary part of the buffer.", "quantifier": "all sizes, all numbers of channels, all widths of the integer types", "why_tests_cant": "The number of sizes is beyond what can be tested, and large blocks cannot be allocated.", "anchors": ["src/archon/image/block.hpp:173-200", "src/archon/image/block.hpp:238-267"]}
{"id": "C189", "title": "Blocks do not have negative sizes", "statement": "A block of pixels cannot be created with a size where one of the components is negative.", "quantifier": "all sizes and numbers of channels", "why_tests_cant": "The number of sizes is beyond what can be tested.", "anchors": ["src/archon/image/block.hpp:238-256"]}
{"id": "C190", "title": "Retrieval of pixels and color indexes from blocks", "statement": "The pixel or color index that is retrieved from a position of a block is the one that is stored there. This is also so for color indexes whose packed form is negative.", "quantifier": "all blocks, all positions in them, all contents, all component types", "why_tests_cant": "The number of blocks and contents is beyond what can be tested.", "anchors": ["src/archon/image/block.hpp:270-285"]}
{"id": "C191", "title": "Images that refer to blocks of pixels", "statement": "An image that refers to a part of a block has the size of that part. Reading from it gives the pixels of the block at the corresponding positions. Writing and filling assigns to the pixels of the block at the corresponding positions, and to nothing else. Access outside the image is prevented.", "quantifier": "all blocks, parts, positions, and trays with any strides", "why_tests_cant": "The number of combinations of sizes, positions, and strides is beyond what can be tested.", "anchors": ["src/archon/image/tray_image.hpp:163-216", "src/archon/image/tray_image.hpp:233-312", "src/archon/image/indexed_tray_image.hpp:155-204", "src/archon/image/indexed_tray_image.hpp:219-295"]}
{"id": "C192", "title": "Text encoders and decoders do not depend on buffer sizes", "statement": "When a text encoder or decoder is used without translation of newlines, what is added to the buffer is all that the character codec makes of the data, until the data is exhausted or found to be invalid. What is already in the buffer is kept. The size of the buffer, and the rate at which it grows, make no difference to the output, to the remaining data, to the resulting shift state, or to the returned value. Return to the initial shift state adds the whole of the necessary sequence.", "quantifier": "all character codecs that conform to the concept, all data, all buffer contents and sizes, all growth policies", "why_tests_cant": "The number of ways that data can be divided by buffer boundaries is beyond what can be tested.", "anchors": ["src/archon/core/impl/text_codec_impl.hpp:214-228", "src/archon/core/impl/text_codec_impl.hpp:250-274", "src/archon/core/impl/text_codec_impl.hpp:389-397", "src/archon/core/char_codec_concept.hpp:60-87"]}
{"id": "C193", "title": "Newlines in Windows text form with degenerate character codecs", "statement": "Encoding in the Windows text form adds the data with CR+LF in place of each newline character. Decoding adds the data with a newline character in place of each CR+LF. A final CR is left in the data when more data follows, and then it makes no difference that the data is decoded in steps. Decoding undoes encoding.", "quantifier": "all data, all buffer contents and sizes, all growth policies", "why_tests_cant": "The number of ways that CR+LF can be divided by buffer and data boundaries is beyond what can be tested.", "anchors": ["src/archon/core/impl/text_codec_impl.hpp:476-487", "src/archon/core/impl/text_codec_impl.hpp:505-513"]}
{"id": "C194", "title": "Encoding in the Windows text form with other character codecs", "statement": "When a character codec is combined with the Windows text form, encoding adds the character encoding of the data with CR+LF in place of each newline character. This does not depend on the sizes of the internal buffer and the output buffer. Return to the initial shift state adds the necessary sequence, translated in the same way.", "quantifier": "all character codecs that conform to the concept, all data, all buffer contents and sizes, all growth policies", "why_tests_cant": "The number of ways that data can be divided by boundaries of two buffers is beyond what can be tested.", "anchors": ["src/archon/core/impl/text_codec_impl.hpp:297-342"]}
{"id": "C195", "title": "Decoding of the Windows text form with other character codecs", "statement": "When a character codec is combined with the Windows text form, and data arrives in pieces, the result of decoding is what the character codec makes of all of the data with a newline character in place of each CR+LF. It makes no difference how the data is divided. Divisions may separate CR from LF, or separate the bytes of a character. Errors are found, and then the output is what precedes the error.", "quantifier": "all character codecs that conform to the concept and do not take back decisions when more data follows, all data, all divisions into pieces, all buffer contents and sizes, all growth policies", "why_tests_cant": "The number of divisions is exponential in the amount of data.", "anchors": ["src/archon/core/impl/text_codec_impl.hpp:537-561"]}
{"id": "C196", "title": "Textual representation of pixel sizes", "statement": "A size is formatted as one decimal numeral if its two components are equal, and otherwise as two numerals with a comma between them. A text is accepted as a size exactly when it is one numeral, which is then used for both components, or two numerals that are separated by a comma, optionally followed by space, and all numbers are representable. What is formatted can be parsed with the original size as the result. When parsing fails, the variable is untouched.", "quantifier": "all sizes, all texts, all widths of `int`", "why_tests_cant": "The number of sizes and texts is beyond what can be tested.", "anchors": ["src/archon/util/pixel_size.hpp:429-462", "src/archon/core/as_int.hpp:149-162", "src/archon/core/as_int.hpp:209-220"]}
{"id": "C197", "title": "Textual representation of pixel positions", "statement": "A position is formatted as two decimal numerals with a comma between them. A text is accepted as a position exactly when it is two numerals that are separated by a comma, optionally followed by space, and both numbers are representable. What is formatted can be parsed with the original position as the result. When parsing fails, the variable is untouched.", "quantifier": "all positions, all texts, all widths of `int`", "why_tests_cant": "The number of positions and texts is beyond what can be tested.", "anchors": ["src/archon/util/pixel_pos.hpp:330-356"]}
{"id": "C198", "title": "Comparison and arithmetic of pixel sizes and positions", "statement": "Comparison of sizes, and of positions, is lexicographical, which is a strict total order, and the six operators agree with each other. A box is empty precisely when it has no pixels, and it can contain another nonempty box precisely when it has all pixels of the other box when they are aligned. A size can be added to, or subtracted from a position precisely when that is said to be possible. Subtraction undoes addition. Results of arithmetic are the mathematical results when these are representable.", "quantifier": "all sizes and positions, all widths of `int`", "why_tests_cant": "The number of combinations of sizes and positions is beyond what can be tested.", "anchors": ["src/archon/util/pixel_size.hpp:264-399", "src/archon/util/pixel_pos.hpp:228-291"]}
{"id": "C199", "title": "Division of pixel sizes rounds down", "statement": "When a size is divided by an integer, each component of the result is the quotient rounded down.", "quantifier": "all sizes and divisors", "why_tests_cant": "The number of sizes and divisors is beyond what can be tested.", "anchors": ["src/archon/util/pixel_size.hpp:402-408"]}
{"id": "C200", "title": "Decimal, octal, and hexadecimal integers in text", "statement": "A flexible integer is formatted as a decimal numeral, or as a hexadecimal numeral after `0x`. A text is accepted as a flexible integer exactly when it is `0x` or `0X` followed by a hexadecimal numeral, or an octal numeral that starts with `0`, or a decimal numeral that does not, and the number is a value of the type. What is formatted, one way or the other, can be parsed with the original integer as the result, negative or not. When parsing fails, the integer is untouched.", "quantifier": "all integer types, all integers, all texts", "why_tests_cant": "The number of integers and texts is beyond what can be tested.", "anchors": ["src/archon/core/as_int.hpp:227-255"]}
{"id": "C201", "title": "Reading an integer from a stream", "statement": "When an integer is read from a good stream, white space is skipped if the stream says so, and the longest sequence of letters, digits, and underscores, possibly after a minus sign, is removed from the stream. If that is a numeral of the specified radix for a value of the type, the integer is set to it. Otherwise, the integer is untouched, and the fail bit is set. The end bit is set precisely when nothing remains. Reading from a stream that is not good only sets the fail bit.", "quantifier": "all streams, all integer types, all radixes, all classifications of characters where the minus sign is not a letter or a digit", "why_tests_cant": "The number of texts is beyond what can be tested.", "anchors": ["src/archon/core/as_int.hpp:164-204", "src/archon/core/stream_input.hpp:129-184"]}
{"id": "C202", "title": "Integers that are written to a stream can be read back", "statement": "When integers are written to a stream with white space in between, and in any radix, they can be read back from the stream in the same radix. What follows the last one is left in the stream, if it does not start with a letter, a digit, or an underscore.", "quantifier": "all sequences of integers, all integer types, all radixes", "why_tests_cant": "The number of sequences of integers is beyond what can be tested.", "anchors": ["src/archon/core/as_int.hpp:149-204", "src/archon/core/stream_input.hpp:129-184"]}
{"id": "C203", "title": "Test files of different tests do not collide", "statement": "A test file or directory that is declared in a test has a path in the directory for test files, and the last component is made from the name of the test, the repetition number, the name of the variable, and the file name extension. Two such paths are the same only if the test, the repetition, and the name of the variable are the same. Otherwise, nothing can be at or below both of them. So tests that execute concurrently do not disturb the files of each other.", "quantifier": "all names of tests and variables that are identifiers, all repetition numbers, all extensions", "why_tests_cant": "The number of combinations of names and numbers is beyond what can be tested, and a collision would show up only with particular timing.", "anchors": ["src/archon/check/test_context.cpp:58-69", "src/archon/check/test_path.hpp:39-65", "src/archon/check/test_path.hpp:267-268"]}
{"id": "C204", "title": "Life of test files", "statement": "When a guard for a test file or directory is created, nothing is left from earlier at the path, and for a directory, there is an empty directory. Something is removed only when it is at or below the path of a guard that is created or whose life ends. A guard that was moved from removes nothing. When test files are not to be kept, what exists after any sequence of operations either existed to begin with, or is guarded, so nothing remains when there are no more guards. When they are to be kept, nothing is removed at the end of the life of a guard.", "quantifier": "all sequences of creation, moving, and destruction of guards, and of creation of files at guarded paths", "why_tests_cant": "The number of sequences of operations is unbounded.", "anchors": ["src/archon/check/test_path.hpp:287-379"]}
{"id": "C205", "title": "Parsing of text with a fixed number of fields", "statement": "Parsing of a text with fields succeeds precisely if there are as many words as there are fields, and each word is a valid value for the corresponding field. Each variable then has the corresponding value, and the variables for error information are untouched. Otherwise, the error is that a value is bad, missing, or superfluous, and the reported value, position, and identifier are those of the first offending word, and of the field that it was meant for. A missing value is reported at the end of the text. Variables for fields before the offending one have the parsed values, and those for fields after it are untouched.", "quantifier": "all texts, all delimiters, all lists of fields, all value parsers", "why_tests_cant": "The number of combinations of texts and fields is unbounded.", "anchors": ["src/archon/core/text_parser.hpp:142-173", "src/archon/core/text_parser.hpp:275-279"]}
{"id": "C206", "title": "Parsing of text with a variable number of fields", "statement": "When the fields are followed by a sequence of values, parsing succeeds precisely if the first words are valid values for the fields, each of the remaining words is a valid value for the sequence, and the number of remaining words is within the specified bounds. The values of the sequence are then added in order at the end of the vector. Otherwise, the error information is as for a fixed number of fields, except that a bad or missing value can also be reported for the sequence, and only values before the offending word are added to the vector.", "quantifier": "all texts, all delimiters, all lists of fields, all value parsers, all bounds on the length of the sequence", "why_tests_cant": "The number of combinations of texts, fields, and bounds is unbounded.", "anchors": ["src/archon/core/text_parser.hpp:176-225", "src/archon/core/text_parser.hpp:297-307"]}
{"id": "C207", "title": "Switching between text styles", "statement": "Attributes for terminal text are equal precisely if they describe the same style, no matter how they were set. The escape sequence that is generated for a switch from one style to another brings a terminal that has the first style to have the second style, and leaves it ready to receive text, provided that bold and faint exclude each other in the terminal. Nothing is generated if the styles are the same, and only then.", "quantifier": "all sequences of changes to attributes, for both of the styles", "why_tests_cant": "There are almost two thousand styles, and almost four million pairs of them.", "anchors": ["src/archon/core/terminal.cpp:36-232", "src/archon/core/terminal.hpp:320-369", "src/archon/core/terminal.hpp:440-455"]}
{"id": "C208", "title": "Terminals where bold and faint are independent", "statement": "In a terminal where text can be both bold and faint, the generated escape sequence also brings the terminal from the first style to the second one.", "quantifier": "all sequences of changes to attributes, for both of the styles", "why_tests_cant": "It depends on how terminals interpret escape sequences, and there are almost four million pairs of styles.", "anchors": ["src/archon/core/terminal.cpp:53-65", "src/archon/core/terminal.cpp:200-212"]}
{"id": "C209", "title": "Individual escape sequences and buffer size", "statement": "Each of the simple escape sequences changes one aspect of the style, and nothing else. The reset sequence establishes the default style. An escape sequence for switching between styles fits in a buffer of the advertised minimum size.", "quantifier": "all styles, all attributes", "why_tests_cant": "There are almost four million pairs of styles.", "anchors": ["src/archon/core/terminal.hpp:222-317", "src/archon/core/terminal.hpp:420-437", "src/archon/core/terminal.cpp:36-232"]}
{"id": "C210", "title": "Shortest escape sequence", "statement": "No escape sequence that switches from the one style to the other is shorter than the one that is generated.", "quantifier": "all pairs of styles, all escape sequences of the type that selects graphic rendition", "why_tests_cant": "The number of escape sequences is unbounded.", "anchors": ["src/archon/core/terminal.cpp:172-197"]}
{"id": "C211", "title": "Names of enumeration values", "statement": "A mapping from values to names is accepted precisely if all values are distinct and all names are distinct, where case is ignored if it is to be ignored. The name of a value is the one in the mapping. Parsing of a name produces the value that it is mapped from, and fails, with the variable unchanged, if there is no such name. Parsing is the inverse of naming.", "quantifier": "all mappings, all strings, all values", "why_tests_cant": "The number of mappings and strings is unbounded.", "anchors": ["src/archon/core/enum.hpp:211-263", "src/archon/core/enum.hpp:293-321"]}
{"id": "C212", "title": "Enumeration values in streams", "statement": "When a value of an enumeration is written to a stream, the result is its name, or the decimal representation if it has no name. When one is read from a stream, the longest sequence of letters, digits, and underscores is removed from the stream, and if it is a name, the variable gets the corresponding value. Otherwise, the operation fails, and the variable is unchanged. A name that consists of letters, digits, and underscores can be read back after it was written.", "quantifier": "all mappings, all contents of the stream, all locales", "why_tests_cant": "The number of mappings and texts is unbounded.", "anchors": ["src/archon/core/enum.hpp:324-375", "src/archon/core/enum.hpp:384-403"]}
{"id": "C213", "title": "Specification of the fallback font", "statement": "The specification file of the fallback font is accepted precisely if it consists of a name, code point ranges in ascending order without overlap, metrics, a fallback glyph, and any number of further glyphs, all of which are inside the image and have advances that are not negative, and no code point has two glyphs. A code point is then looked up to the glyph whose line has it, and any other code point to the fallback glyph. Therefore, a glyph that was looked up can always be loaded, and its pixels are in the image.", "quantifier": "all specification files, all code points", "why_tests_cant": "The number of specification files is unbounded.", "anchors": ["src/archon/font/loader_fallback.cpp:136-351", "src/archon/font/loader_fallback.cpp:485-506"]}
{"id": "C214", "title": "Rendering of a glyph of the fallback font", "statement": "When a glyph is rendered into a mask, each pixel of the glyph that falls inside the mask is copied to its place, where the lower left corner of the glyph is at the specified position displaced by the translation of the glyph, and no other pixel of the mask is touched. Pixels from other glyphs are not drawn. If the position of the glyph is not representable, an exception is thrown.", "quantifier": "all glyphs, translations, positions, sizes of the mask, and contents of images", "why_tests_cant": "The number of positions and contents is unbounded for practical purposes.", "anchors": ["src/archon/font/loader_fallback.cpp:537-555"]}
{"id": "C215", "title": "Ordinals", "statement": "When an integer is formatted as an ordinal, the result is the decimal representation followed by the suffix that belongs to it in English: `th` if the last two digits are 11, 12, or 13, otherwise `st`, `nd`, or `rd` if the last digit is 1, 2, or 3, otherwise `th`.", "quantifier": "all integers", "why_tests_cant": "The number of integers is unbounded for practical purposes.", "anchors": ["src/archon/core/format_as.hpp:434-460"]}
{"id": "C216", "title": "Amounts of time", "statement": "When an amount of time is formatted, it is given as a quantity in seconds if it is less than a minute, otherwise as minutes and seconds if it is less than an hour, otherwise as hours and minutes. It is rounded to the nearest unit of the last place, the number in the last place is less than 60, and the sign is right.", "quantifier": "all amounts of time", "why_tests_cant": "The number of amounts of time is unbounded for practical purposes.", "anchors": ["src/archon/core/format_as.hpp:501-535"]}
{"id": "C217", "title": "Quantities with decadic prefixes", "statement": "When a quantity is formatted with a decadic prefix, the number that is shown times the documented power of 1000 for the prefix is the quantity. The magnitude of the number that is shown is at least 0.9995 and less than 999.5, so it can be shown with three significant digits without exponent, unless there is no prefix for a lower or higher power. The prefix is inserted after any leading space in the unit.", "quantifier": "all quantities, all units", "why_tests_cant": "The number of quantities is unbounded for practical purposes.", "anchors": ["src/archon/core/format_as.hpp:551-609"]}
{"id": "C218", "title": "Quantities with binary prefixes, and amounts of memory", "statement": "When a quantity is formatted with a binary prefix, the number that is shown times the documented power of 1024 for the prefix is the quantity, and the number that is shown is less than 999.5, and not less than 999.5 / 1024 if there is a prefix, unless there is no prefix for a higher power. An amount of memory that is less than 1024 is shown as a number of bytes, with the singular form for one byte, and other amounts are shown as a quantity.", "quantifier": "all quantities", "why_tests_cant": "The number of quantities is unbounded for practical purposes.", "anchors": ["src/archon/core/format_as.hpp:612-654", "src/archon/core/format_as.hpp:538-548"]}
{"id": "C219", "title": "Percentages", "statement": "When a number is formatted as a percentage with at most 6 decimals, the jump to 100% happens when the number becomes at least one, and not before, in spite of rounding of floating-point numbers. Other numbers of decimals are rejected.", "quantifier": "all floating-point numbers, all numbers of decimals, all ways of rounding to nearest", "why_tests_cant": "The number of floating-point numbers is too large.", "anchors": ["src/archon/core/format_as.hpp:478-498"]}
{"id": "C220", "title": "Elapsed time", "statement": "The elapsed time of a timer is the difference between the current time and the start time. It is zero if the clock has gone backwards, and it is never negative. If the number of seconds is too large for the type, the largest number of seconds is returned.", "quantifier": "all start times, all current times", "why_tests_cant": "Clocks do not normally go backwards, and tests do not take years.", "anchors": ["src/archon/core/timer.cpp:197-222"]}
{"id": "C221", "title": "Parameterized strings", "statement": "Formatting of a parameterized string succeeds precisely if every percent sign is part of a marker, `%s` or `%%`, found by scanning from left to right, and the number of `%s` markers is the number of parameters. The result is the string with the N'th `%s` marker replaced by the N'th parameter, and each `%%` replaced by a percent sign. Percent signs in parameters have no significance. Any text can be produced by doubling the percent signs. When the formatted string is written as an object to a stream whose field width is not zero, it fills the field as a single string, and nothing is written if the parameterized string is invalid.", "quantifier": "all strings, all numbers and contents of parameters", "why_tests_cant": "The number of strings and parameters is unbounded.", "anchors": ["src/archon/core/format.hpp:330-401", "src/archon/core/format.hpp:405-423"]}
{"id": "C222", "title": "Code points of fonts", "statement": "An integer is accepted as a code point precisely if it is a value of the character integer type other than the end-of-file indicator. Every character, other than the one that coincides with the end-of-file indicator, is accepted, and converting the code point back yields the character. Every code point arises from the character that it is converted to. A code point is written as a decimal numeral, and parsing accepts precisely the unsigned decimal numerals for code points, so what is written can be parsed, and yields the original code point. Upon failure, the object is unchanged.", "quantifier": "all characters and integers, all texts, all widths of the character type", "why_tests_cant": "There are billions of code points, and the number of texts is unbounded.", "anchors": ["src/archon/font/code_point.hpp:97-124", "src/archon/font/code_point.hpp:127-141"]}
{"id": "C223", "title": "Ranges of code points of fonts", "statement": "Parsing of a range of code points succeeds precisely if the text is a single code point, or two code points with a dash between them, where the first one is not greater than the second one. Upon failure, the object is unchanged. A range is written as its first and last code points with a dash between them, or as only its first code point if the last one is not greater. A range, whose first code point is not greater than its last one, is recovered when that which is written for it is parsed.", "quantifier": "all texts, all pairs of code points, all widths of the character type", "why_tests_cant": "The number of texts is unbounded, and there are too many pairs of code points.", "anchors": ["src/archon/font/code_point.hpp:170-176", "src/archon/font/code_point.hpp:179-202"]}
{"id": "C224", "title": "Movement, access, and comparison of stride iterators", "statement": "After any sequence of moves, forwards or backwards, a stride iterator refers to the expected element, which is the one at the original position plus the stride times the net number of moves. The postfix operators return the original iterator. Subscription refers to the same element as moving and dereferencing. The order of two iterators is the order of the numbers of moves.", "quantifier": "all strides, all sequences of moves by representable distances, all widths of the difference type", "why_tests_cant": "The number of sequences of moves is unbounded, and negative distances pass through an unsigned type.", "anchors": ["src/archon/core/stride_iterator.hpp:116-196", "src/archon/core/stride_iterator.hpp:207-252"]}
{"id": "C225", "title": "Distance between stride iterators", "statement": "The difference between two stride iterators is the number of moves that takes the second one to the first one, negative or not.", "quantifier": "all strides, all pairs of iterators at a representable distance, all widths of the difference type", "why_tests_cant": "There are too many distances and strides.", "anchors": ["src/archon/core/stride_iterator.hpp:199-204"]}
{"id": "C226", "title": "Inexact comparison of floating-point numbers", "statement": "If the tolerance is not negative, precisely one of the three holds for any two finite numbers: the first one is definitely less, they are approximately equal, or the first one is definitely greater. Both kinds of equality are reflexive and symmetric, and essential equality implies approximate equality. Definitely less implies less, and is irreflexive and transitive. With a greater tolerance, equality holds for more numbers, and definitely less for fewer. In the absence of rounding, the relations have the documented meanings, and do not change when both numbers are scaled by the same positive factor.", "quantifier": "all finite numbers, all tolerances that are not negative, all symmetric and order-preserving ways of rounding", "why_tests_cant": "The number of pairs and triples of numbers is too large, and the claims must hold in spite of rounding.", "anchors": ["src/archon/core/inexact_compare.hpp:70-91"]}
