{"id": "C01", "title": "parse_int returns the denoted number or out_of_range", "statement": "reader::parse_int<T>(base) on an input that starts (after an optional sign) with at least one digit of the base returns exactly the integer denoted by the maximal digit run if that integer is representable in T, and err::out_of_range otherwise (a '-' in front of an unsigned number, even -0, is err::out_of_range too); it never returns a different number and never has undefined behaviour.", "quantifier": "every input string, every base 2..36, every integer type T (signed/unsigned, 8 to 64 bit)", "why_tests_cant": "the set of digit strings is infinite; the overflow condition only goes wrong for particular digit strings far above the maximum that min/max boundary tests do not hit", "anchors": ["include/emio/reader.hpp: reader::parse_int, detail::parse_int, detail::parse_sign", "include/emio/detail/conversion.hpp: char_to_digit, upcasted_int_t"]}
{"id": "C02", "title": "a failed parse_int does not move the read position", "statement": "Whenever reader::parse_int returns an error, the reader's position is exactly what it was before the call; whenever it succeeds, the position has advanced by exactly the optional sign and the maximal digit run.", "quantifier": "every input, position, base (valid or not) and integer type", "why_tests_cant": "requires considering every way the parse can fail after having consumed characters", "anchors": ["include/emio/reader.hpp: reader::parse_int, detail::parse_int"]}
{"id": "C03", "title": "only letters and decimal digits are numerals", "statement": "A character contributes to a parsed integer of base b iff it is 0-9, a-z or A-Z and its usual numeral value is less than b; every other character ends the number.", "quantifier": "every byte value and every base 2..36", "why_tests_cant": "the claim is about all 256 characters in all 35 bases; tests sample a few", "anchors": ["include/emio/detail/conversion.hpp: char_to_digit, isdigit", "include/emio/reader.hpp: detail::parse_int"]}
{"id": "C04", "title": "a reader never leaves its input", "statement": "After any sequence of reader operations, successful or failing, view_remaining() is the suffix of the original input that starts at pos(), and pos() + cnt_remaining() is its length.", "quantifier": "every input and every finite history of pop/unpop/peek/read_*/parse_int/subreader calls with arbitrary arguments", "why_tests_cant": "histories are unbounded", "anchors": ["include/emio/reader.hpp: class reader"]}
{"id": "C05", "title": "read_until stops at the first match", "statement": "read_until_char/str/any_of/none_of/predicate returns the text before the first position at which the delimiter matches; without a match it returns all remaining input, or err::invalid_data with the position unchanged when ignore_eof is set; on empty input err::eof. include_delimiter and keep_delimiter decide exactly whether the delimiter is returned/consumed.", "quantifier": "every input, delimiter (including empty and self-overlapping ones), predicate and option combination", "why_tests_cant": "first-occurrence for every string and pattern cannot be enumerated", "anchors": ["include/emio/reader.hpp: read_until_char, read_until_str, read_until_any_of, read_until_none_of, read_until, read_until_pos, read_until_match"]}
{"id": "C06", "title": "fixed-size reads are all or nothing", "statement": "read_char, read_n_chars, read_if_match_char and read_if_match_str consume exactly the returned characters on success and nothing on failure; the match variants succeed iff the remaining input starts with the given character/string (err::eof when too short for a character, err::invalid_data otherwise).", "quantifier": "every input, count and pattern", "why_tests_cant": "unbounded inputs", "anchors": ["include/emio/reader.hpp: read_char, read_n_chars, read_if_match_char, read_if_match_str, peek"]}
{"id": "C07", "title": "subreader is a window of the remaining input", "statement": "subreader(pos, len) yields a reader over exactly the characters [pos, pos+len) of the remaining input (clipped to its end), err::eof if pos lies beyond the end, and never a window outside the input.", "quantifier": "every input, every size_t pos and len (including npos)", "why_tests_cant": "the wrap-around only shows for positions close to 2^64", "anchors": ["include/emio/reader.hpp: reader::subreader"]}
{"id": "C08", "title": "write_int emits the canonical numeral", "statement": "writer::write_int(n, base, upper) appends an optional '-' and the canonical base-b numeral of |n| (no leading zeros, '0' for zero, requested letter case) for every n including the minimum of a signed type; a base outside 2..36 gives err::invalid_argument and writes nothing.", "quantifier": "every integer of every width 8..64 bit, every base, both cases", "why_tests_cant": "2^64 values times 35 bases times 2 cases", "anchors": ["include/emio/writer.hpp: write_int, write_int_impl", "include/emio/detail/conversion.hpp: write_number, write_decimal, write_uint, get_number_of_digits, to_absolute"]}
{"id": "C09", "title": "write_int and parse_int are inverse", "statement": "Parsing the text produced by write_int with the same base and type gives back the same number and consumes all of the text.", "quantifier": "every integer of every type, every base 2..36, both cases", "why_tests_cant": "infinite domain of (value, base, case)", "anchors": ["include/emio/writer.hpp: write_int", "include/emio/reader.hpp: parse_int"]}
{"id": "C10", "title": "the digit count computed in advance is exact", "statement": "The number of digits computed before writing an integer equals the number of digits subsequently written, so that the write area requested from the buffer is filled exactly (no byte before, after or left out).", "quantifier": "every unsigned 32/64 bit value and every base 2..36", "why_tests_cant": "2^64 values; off-by-one around powers of every base", "anchors": ["include/emio/detail/conversion.hpp: get_number_of_digits, count_digits, count_digits_10, write_number", "include/emio/writer.hpp: write_int_impl"]}
{"id": "C11", "title": "writing to a fixed-size buffer never leaves the span and fails exactly when it does not fit", "statement": "For span_buffer and static_buffer, get_write_area_of(n) succeeds iff n more characters fit; on success the area is exactly the next n characters of the storage; on failure the result is err::eof and view() is unchanged. view() is always the concatenation of everything written.", "quantifier": "every capacity and every history of requests", "why_tests_cant": "unbounded histories", "anchors": ["include/emio/buffer.hpp: buffer, span_buffer, static_buffer"]}
{"id": "C12", "title": "memory_buffer holds exactly what was written", "statement": "After any sequence of area requests (each area being filled by the caller) and resets, requests always succeed, areas lie within the allocated storage, and view() equals the concatenation of everything written since the last reset, across all reallocations.", "quantifier": "every internal storage size, initial capacity and history of requests", "why_tests_cant": "unbounded histories with reallocation", "anchors": ["include/emio/buffer.hpp: memory_buffer", "include/emio/detail/ct_vector.hpp: ct_vector::reserve"]}
{"id": "C13", "title": "copied and moved memory_buffers behave like fresh ones with the same content", "statement": "After copy/move construction or assignment the target has the source's content, and writing on to it keeps C12 (contents, in-bounds) for every later history; the moved-from buffer is empty and usable.", "quantifier": "every pair of buffer histories before the copy/move and every history after it", "why_tests_cant": "needs particular combinations of grown target, small source and later writes", "anchors": ["include/emio/buffer.hpp: memory_buffer copy/move operations", "include/emio/detail/ct_vector.hpp: ct_vector copy/move operations"]}
{"id": "C14", "title": "iterator_buffer delivers every character once and in order", "statement": "For an output-iterator-backed buffer with any cache size >= 1, after flush() (or out()) the iterator has received exactly the concatenation of all written areas, in order.", "quantifier": "every cache size and every history of requests and flushes", "why_tests_cant": "unbounded histories", "anchors": ["include/emio/buffer.hpp: iterator_buffer (generic)"]}
{"id": "C15", "title": "back_inserter-backed buffers append to their container", "statement": "For iterator_buffer over a std::back_insert_iterator, every area handed out lies inside the container, and after flush() the container is its previous content followed by everything written.", "quantifier": "every container content, capacity, growth policy and history of requests", "why_tests_cant": "the violation needs a second growth after a non-empty use", "anchors": ["include/emio/buffer.hpp: iterator_buffer<std::back_insert_iterator<Container>>"]}
{"id": "C16", "title": "file_buffer hands every character to the stream once and in order", "statement": "As long as the stream accepts all bytes, after flush() the stream has received exactly the concatenation of all written areas; if the stream accepts fewer bytes flush reports err::eof, and repeating flush does not deliver bytes a second time.", "quantifier": "every history and every behaviour of the stream (bytes accepted per call)", "why_tests_cant": "all crash/short-write points of the stream", "anchors": ["include/emio/buffer.hpp: file_buffer"]}
{"id": "C17", "title": "counting_buffer counts exactly", "statement": "count() equals the total number of characters written, for every history.", "quantifier": "every cache size and history", "why_tests_cant": "unbounded histories", "anchors": ["include/emio/buffer.hpp: counting_buffer"]}
{"id": "C18", "title": "truncating_buffer passes the first n characters and counts all", "statement": "After flush(), the primary buffer has received exactly the first n of the characters written and count() is the number of all characters written.", "quantifier": "every limit, cache size, primary buffer and history", "why_tests_cant": "depends on how the primary splits its areas", "anchors": ["include/emio/buffer.hpp: truncating_buffer"]}
{"id": "C19", "title": "write_str and write_char_n append everything or an exact prefix", "statement": "On every buffer, write_str(s) (write_char_n) either succeeds and has appended exactly s, or fails with the buffer's error and has appended a proper prefix of s; on a fixed-size buffer the failing prefix fills the buffer.", "quantifier": "every string and every conforming buffer, however it splits the requested areas", "why_tests_cant": "ranges over all buffer implementations", "anchors": ["include/emio/writer.hpp: write_str, write_char_n, write_char"]}
{"id": "C20", "title": "escaped output does not depend on how the buffer splits areas", "statement": "write_str_escaped(s)/write_char_escaped(c) append exactly quote + escape(s) + quote whatever areas the buffer hands out, where escape maps \\n, \\r, \\t, \\\\ and quotes to two-character escapes, other non-printable bytes to \\x.. and everything else to itself.", "quantifier": "every byte string and every sequence of area sizes >= 1", "why_tests_cant": "splits in the middle of an escape sequence at every position", "anchors": ["include/emio/detail/utf.hpp: count_size_when_escaped, write_escaped_helper, write_str_escaped", "include/emio/writer.hpp: write_str_escaped, write_char_escaped"]}
{"id": "C21", "title": "escaping is unambiguous and printable", "statement": "The escaped text consists of printable ASCII only, contains no unescaped quote, and the original bytes can be recovered from it (escaping is injective).", "quantifier": "every byte string", "why_tests_cant": "infinite set of strings", "anchors": ["include/emio/detail/utf.hpp: write_escaped_helper, needs_escape"]}
{"id": "C22", "title": "an accepted format string is processed without error or undefined behaviour", "statement": "If a format string is accepted by validation for given argument types, formatting with arguments of these types reads exactly the validated text (no out-of-range read, no failed assumption) and does not return err::invalid_format.", "quantifier": "every format string, every list of argument types, every argument value", "why_tests_cant": "all strings", "anchors": ["include/emio/detail/parser.hpp: parser, parser_base", "include/emio/detail/format/formatter.hpp: validate_format_specs, parse_format_specs, check_*_specs, make_write_int_options", "include/emio/formatter.hpp: formatter"]}
{"id": "C23", "title": "validation guarantees that every argument is used and every index is in range", "statement": "A format string accepted for n arguments refers only to argument numbers < n, refers to every argument at least once, and does not mix automatic with explicit numbering.", "quantifier": "every string and every n", "why_tests_cant": "all strings; {255} is special", "anchors": ["include/emio/detail/parser.hpp: parser::validate", "include/emio/detail/bitset.hpp: bitset"]}
{"id": "C24", "title": "literal text is reproduced exactly", "statement": "Formatting yields the literal text of the format string in order, with {{ and }} replaced by { and }, and each replacement field replaced by the rendering of its argument; nothing is dropped, duplicated or reordered.", "quantifier": "every accepted format string and every argument list", "why_tests_cant": "all strings", "anchors": ["include/emio/detail/parser.hpp: parser_base::parse, parser::apply, parser::parse"]}
{"id": "C25", "title": "a format string without replacement fields formats to itself", "statement": "The shortcut taken for plain strings yields the same result as the general path: a string without braces is copied verbatim.", "quantifier": "every string", "why_tests_cant": "all strings", "anchors": ["include/emio/detail/validated_string_storage.hpp: check_if_plain_string, from", "include/emio/format.hpp: vformat_to"]}
{"id": "C26", "title": "automatic numbering is left-to-right numbering", "statement": "A format string with k automatic fields behaves exactly like the one with explicit numbers 0..k-1 in the same places.", "quantifier": "every format string", "why_tests_cant": "all strings", "anchors": ["include/emio/detail/parser.hpp: parse_replacement_field"]}
{"id": "C27", "title": "validation and parsing of a format spec agree", "statement": "For every spec text accepted by validation, formatting-time parsing consumes exactly the same characters and obtains the same fill, alignment, sign, #, 0, width, precision and type.", "quantifier": "every spec text followed by any text", "why_tests_cant": "all strings", "anchors": ["include/emio/detail/format/formatter.hpp: validate_format_specs, parse_format_specs"]}
{"id": "C28", "title": "a format spec means what its grammar says", "statement": "The text [[fill]align][sign][#][0][width][.precision][type]} built from any components is parsed back to exactly these components.", "quantifier": "every fill character, alignment, sign, flag, width, precision and type", "why_tests_cant": "combinatorial and unbounded numbers", "anchors": ["include/emio/detail/format/formatter.hpp: validate_format_specs, parse_format_specs"]}
{"id": "C29", "title": "widths and precisions that do not fit are rejected", "statement": "A width or precision in a format spec is either taken at its decimal value or the format string is rejected.", "quantifier": "every digit string", "why_tests_cant": "wrap-around happens only for particular long digit strings", "anchors": ["include/emio/detail/format/formatter.hpp: validate_format_specs", "include/emio/reader.hpp: detail::parse_int"]}
{"id": "C30", "title": "integer arguments are rendered as specified", "statement": "Formatting an integer yields padding + sign + prefix + zero fill + numeral + padding as defined by fill, alignment, sign, #, 0, width and type (b,B,o,d,x,X,c).", "quantifier": "every integer of every type and every accepted spec", "why_tests_cant": "all values and specs", "anchors": ["include/emio/detail/format/formatter.hpp: write_arg(integral), make_write_int_options, try_write_sign, try_write_prefix"]}
{"id": "C31", "title": "the minimum width is met exactly", "statement": "The rendering of an argument with width w and content c has exactly max(w, |c|) characters, consisting of the content and fill characters placed according to the alignment (left, right, centered with the extra character on the right).", "quantifier": "every content, fill, alignment and width; every argument kind (integer, character, string, bool, pointer, floating point, debug forms)", "why_tests_cant": "all combinations", "anchors": ["include/emio/detail/format/formatter.hpp: write_padding_left, write_padding_right, write_padded, write_arg"]}
{"id": "C32", "title": "string precision truncates and nothing else", "statement": "Formatting a string with precision p yields the first min(p, length) characters, padded; without precision the entire string; with ? the quoted escaped string.", "quantifier": "every string and spec", "why_tests_cant": "all strings", "anchors": ["include/emio/detail/format/formatter.hpp: write_arg(string_view)"]}
{"id": "C33", "title": "bool, char and pointer arguments are rendered as specified", "statement": "bool gives true/false or the integer forms, char its character or code, pointer 0x followed by the hexadecimal address; all padded as specified.", "quantifier": "every value and accepted spec", "why_tests_cant": "all specs", "anchors": ["include/emio/detail/format/formatter.hpp: write_arg(bool/char/pointer)"]}
{"id": "C34", "title": "the output does not depend on the buffer", "statement": "For given format string and arguments, all buffers that accept all characters receive the same characters; formatted_size equals the length of what format returns, and format_to through any iterator writes the same text.", "quantifier": "every format string, argument list and buffer kind", "why_tests_cant": "needs outputs that exceed internal cache sizes in one piece", "anchors": ["include/emio/format.hpp: formatted_size, format, format_to, print", "include/emio/buffer.hpp"]}
{"id": "C35", "title": "format_to a too small buffer keeps a prefix and reports eof", "statement": "format_to(buffer) on a fixed-size buffer succeeds iff the whole output fits; otherwise it returns err::eof and the buffer holds a prefix of the full output.", "quantifier": "every capacity and output", "why_tests_cant": "all capacities", "anchors": ["include/emio/format.hpp: format_to, vformat_to"]}
{"id": "C36", "title": "format_to_n writes the first n characters and reports the full size", "statement": "format_to_n(out, n, ...) writes exactly the first min(n, size) characters of what format returns to out and reports the total size.", "quantifier": "every n, format string and arguments", "why_tests_cant": "all n and outputs", "anchors": ["include/emio/format.hpp: format_to_n, vformat_to_n", "include/emio/iterator.hpp: truncating_iterator", "include/emio/buffer.hpp: truncating_buffer"]}
{"id": "C37", "title": "println is print plus a newline", "statement": "println(f, args) sends to the stream exactly what print(f, args) sends followed by a newline.", "quantifier": "every format string and arguments", "why_tests_cant": "all outputs", "anchors": ["include/emio/format.hpp: vprint, vprintln"]}
{"id": "C38", "title": "every double is decoded exactly", "statement": "Decoding a double yields its class (nan, infinity, zero, finite), sign, and for finite values a mantissa/exponent pair denoting exactly its value and exactly half the distances to its neighbours (the lower one at a power of two).", "quantifier": "all 2^64 bit patterns", "why_tests_cant": "2^64 patterns", "anchors": ["include/emio/detail/format/decode.hpp: decode"]}
{"id": "C39", "title": "shortest formatting round-trips", "statement": "The digits printed for {} of a finite double denote a decimal number that lies inside the double's round-to-nearest-even interval, so reading it back gives the same double.", "quantifier": "every finite non-zero double", "why_tests_cant": "2^64 values", "anchors": ["include/emio/detail/format/dragon.hpp: format_shortest", "include/emio/detail/bignum.hpp"]}
{"id": "C40", "title": "shortest formatting is shortest and closest", "statement": "No decimal with fewer significant digits lies in the rounding interval, and among those with the same number of digits the printed one is closest to the value.", "quantifier": "every finite non-zero double", "why_tests_cant": "minimality quantifies over all decimals for all doubles", "anchors": ["include/emio/detail/format/dragon.hpp: format_shortest"]}
{"id": "C41", "title": "shortest formatting never needs more than 17 digits", "statement": "Generation of the shortest digits terminates after at most 17 digits, never carries out of the digit buffer, and never writes outside it.", "quantifier": "every finite non-zero double", "why_tests_cant": "2^64 values", "anchors": ["include/emio/detail/format/dragon.hpp: format_shortest, round_up"]}
{"id": "C42", "title": "fixed and significant-digit formatting is correctly rounded", "statement": "With precision p the digits are the value rounded half-to-even to p decimals (f) or to p significant digits (e, g) \u2014 the exact value of the double, not an approximation.", "quantifier": "every finite double and every precision", "why_tests_cant": "ties and carries for all values and precisions", "anchors": ["include/emio/detail/format/dragon.hpp: format_exact, round_up"]}
{"id": "C43", "title": "the fixed-size big integers never overflow", "statement": "During formatting of any finite double with any precision all big-integer operations are exact natural-number arithmetic and stay within the fixed number of blocks (no out-of-bounds block access).", "quantifier": "every finite double and every precision", "why_tests_cant": "the extreme is reached only near the ends of the exponent range after several operations", "anchors": ["include/emio/detail/bignum.hpp: bignum", "include/emio/detail/format/dragon.hpp"]}
{"id": "C44", "title": "fixed notation prints exactly the requested decimals", "statement": "{:.pf} prints the correctly rounded value with exactly p digits after the decimal point.", "quantifier": "every finite double and every p", "why_tests_cant": "the violation needs a rounding carry below one", "anchors": ["include/emio/detail/format/formatter.hpp: write_decimal, format_decimal", "include/emio/detail/format/dragon.hpp: format_exact"]}
{"id": "C45", "title": "exponent notation denotes the rounded value", "statement": "{:.pe} prints d.ddd (p decimals) e followed by sign and at least two exponent digits, denoting exactly the rounded value.", "quantifier": "every finite double and p", "why_tests_cant": "all values", "anchors": ["include/emio/detail/format/formatter.hpp: write_decimal, write_exponent"]}
{"id": "C46", "title": "non-finite values ignore zero padding", "statement": "inf/nan (INF/NAN for upper-case types) are printed with the sign rules and padded, with blanks instead of zeros when the 0 flag is given.", "quantifier": "all nan/inf bit patterns and specs", "why_tests_cant": "all specs", "anchors": ["include/emio/detail/format/formatter.hpp: write_non_finite, write_arg(double)"]}
{"id": "C47", "title": "scanning what was formatted gives the number back", "statement": "For every integer type and the specs '', d, x, o, b, with or without #, scanning the text produced by format with the same format string yields the same number.", "quantifier": "every integer, every such spec", "why_tests_cant": "all values", "anchors": ["include/emio/detail/scan/scanner.hpp: read_arg, parse_alternate_form, determine_base", "include/emio/scan.hpp"]}
{"id": "C48", "title": "scan consumes the whole input or reports an error", "statement": "scan succeeds only if the literals match, every field is read and no input is left; scan_from leaves the reader exactly behind the last matched character.", "quantifier": "every input and format string", "why_tests_cant": "all strings", "anchors": ["include/emio/scan.hpp: vscan, scan, scan_from", "include/emio/detail/scan/parser.hpp"]}
{"id": "C49", "title": "an integer field with width reads exactly that many characters", "statement": "A scan field of width w reads exactly w characters, all of which belong to the number; otherwise an error is reported and the reader is not moved.", "quantifier": "every input and width", "why_tests_cant": "all strings", "anchors": ["include/emio/detail/scan/scanner.hpp: read_arg(integral)"]}
{"id": "C50", "title": "scanning into narrow integers is range checked", "statement": "Scanning into an integer type narrower than int stores the number iff it is representable and otherwise returns err::out_of_range without changing the variable.", "quantifier": "every input and narrow type", "why_tests_cant": "all strings", "anchors": ["include/emio/scanner.hpp: scanner (narrow integers)"]}
{"id": "C51", "title": "base detection accepts every prefixed or plain number", "statement": "With '#', a number written as 0x.., 0b.., 0.. or plain decimal is read in that base; a single 0 is zero whatever follows.", "quantifier": "every input", "why_tests_cant": "all strings", "anchors": ["include/emio/detail/scan/scanner.hpp: determine_base, parse_alternate_form"]}
{"id": "C52", "title": "a string field reads up to the first occurrence of the following text", "statement": "A string field without width, followed by literal text L, stores exactly the input before the first occurrence of L.", "quantifier": "every input and every literal (including escaped braces and self-overlapping literals)", "why_tests_cant": "needs overlapping patterns", "anchors": ["include/emio/detail/scan/scanner.hpp: read_string, read_string_complex"]}
{"id": "C53", "title": "ranges are rendered element by element", "statement": "A range is rendered as opening bracket, the elements' renderings separated by ', ', and closing bracket; with n without brackets; for every length including 0.", "quantifier": "every range length and element renderings", "why_tests_cant": "unbounded length", "anchors": ["include/emio/ranges.hpp: formatter (range)"]}
{"id": "C54", "title": "formatting a tuple leaves the rest of the format string alone", "statement": "The replacement field of a tuple or pair is followed by the remaining format text exactly as for any other argument.", "quantifier": "every format string with tuple arguments, at any position", "why_tests_cant": "needs text behind the field", "anchors": ["include/emio/ranges.hpp: formatter (tuple)"]}
{"id": "C55", "title": "optional and variant render their content", "statement": "An engaged optional renders optional(...), an empty one none, a variant renders variant(...) of the active alternative, for every content.", "quantifier": "every content and alternative", "why_tests_cant": "all contents", "anchors": ["include/emio/std.hpp"]}
{"id": "C56", "title": "the truncating iterator forwards exactly the first n assignments", "statement": "Through a truncating iterator with limit n, exactly the first n assigned characters reach the underlying iterator and count() is the number of all.", "quantifier": "every n and every sequence of assignments", "why_tests_cant": "unbounded sequences", "anchors": ["include/emio/iterator.hpp: truncating_iterator"]}
{"id": "C57", "title": "the set of seen argument numbers is exact", "statement": "After any sequence of set(i), all_first(n) holds iff every i < n has been set, and all() iff every bit has been set; set terminates exactly for positions outside the set.", "quantifier": "every size, every sequence", "why_tests_cant": "unbounded sequences, word boundaries", "anchors": ["include/emio/detail/bitset.hpp: bitset"]}
{"id": "C58", "title": "scanning has no undefined behaviour", "statement": "scan and scan_from never overflow, read outside of the input or of the scan string, whatever the input and the scan string are: they succeed or report an error.", "quantifier": "every input, scan string and list of variables", "why_tests_cant": "inputs and scan strings are unbounded; the overflow only shows for particular numbers", "anchors": ["include/emio/scan.hpp: scan, scan_from", "include/emio/detail/scan/scanner.hpp: read_arg, read_string, read_string_complex", "include/emio/reader.hpp: detail::parse_int"]}
{"id": "C59", "title": "exactly the well-formed scan strings are accepted", "statement": "A scan string is accepted iff it is literal text (braces doubled) and replacement fields [#][width][type] whose numbers are given always or never, which use exactly the variables passed, and whose specifications are allowed for the types of the variables; otherwise err::invalid_format is returned and neither the input nor a variable is changed.", "quantifier": "every string and every list of variable types", "why_tests_cant": "unbounded strings", "anchors": ["include/emio/scan.hpp: scan_from, valid_format_scan_string", "include/emio/scanner.hpp: scanner::validate", "include/emio/detail/parser.hpp: parse, parse_replacement_field"]}
{"id": "C60", "title": "a dynamic width or precision acts as if written in the format string", "statement": "Formatting value with format_spec{width, precision} gives the same result as writing that width and precision in the replacement field of the value (a negative one acts as zero, and not_defined, which is -2147483647, as none), for every type that takes them, and in ranges for the elements.", "quantifier": "every specification, width, precision and value", "why_tests_cant": "the product of all specifications, widths, precisions and values is unbounded", "anchors": ["include/emio/formatter.hpp: format_spec, format_spec_with_value, formatter<format_spec_with_value>"]}
{"id": "C61", "title": "accepted format strings succeed for ranges, optionals and variants", "statement": "Validation of any string with arguments of nested range, optional and variant types comes to a result; if the string is accepted, formatting succeeds for all values of those types.", "quantifier": "every string, every nested type, every value", "why_tests_cant": "types, strings and values are unbounded", "anchors": ["include/emio/ranges.hpp", "include/emio/std.hpp", "include/emio/detail/parser.hpp: parse, validate"]}
{"id": "C62", "title": "nested format arguments render the nested text", "statement": "An argument made with make_format_args(str, args...) is replaced by exactly the text which format(str, args...) gives, and fails iff that fails.", "quantifier": "every outer and nested format string and arguments", "why_tests_cant": "unbounded nesting and strings", "anchors": ["include/emio/detail/format/format_to.hpp: formatter<format_args>"]}
{"id": "C63", "title": "exactly the well-formed format strings are accepted", "statement": "A format string is accepted for a list of arguments iff it is literal text (braces doubled) and replacement fields [number][:spec], all of them numbered or none, which use exactly the arguments passed, and whose specifications are allowed for the types of the arguments; for every other string err::invalid_format is returned and nothing is written.", "quantifier": "every string and every list of core arguments", "why_tests_cant": "unbounded strings", "anchors": ["include/emio/detail/parser.hpp: parse, parse_replacement_field, validate", "include/emio/formatter.hpp: formatter::validate"]}
{"id": "C64", "title": "all formatting functions produce the same text", "statement": "For every format string and arguments of every type (nested ranges, tuples, optionals, variants, dynamic specifications, nested format strings): format, format_to on every kind of buffer with any past, to pointers and iterators, formatted_size, format_to_n, print and println all produce (or count, or cut) the same text.", "quantifier": "every string, every list of arguments of every type, every buffer state", "why_tests_cant": "the product of types, strings, values and buffer states is unbounded", "anchors": ["include/emio/format.hpp", "include/emio/buffer.hpp"]}
{"id": "C65", "title": "the big integer operations are exact", "statement": "add_small, sub_small, mul, mul_digits and div_rem_small of the big integer compute the exact sum, difference, product, quotient and remainder, get_bit reads the exact bit, and afterwards the number compares, and can be used in further operations, like every other number of that value.", "quantifier": "every number of up to 34 blocks, every operand", "why_tests_cant": "numbers of up to 1088 bits", "anchors": ["include/emio/detail/bignum.hpp: bignum"]}
{"id": "C66", "title": "results hold a value or an error, and errors are passed on unchanged", "statement": "A result answers has_value, value, assume_value, error, value_or and comparisons according to the value or error it was made of; value() of an error throws that error; EMIO_TRY runs the rest exactly if the expression succeeded and otherwise returns its error; a chain of them stops at the first error.", "quantifier": "every value type, error and chain of operations of any length", "why_tests_cant": "all types and unbounded chains", "anchors": ["include/emio/result.hpp: result, err, to_string, throw_bad_result_access", "include/emio/result.hpp: EMIO_TRYV, EMIO_TRY"]}
{"id": "C67", "title": "a valid format string is valid however it was obtained", "statement": "Every valid_format_string object, whether made from a literal, with from() or with as_valid() (repeatedly, through copies), holds a string that validation accepts for its argument types, and formatting it is formatting that string; as_valid and from succeed exactly for accepted strings; empty() holds exactly for the empty string.", "quantifier": "every way of obtaining the object, every string, every list of arguments", "why_tests_cant": "histories of conversions and strings are unbounded", "anchors": ["include/emio/detail/validated_string.hpp: validated_string, valid_string", "include/emio/detail/validated_string_storage.hpp: validated_string_storage"]}
{"id": "C68", "title": "formatting with a valid format string never throws", "statement": "The overloads of format, formatted_size, print and println that return no result ('the formatting can never fail') return for every valid format string and all arguments.", "quantifier": "every valid format string, all arguments", "why_tests_cant": "all strings and values", "anchors": ["include/emio/format.hpp: format, formatted_size, print, println"]}
{"id": "C69", "title": "constant expressions give the same results as run time", "statement": "Validation, formatting and scanning in a constant expression, where arguments are not type-erased and the C library is replaced by loops, give the same result as at run time for every string, arguments and input (undefined behaviour at run time is a compile-time error).", "quantifier": "every string, every list of arguments, every buffer and input", "why_tests_cant": "unit tests compare a few strings", "anchors": ["include/emio/detail/parser.hpp: parser::apply, validate, parse", "include/emio/detail/conversion.hpp: fill_n, copy_n, equal_n", "include/emio/detail/format/format_to.hpp: format_to, format_trait", "include/emio/detail/scan/scan_from.hpp: scan_from, scan_trait", "include/emio/detail/validated_string_storage.hpp: check_if_plain_string"]}
{"id": "C70", "title": "values of other types are formatted as the core value they stand for", "statement": "Integers of every width, floats, enumerators, character pointers, strings, and types with format_as (nested to any depth) are formatted as the core value with the same meaning: the same number, the float's exact value, the characters up to NUL.", "quantifier": "every type, value and specification", "why_tests_cant": "all values, any nesting", "anchors": ["include/emio/detail/format/formatter.hpp: unified_type", "include/emio/formatter.hpp: formatter (unified types, enums, format_as), ptr", "include/emio/std.hpp: formatter (exception, path)"]}
{"id": "C71", "title": "every formatting call comes to a result and hands out the beginning of one text", "statement": "For every format string (valid or not), every arguments and every behaviour of the output (short writes, too little room): each of the formatting functions returns without undefined behaviour; there is one text such that each function that succeeds has handed out (or counted, or cut) all of it, and each function that fails has handed out a beginning of it; the error is end-of-file if the output failed and invalid_format otherwise.", "quantifier": "every string, every list of arguments, every buffer state, every schedule of short writes, every cache content", "why_tests_cant": "the product of strings, values, buffer states and short writes is unbounded", "anchors": ["include/emio/format.hpp", "include/emio/buffer.hpp: file_buffer, iterator_buffer, truncating_buffer, counting_buffer"]}
{"id": "C72", "title": "user-defined formatters compose", "statement": "A user-defined formatter, with or without validate, that reads its specification up to and including the closing brace composes with all other arguments: in every format string each field is replaced by what the formatter writes for the specification of the field and literal text is kept; an error it reports is passed on by every function, after exactly the text before it; as long as formatters do not move back in the format string and parse what they validated, every string is handled without undefined behaviour and accepted strings fail with errors of the formatters only; a formatter that inherits from one of the library formats like it.", "quantifier": "every formatter, every format string, every list of arguments, every buffer state", "why_tests_cant": "formatters are arbitrary programs of the user", "anchors": ["include/emio/formatter.hpp: formatter", "include/emio/detail/format/formatter.hpp: validate_trait", "include/emio/detail/format/args.hpp: format_arg_trait", "docs/API.md: Formatter"]}
{"id": "C73", "title": "user-defined scanners compose", "statement": "A user-defined scanner, with or without validate, that reads its specification up to and including the closing brace composes with all others: literal text is matched and each field hands the input behind everything read before to the scanner of its variable, with the specification of the field; the first error of a scanner or mismatch ends the scan and later variables are not touched; as long as scanners do not move back in the scan string, parse what they validated and stay in the input, every string and input is handled without undefined behaviour, refused strings are reported before anything is read, and the only other errors are those of the scanners and of literal text; scanners of the library behave as ones of the user would; a scanner that inherits from another and scans a part of the variable scans like it and changes nothing else.", "quantifier": "every scanner, every scan string, every list of variables, every input", "why_tests_cant": "scanners are arbitrary programs of the user", "anchors": ["include/emio/scanner.hpp: scanner", "include/emio/detail/scan/args.hpp: scan_arg_trait", "include/emio/detail/scan/scan_from.hpp: vscan_from", "docs/API.md: Scanner"]}
{"id": "C74", "title": "stored format arguments stand for what they refer to when they are used", "statement": "Formatting later with the object of make_format_args is formatting, at that time, the string with scalars as they were when stored and with strings and other objects as they are then (of a C string as many characters as there were when stored); with scalars only, nothing that happens to memory in between matters; if a string or object does not exist anymore and the format string was accepted, formatting never succeeds, because every argument is used.", "quantifier": "every format string, every list of arguments, every change of memory in between, every buffer state", "why_tests_cant": "histories of memory between making and using are unbounded", "anchors": ["include/emio/detail/args.hpp: arg, args_storage", "include/emio/detail/format/formatter.hpp: unified_type", "include/emio/format.hpp: make_format_args, vformat_to", "docs/API.md: make_format_args"]}
{"id": "C75", "title": "scanning assigns exactly the variables that were given, also if one is given twice", "statement": "Scanning into variables, some of which may be the same, has the same result, consumes the same input and makes the same assignments in the same order as scanning into separate variables, each to the variable given; different variables get what separate variables get; no other memory is changed, with success or error.", "quantifier": "every scan string, every input, every list of variables with any aliasing, every memory", "why_tests_cant": "all aliasing patterns, strings and inputs", "anchors": ["include/emio/detail/args.hpp: arg, args_storage", "include/emio/detail/scan/args.hpp: scan_arg_trait", "include/emio/scan.hpp: make_scan_args, vscan_from, scan_from"]}
{"id": "C76", "title": "values written with a string are read back with it", "statement": "If integers, characters and strings are formatted with a string, and behind every integer something follows that does not look like a digit, and behind every string literal text without braces that the string does not contain, or nothing, then scanning the output with the same string succeeds and gives every variable its value. A zero must not be written by {:#o}, or by {:#} unless at the end. Fields with a width need no text between them: an integer must not be longer than the width, and shorter only if the width begins with 0; a string must have exactly that many characters; # needs a type.", "quantifier": "every such string with any fields in any order, repeated fields included, every list of values", "why_tests_cant": "all strings and values", "anchors": ["include/emio/format.hpp: format", "include/emio/scan.hpp: scan", "include/emio/scanner.hpp: scanner", "include/emio/formatter.hpp: formatter"]}
{"id": "C77", "title": "format strings can be put together", "statement": "If two format strings with automatic numbering are accepted for two lists of arguments, then one behind the other is accepted for both lists, one behind the other, and the result is the text of the first followed by the text of the second (or the error of the first that fails). Likewise for two strings with numbers for the same arguments.", "quantifier": "every two accepted format strings, all arguments", "why_tests_cant": "all strings and arguments", "anchors": ["include/emio/detail/format/parser.hpp: format_parser", "include/emio/detail/parser.hpp: parser_base::parse, parse_replacement_field", "include/emio/format.hpp: format"]}
{"id": "C78", "title": "argument numbers only select arguments", "statement": "Two accepted format strings with the same literal text and the same specifications, whose fields refer to equal arguments one by one, yield the same, however the arguments are numbered, ordered or repeated. In particular the arguments can be put in any order if the numbers are changed accordingly.", "quantifier": "every accepted format string, every order of the arguments", "why_tests_cant": "all strings, arguments and permutations", "anchors": ["include/emio/detail/parser.hpp: parser_base::parse_field_name", "include/emio/detail/format/parser.hpp: format_parser", "include/emio/format.hpp: format"]}
{"id": "C79", "title": "every scan has the outcome of a simple reading of the scan string", "statement": "For every accepted scan string, every list of variables and every input, what scan and scan_from do is what a small interpreter says that goes through the scan string part by part: which characters each field takes, the value it stores, where the input is left, which error is returned with which variables changed, and for which inputs the behaviour is undefined. Every other scan string is refused with invalid_format and without any effect. In particular the outcome does not depend on what comes before the reader's position.", "quantifier": "every scan string, all types of up to 128 variables, every input and position in it", "why_tests_cant": "all strings, all inputs", "anchors": ["include/emio/scan.hpp: scan, scan_from", "include/emio/detail/scan/scan_from.hpp: vscan_from", "include/emio/detail/scan/parser.hpp: scan_parser", "include/emio/scanner.hpp: scanner", "include/emio/reader.hpp: reader::parse_int, reader::read_until_str"]}
{"id": "C80", "title": "scan strings can be put together", "statement": "If two scan strings with automatic numbering are accepted for two lists of variables, then scanning with one behind the other, with the variables of both, does what scanning with the first and then, where it ended, with the second does: it succeeds exactly if both do, with the same values and the reader at the same place; if one fails, it fails, with the same variables changed. Likewise for two strings with numbers for the same variables. The last field of the first string must not be a string without width, which ends where the text behind it begins.", "quantifier": "every two accepted scan strings, all variables and inputs", "why_tests_cant": "all strings and inputs", "anchors": ["include/emio/detail/scan/parser.hpp: scan_parser", "include/emio/detail/parser.hpp: parser_base::parse", "include/emio/detail/scan/scan_from.hpp: vscan_from", "include/emio/scan.hpp: scan_from"]}
{"id": "C81", "title": "variable numbers of scan strings only select variables", "statement": "The variables of a scan can be put in any order if the numbers in the scan string are changed accordingly: the scan string is accepted as well, the same is read, the reader is left at the same place, the same error is returned, and every variable gets the same value.", "quantifier": "every accepted scan string with numbers, every order of the variables, every input", "why_tests_cant": "all strings, permutations and inputs", "anchors": ["include/emio/detail/parser.hpp: parser_base::parse_field_name", "include/emio/detail/scan/parser.hpp: scan_parser", "include/emio/scan.hpp: scan_from"]}
{"id": "C82", "title": "the default text of a value tells it apart from the other values of its type", "statement": "For any two values v and w of one formattable type made of bool, integers, characters, floating-point numbers, strings, pointers, ranges, maps, sets, non-empty tuples, optionals, variants and monostate, containing no NaN: if format(\"{}\", v) and format(\"{}\", w) are the same text then v and w are equal.  (So a log line with {} loses nothing.)  The code keeps this except for optional strings inside of ranges, tuples and variants, whose content is not quoted, and for variants with several alternatives of one kind (numbers, ranges and so on): variant<int, double> of 1 and of 1.0 are both variant(1).", "quantifier": "every type nested to any depth, every two values of it", "why_tests_cant": "A test shows a text for a value; that no other value of the type has the same text is a statement about all pairs of values.", "anchors": ["include/emio/std.hpp: formatter<std::optional>", "include/emio/ranges.hpp: formatter<range>, formatter<tuple>", "include/emio/detail/format/formatter.hpp: write_arg", "include/emio/writer.hpp: write_str_escaped, write_char_escaped"]}
{"id": "C83", "title": "formatting keeps the order of floating-point numbers", "statement": "For every specification that floating-point arguments allow and any two finite doubles a <= b: the number denoted by the text of a (with its sign) is not larger than the number denoted by the text of b; for {} (no type, no precision) a < b gives strictly ordered numbers.  Changing the sign of a number changes nothing but the sign of the text (fill characters aside).  Rounded texts are off by at most half a unit of the last digit shown.", "quantifier": "every pair of finite doubles, every specification allowed for them", "why_tests_cant": "Tests compare single texts; the order of the texts is a statement about all pairs of 2^64 numbers and every precision.", "anchors": ["include/emio/detail/format/dragon.hpp: format_shortest, format_exact", "include/emio/detail/format/formatter.hpp: write_decimal, format_decimal", "include/emio/detail/format/decode.hpp: decode"]}
{"id": "C84", "title": "which calls return a plain value, and when these throw", "statement": "With a valid format string, format, formatted_size, print and println return a plain value exactly if no argument has a formatter that declares it can fail, a result exactly if there are arguments and all of them declare it, and cannot be called with a mixture; with runtime strings and format_string objects they always return a result.  Whatever is returned is what formatting gives: a plain value that is returned is the value, and an error is thrown by its name.  If the users' formatters report errors of their own only where they declare it, a call of format that returns a plain value never throws, and formatted_size, print and println throw nothing but eof.", "quantifier": "all lists of arguments of every kind, all users' formatters, all valid strings, all ways the standard output behaves", "why_tests_cant": "Users write formatters for their own types and rely on the declaration; tests try a few combinations of arguments.", "anchors": ["include/emio/format.hpp: formatted_size, format, print, println", "include/emio/detail/format/formatter.hpp: format_can_fail_v", "include/emio/formatter.hpp: format_can_fail_v, format_can_fail", "include/emio/detail/format/format_to.hpp: formatter<format_args>"]}
{"id": "C85", "title": "upper-case types change nothing but the case of the text", "statement": "For every argument and every specification with one of the types b, x, e, f and g that the argument allows, with a fill character that is no lower-case letter: with B, X, E, F and G instead the call succeeds as well and its text is the text with the small letter in upper case, prefix, exponent, inf and nan included.", "quantifier": "every argument, every specification with such a type", "why_tests_cant": "all numbers, widths, precisions and fill characters", "anchors": ["include/emio/detail/format/formatter.hpp: write_arg, write_decimal, write_non_finite, write_prefix", "include/emio/detail/conversion.hpp: write_number, digit_to_char", "include/emio/formatter.hpp: formatter"]}
{"id": "C86", "title": "numbers filled up with zeros sort like the numbers", "statement": "Two non-negative integers formatted with the same specification with the zero flag to texts of the same length compare (character by character) like the numbers. If the width suffices for both, both texts have exactly that length, and different numbers have different texts.", "quantifier": "every two non-negative integers of any type, every base, width and sign", "why_tests_cant": "A statement about all pairs of numbers.", "anchors": ["include/emio/detail/format/formatter.hpp: write_arg, write_padding_left", "include/emio/detail/conversion.hpp: write_number", "include/emio/formatter.hpp: formatter"]}
{"id": "C87", "title": "how long a text can be is known from the format string and the types of the arguments", "statement": "For every accepted format string and arguments of core types: whatever the values are, the text is not longer than the literal characters plus, for each field, the larger one of its width and of a number that depends on the type and the rest of the specification only: {} needs at most 4, 3, 6, 5, 11, 10, 20, 20 characters for int8, uint8, ..., int64, uint64, 5 for bool, 1 for char, 18 for pointers, 24 for double; {:e} 8 and {:f} 311 more than the precision; strings their length or precision, or four times as much plus 2 with {:?}.  So a static_buffer of that size is never too small for format_to.", "quantifier": "every accepted format string, all values of the arguments, every fixed-size buffer with any past", "why_tests_cant": "A test shows that a buffer is large enough for some values; the longest texts are those of few values among 2^64, and no test goes through all of them.", "anchors": ["include/emio/detail/format/formatter.hpp: write_arg, write_decimal, write_padded", "include/emio/buffer.hpp: static_buffer, span_buffer", "include/emio/format.hpp: format_to"]}
{"id": "C88", "title": "leaving out a part of a specification means the usual", "statement": "For every argument of a core type and every specification it allows, the result is the same if everything that is left out is written out: the fill character (a space), the alignment (numbers to the right, everything else to the left), the sign (-), the precision of floating-point numbers with a type (6) and the type (d for integers, s for bool and strings, c for char, p for pointers); a zero next to an alignment can be dropped. The specification written out is one that the argument allows.", "quantifier": "every argument of a core type, every specification its type allows", "why_tests_cant": "All combinations of a type, its presentation types and the parts of a specification that can be given or not, with all values; tests compare single texts.", "anchors": ["include/emio/detail/format/formatter.hpp: write_padded, write_arg, make_write_int_options, parse_fp_format_specs, try_write_sign, format_and_write_decimal", "include/emio/detail/format/formatter.hpp: parse_format_specs", "include/emio/formatter.hpp: formatter"]}
{"id": "C89", "title": "17 significant digits tell every double from all others", "statement": "A finite double formatted with e and a precision of at least 16, with g (or without a type) and a precision of at least 17, or with f and so many decimals that the number has 17 digits, is written as a literal that is read as exactly this double. So with e and g the texts of different doubles (0 and -0 included) are different if no width is given; 16 digits are not enough.", "quantifier": "every finite double, every specification that asks for that many digits", "why_tests_cant": "There are 2^64 doubles; that no two of them get the same text is a statement about all pairs.", "anchors": ["include/emio/detail/format/decode.hpp: decode", "include/emio/detail/format/dragon.hpp: format_exact", "include/emio/detail/format/formatter.hpp: format_decimal, write_decimal"]}
{"id": "C90", "title": "whole numbers are written alike as integers and as floating-point numbers", "statement": "If a double is the whole number n (and not -0) and |n| < 10^16, a specification for integers without a type and the alternate form gives the same text for the double as for n as an integer of any type. With .0f it is so for whole numbers of any size. The result for an integer does not depend on its type, whatever the specification is.", "quantifier": "every integer type, every whole number, every specification without a type", "why_tests_cant": "Every whole number below 10^16 and every width, fill character, alignment and sign; the digits of a double are found by an algorithm that does not know that it is a whole number.", "anchors": ["include/emio/detail/format/dragon.hpp: format_shortest, format_exact", "include/emio/detail/format/formatter.hpp: format_decimal, write_decimal, write_arg", "include/emio/detail/conversion.hpp: write_number"]}
{"id": "C91", "title": "a type that can be formatted in one way only is formatted in that way", "statement": "bool, char, integers, float and double, void pointers, what a string_view can be made from, unscoped enumerations (as their numbers), types with a format_as (as what it returns), ranges, tuples, optionals and variants whose parts can be formatted, exceptions, paths and monostate can be formatted, each with the formatter for that way and to any depth; nothing else can be, without a formatter written by the user: not long double, pointers to objects, scoped enumerations or classes with nothing of the above, nor containers of these.  A program that formats what cannot be formatted does not compile.  The code keeps this for types with one way only, but a type with two of the ways (say an unscoped enumeration with a format_as) does not compile at all, and a format_as that returns a reference is not seen or seen differently.", "quantifier": "every C++ type built from these, nested to any depth", "why_tests_cant": "Tests instantiate formatters for a few types; which of many constrained specialisations is chosen is a statement about all types.", "anchors": ["include/emio/formatter.hpp: formatter, is_formattable_v", "include/emio/ranges.hpp: formatter", "include/emio/std.hpp: formatter", "include/emio/detail/format/formatter.hpp: unified_type, has_format_as, is_core_type_v", "include/emio/detail/format/ranges.hpp: is_valid_range"]}
{"id": "C92", "title": "general notation is fixed or exponent notation, depending on the exponent", "statement": "A finite double formatted with g or G, or without a type but with a precision p, is written like %g of C does it: rounded (half to even) to p significant digits (at least one, 6 by default), in fixed notation if the exponent of the rounded number is at least -4 and less than p, and with the exponent otherwise; zeros at the end, and a point with nothing behind it, are dropped unless the alternate form is asked for.  The exponent is the one that e with the same number of digits shows.", "quantifier": "every finite double, every specification of this kind", "why_tests_cant": "All doubles and precisions; rounding up to the next power of ten changes the exponent and with it possibly the notation, for few numbers.", "anchors": ["include/emio/detail/format/formatter.hpp: write_decimal, format_decimal, parse_fp_format_specs", "include/emio/detail/format/dragon.hpp: format_exact"]}
{"id": "C93", "title": "an integer can be read off its text, whatever the specification is", "statement": "For every integer and every specification with one of the types d, x, X, b, B and o, or none: the digits (of that base) in the text denote the number, and there is a minus sign exactly if it is negative, if the fill character is neither such a digit nor a minus sign.  So integers of any types with the same text are equal.", "quantifier": "every integer of every type, every specification with such a type", "why_tests_cant": "A statement about all pairs of numbers, with all widths, fill characters, alignments, signs and prefixes.", "anchors": ["include/emio/detail/format/formatter.hpp: write_arg, make_write_int_options, try_write_sign, try_write_prefix", "include/emio/detail/conversion.hpp: write_number"]}
{"id": "C94", "title": "containers of values with a formatter of the user", "statement": "A range, set, optional, variant, tuple or map of values with a formatter written by the user formats each value with that formatter and the specification given for the elements (as for debugging if there is none and the formatter knows how to), puts the usual brackets and separators around the texts, and passes on the first error. Formatters inherited from those of the library and put into ranges, sets, tuples, maps and optionals do exactly what is done for the values they stand for, at any depth. What is accepted for a range can be formatted; what can be formatted can be put into containers; and a container of values that can fail says so. The last three do not hold: {} on a range is accepted without asking the formatter of the elements; formatters without validate, with a format that is not const, and those of variants cannot be put into ranges; and format with a container of values that can fail returns a plain value and throws.", "quantifier": "every formatter of the user, every value, every specification, any nesting", "why_tests_cant": "The formatters of containers are templates over all formatters; tests instantiate them with a few.", "anchors": ["include/emio/ranges.hpp: formatter", "include/emio/std.hpp: formatter", "include/emio/detail/format/ranges.hpp: maybe_set_debug_format", "docs/API.md: Formatter"]}
{"id": "C95", "title": "the shortest text of a float is read as that float, and 9 digits suffice", "statement": "A finite float formatted without type and precision is written so that the text, read and rounded to the nearest float, is that float, with as few digits as possible; and so is every float formatted with at least 9 significant digits. With 8 digits there are floats that are not told apart. The digits are not as few as possible: a float is converted to double first, so 0.1f is written as 0.10000000149011612.", "quantifier": "every finite float; every specification that asks for at least 9 digits", "why_tests_cant": "There are 2^32 floats and no bound on widths and precisions; and that no shorter text would do is a statement about all texts.", "anchors": ["include/emio/detail/format/formatter.hpp: unified_type, format_decimal", "include/emio/detail/format/dragon.hpp: format_shortest, format_exact"]}
{"id": "C96", "title": "a number and its negative are written alike but for the sign", "statement": "With + or a blank as sign for positive numbers, the texts of a number and of its negative differ in one character only, with any fill character, alignment, width, zeros, alternate form, precision and presentation type (but c). Without width, the text of the negative number is a minus sign followed by what the text of the number is after its sign. Which sign is asked for positive numbers makes no difference for negative numbers. This includes negative zero, the infinities, and NaN with its sign bit set.", "quantifier": "every integer and floating-point number, every specification allowed for it", "why_tests_cant": "The sign is written apart from the digits, by different code for integers, finite and non-finite numbers, with the padding before, between or after; pairs of inputs with all specifications.", "anchors": ["include/emio/detail/format/formatter.hpp: write_arg, try_write_sign, make_write_int_options, write_decimal, write_padded, write_non_finite", "include/emio/detail/format/decode.hpp: decode"]}
{"id": "C97", "title": "how many digits it takes to write a double exactly", "statement": "A finite double written with p decimals is off by at most half of the last decimal, and the text is exact exactly if the double has at most p decimals; likewise for significant digits. With 1074 decimals, or with 767 significant digits, every finite double is written exactly; with 1073 or 766 not every one is.", "quantifier": "every finite double, every specification with f, e or g or a precision", "why_tests_cant": "All doubles and precisions; the numbers that need the most digits are a tiny part of them.", "anchors": ["include/emio/detail/format/dragon.hpp: format_exact", "include/emio/detail/format/formatter.hpp: format_decimal, write_decimal"]}
{"id": "C98", "title": "the capacity of a memory_buffer follows what is written", "statement": "The capacity of a memory_buffer is always enough for the text, never shrinks, and is at most what the buffer began with plus the number of characters requested; it changes only when a request does not fit, then by what is requested, and reset keeps it. New memory is allocated a number of times that is at most logarithmic in the length of the text, so that the time to write a text is linear in its length. The last part does not hold: beyond the first capacity every single character written allocates new memory and copies the whole text.", "quantifier": "every inline storage and initial capacity, every history of requests, writes and resets; texts of any length", "why_tests_cant": "Histories of any length; the number of allocations is not visible in any single result.", "anchors": ["include/emio/buffer.hpp: memory_buffer, request_write_area, reset, capacity", "include/emio/detail/ct_vector.hpp: reserve"]}
{"id": "C99", "title": "a buffer of the user's own receives the formatted text", "statement": "A class derived from buffer whose request_write_area does what its documentation asks - it keeps what was written to the former write area, sets a new one, returns its beginning with the requested size as maximum, or refuses with end-of-file - receives exactly the text format gives, or a beginning of it if it refuses a request, whatever sizes it hands out. If it grants every request in full (for values of the core types: every request for up to 1421 characters), it receives the whole text. Writing to it always comes to an end. The last part does not hold as documented: an area may be empty, and then writing never ends; with areas that are not empty everything holds.", "quantifier": "every class derived from buffer that keeps the contract, every state of it, every format string and arguments of every kind", "why_tests_cant": "The class is not known to the library; the sizes of the areas it hands out can be anything and change with every request.", "anchors": ["include/emio/buffer.hpp: buffer, get_write_area_of, get_write_area_of_max, request_write_area, set_write_area", "include/emio/writer.hpp: write_str", "include/emio/format.hpp: format_to"]}
{"id": "C100", "title": "resetting a file_buffer starts the file over", "statement": "After reset() of a file_buffer, what is written goes to the beginning of the file: it overwrites what is there, and what lies behind the end of the new text stays. What was flushed before the reset is in the file as far as it was not overwritten; what was not flushed is dropped, which is at most as much as the cache holds, and never reaches the file later. If the stream has no position (a pipe), reset() only drops the characters that were not flushed, and the texts follow each other.", "quantifier": "every number of sessions between resets, each with every history of requests and flushes, every cache, every contents of the file before", "why_tests_cant": "Where the cache happens to be flushed by itself depends on the sizes of all requests before; what remains of older texts depends on all sessions before.", "anchors": ["include/emio/buffer.hpp: file_buffer, reset, flush, request_write_area"]}
{"id": "C101", "title": "texts printed by several threads are not mixed up", "statement": "print and println hand a text that, with its new line, has at most as many characters as the cache of file_buffer (128) to the stream in one call of fwrite (in none if it is empty). As such a call locks the stream, threads that print such texts at the same time never mix them up: whatever the order of their calls is, the stream gets the whole texts one after the other, those of each thread in the order in which it printed them. A longer text is handed over in several calls, in order and with no two neighbouring ones that would have fitted into the cache together; so another thread can write into the middle of it.", "quantifier": "every number of threads, every list of prints with arguments of every kind in each of them, every schedule of their calls, every size of the cache", "why_tests_cant": "The order of the calls is up to the scheduler, and how a text is cut depends on all requests made while it was formatted.", "anchors": ["include/emio/format.hpp: vprint, vprintln, print, println", "include/emio/buffer.hpp: file_buffer, flush, request_write_area"]}
{"id": "C102", "title": "data written field by field with a separator is read back", "statement": "A program that writes any number of fields with a writer, integers with write_int in any base and texts with write_str, each followed by a separator that is no digit of the numbers and does not occur in the texts, can read them with a reader - parse_int and read_if_match_char, or read_until_char - and gets the same data in the same order, wherever the text is in the input, and the reader then stands behind the last separator. This does not hold in bases above 10 for the separators ':' to '@', which parse_int takes for digits: hardware addresses and the like are misread.", "quantifier": "every list of fields of every kind, every integer type, value and base, every separator, every text before and behind", "why_tests_cant": "The number and the contents of the fields are unbounded; whether a separator is safe depends on the base and on all characters.", "anchors": ["include/emio/reader.hpp: parse_int, read_if_match_char, read_until_char", "include/emio/writer.hpp: write_int, write_str, write_char", "include/emio/detail/conversion.hpp: char_to_digit"]}
{"id": "C103", "title": "the memory of buffers is freed exactly once and never used afterwards", "statement": "However a program creates, grows, writes, reads, clears, copies, moves, assigns and destroys memory_buffers (and the vectors behind them): each block of memory they allocate is freed exactly once, no freed block is accessed, no two buffers share a block, and when all buffers are gone all memory is freed. Changing one buffer never changes another one.", "quantifier": "every program over any number of vectors with the operations they have, every size of the inline storage, every sizes and contents", "why_tests_cant": "Double frees and leaks depend on the whole history of copies, moves and growths of several objects.", "anchors": ["include/emio/detail/ct_vector.hpp: ct_vector, reserve, operator=, ~ct_vector, hold_external", "include/emio/buffer.hpp: memory_buffer"]}
{"id": "C104", "title": "strings of any length are padded to the width", "statement": "A string argument is formatted as its text - all of it, its first characters if there is a precision, or in quotes - surrounded by fill characters up to the width, whatever its length; one that has the width already is not padded. This holds for texts shown with less than 2^31 characters and, without a width, for all; beyond that, with a width, the length is taken modulo 2^32 as a signed number: a text of 2^31 characters with {:1} is undefined behaviour, and one of 2^32-1 gets two fill characters it must not have.", "quantifier": "every string of every length, every specification for strings", "why_tests_cant": "Tests do not format strings of gigabytes, and the length is unbounded.", "anchors": ["include/emio/detail/format/formatter.hpp: write_padding_left, write_padding_right, write_padded, write_arg"]}
{"id": "C105", "title": "lists and maps of integers can be read from the text they are formatted as", "statement": "A sequence or set of integers formatted with {}, or with {::d}, {::x}, {::X}, {::b}, {::B} or {::o}, gives a text from which a program that uses a reader - the opening bracket, then parse_int in the base of the type, read_char for the comma or the closing bracket and the blank - reads the same integers in the same order and ends behind the closing bracket, wherever the text is in its input. A map from integers to integers formatted with {} is read back likewise, with the colon between key and value.", "quantifier": "every integer type, every length of the list and all values, every such specification, every text in front and behind", "why_tests_cant": "The length of the list and the values are unbounded, and whether a number ends where it should depends on the characters behind it in every base.", "anchors": ["include/emio/ranges.hpp: formatter, parse, format", "include/emio/reader.hpp: parse_int, read_char, peek, read_if_match_char", "include/emio/detail/format/formatter.hpp: write_arg"]}
{"id": "C106", "title": "a number is never cut", "statement": "When format_to writes a field into a span_buffer that is too small, the result is end-of-file, and of the field only this is left: if the room ends in the padding - with the zero flag also in the sign, the base prefix and the zeros -, everything up to there; if it ends in the number itself, the padding before the number and nothing of the number. So a number in the buffer (an integer, an address or a finite floating-point number) always has all of its digits, never the first ones of a larger number. A string, in contrast, is cut exactly where the room ends, also within an escape sequence.", "quantifier": "every integer of every type, every address, every double, every string, every specification, every size and every past of the buffer", "why_tests_cant": "Whether digits are lost depends on the value, the width, the alignment and the room that is left; there are unboundedly many combinations.", "anchors": ["include/emio/detail/format/formatter.hpp: write_padded, write_padding_left, write_arg, try_write_sign, try_write_prefix", "include/emio/buffer.hpp: span_buffer, get_write_area_of", "include/emio/writer.hpp: write_char_n, write_str"]}
{"id": "C107", "title": "a larger buffer never keeps less", "statement": "If the same format string and arguments are formatted into two span_buffers (or static_buffers) with any past, what is kept in the one with less room left is a prefix of what is kept in the one with more room. If the first one did not report end-of-file, the second one gets exactly the same text and reports the same outcome. What is kept depends on nothing but the room that is left: not on the size of the buffer, nor on what has been written before.", "quantifier": "every format string, any arguments including tuples, ranges, run-time widths, nested format strings and values with a formatter of the user that uses the writer properly, any two buffers of any sizes and pasts", "why_tests_cant": "Pairs of runs with unboundedly many rooms and outputs; where a text is cut depends on the calls of the formatters.", "anchors": ["include/emio/buffer.hpp: span_buffer, static_buffer, get_write_area_of, get_write_area_of_max", "include/emio/writer.hpp: write_str, write_char, write_char_n, write_str_escaped", "include/emio/format.hpp: format_to"]}
