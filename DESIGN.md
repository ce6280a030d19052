# Formal model of emio: design

Target: Viatorus/emio (header only C++20 formatting and scanning library), sources in /repo/include/emio.
Model and proofs: Lean 4 in `lean/Verif`.  `properties.jsonl` lists the properties, `MANIFEST.json` maps them to theorems,
`seeded/LOG.jsonl` records the wrong programs the theorems were tested against.

## Approach

* Every modelled C++ function is a total Lean function with a comment citing file and lines (`Verif/Model`).
* Functions run in the outcome monad `M`: a state and either a value, an error (`err`), or `bad`.  Undefined behaviour
  (out-of-bounds access, signed overflow, failed `assume_value`, use after free), `std::terminate` and non-termination are
  the outcomes `bad .ub`, `bad .terminate` and `bad .diverge`; a theorem about success or errors therefore also excludes them.
* Loops are structural recursions, or recursions on a fuel whose exhaustion is `bad .diverge`; that it is never exhausted is
  part of the theorems.
* Specifications live in `Verif/Spec`, the theorems claimed in the manifest in `Verif/Props`, helper lemmas in `Verif/Lemmas`.
  A specification does not mention the model's functions: numerals are `Nat.digits` or positional values, format strings are
  lists of literal texts and fields, floating-point texts are characterised by rational numbers.
* Where the code violates a property, the property is written down as a `Prop`, its negation is proved on a concrete witness
  (suffix `_violated`), and the part that holds is proved under the suffix `_partial`.
* Beside the theorems, `example`s show that their hypotheses are met by concrete, non-trivial cases.
* To test the reading of the C++ code, `Verif/Conformance` evaluates the model on the checks of the library's own unit tests
  (/repo/test/unit_test) and compares with the results those tests expect: formatting, scanning, reader, writer, buffers,
  escaping, ranges and standard types, digit generation, big numbers, conversions; about a thousand checks, all of which the
  model passes.  The only expectations it does not share are those of the tests of signed overflow when scanning: the code
  relies on undefined behaviour there, and the model says so (see the disagreements of C01, C50, C58).  These are tests of
  the model, not proofs of properties, and no property rests on them.

## The model, by source file

| file in /repo/include/emio | model | not modelled |
|---|---|---|
| reader.hpp | Model/Reader.lean: all functions | |
| detail/conversion.hpp | Model/Conversion.lean: parse_int (reader.hpp), char_to_digit, digit counts, write_number/decimal/base-n, abs, isdigit/isalpha | |
| detail/utf.hpp, writer.hpp | Model/Writer.lean: all write functions, escaping | |
| buffer.hpp, detail/ct_vector.hpp | Model/HeapVec.lean: the vector with pointers into a heap, `new` and `delete`; Model/Buffer.lean: the base class and memory, span, pointer (format.hpp), string/iterator, back-insert, file, truncating, counting, static buffers; copy and move; Model/UserBuffer.lean: classes derived from `buffer` by a user; Model/FileReset.lean: `file_buffer::reset` and the position of the stream; Model/PrintCalls.lean: the calls of `fwrite` made by print and println | allocation failure; OS buffering behind `FILE` (an oracle for the number of written characters) |
| detail/bitset.hpp | Model/Bitset.lean | |
| detail/bignum.hpp | Model/Bignum.lean: all operations, at block level | |
| detail/format/decode.hpp, dragon.hpp | Model/Dragon.lean | |
| detail/format/specs.hpp, parts of detail/format/formatter.hpp | Model/FormatSpecs.lean: both specification parsers and the checks per type | |
| detail/format/formatter.hpp | Model/FormatArg.lean: write_arg of all core types, write_padding, write_decimal | |
| detail/parser.hpp, detail/format/parser.hpp, detail/format/format_to.hpp, validated_string_storage.hpp | Model/Parser.lean | |
| detail/format/args.hpp, detail/args.hpp | an argument is the pair of its `validate` and its `parse`-then-`format` (`FArg`); stored arguments as copies, views and references into a memory (`StoredArg`, `memArg`) | the layout of the storage: function pointers, `void*`, virtual functions |
| formatter.hpp, ranges.hpp, detail/format/ranges.hpp, std.hpp | Model/Values.lean: core types, ranges, tuples, optional, variant, monostate, dynamic specifications, nested format arguments; Model/UserFormatter.lean: user-defined formatters, Model/UserContainers.lean: containers of values with these | |
| unified_type (detail/format/formatter.hpp), formatters of enums, format_as, exceptions, paths, ptr | Model/Unified.lean | the overload resolution that selects them, see the next row |
| the constraints of the formatter specialisations, has_format_as, is_valid_range, is_valid_tuple | Model/Select.lean | formatters written by users for types that meet a concept as well; whether a type meets a concept is given with the type |
| branches for constant evaluation | Model/CompileTime.lean: validation, formatting, scanning, fill_n, copy_n, equal_n | |
| format.hpp, iterator.hpp | Model/Format.lean: format, format_to (buffer, iterator, pointer), format_to_n, formatted_size, print, println; Model/BackInsert.lean: format_to with a back-insert iterator | |
| result.hpp, detail/predef.hpp | Model/Result.lean: result<T>, result<void>, EMIO_TRY, EMIO_TRYV | what a moved-from value is (results of references do not exist: result.hpp:151) |
| detail/validated_string.hpp | Model/ValidString.lean: conversions and the throwing functions of format.hpp; Model/Overloads.lean: format_can_fail_v and the overloads it selects | the rest of overload resolution |
| scan.hpp, scanner.hpp, detail/scan/*.hpp | Model/Scan.lean; Model/UserScanner.lean: user-defined scanners | |

Not modelled at all: concepts and other template
machinery, lifetimes of temporaries, allocation failure.  `size_t` arithmetic is modelled in `Nat` except where
wrap-around matters (`subreader`, `parse_int`, widths and precisions, 16- and 8-bit counters).  A `char` is a Lean `Char`; the
theorems about escaping and digits state the range of bytes they hold for.  Development assertions
(`EMIO_Z_DEV_ASSERT`) are off, as in a release build.

## Trusted base

* Lean's kernel (4.33.0).
* The axioms `propext`, `Classical.choice` and `Quot.sound` of Lean; the axioms of each theorem are listed below (P = `propext`,
  C = `Classical.choice`, Q = `Quot.sound`).  No axioms of our own, no `sorry`, no `native_decide`, no `bv_decide`.
* The reading of the C++ code embodied in the model files, and of the English properties embodied in `Verif/Spec` and the
  statements in `Verif/Props`.

## Disagreements between the code and the properties

Each of these is proved on a concrete witness by the theorem named.

* C01: `parse_int` accumulates in a type that is too narrow for 32- and 64-bit targets: numbers beyond the range wrap around, or overflow a signed type, instead of `out_of_range`. (`C01_parse_int_wide_violated`)
* C03: `char_to_digit` takes the characters ':' to '@' as digits 10 to 16 in bases above ten. (`C03_only_numerals_violated`)
* C07: A subreader at an offset that wraps around (such as `npos`) bypasses the bounds check and views text outside. (`C07_subreader_violated`)
* C13: Copy assignment to a `memory_buffer` that has grown leaves its write area and its storage inconsistent; moving a small buffer into a grown one writes to freed storage. (`C13_copy_assign_violated`, `C13_move_assign_violated`)
* C15: The iterator buffer of a back-insert iterator writes behind the end of the container, or over its previous content; after an error null characters are left in it. (`C15_format_to_back_inserter_violated`, `C15_back_insert_out_of_bounds_violated`, `C15_back_insert_overwrites_violated`)
* C16: Flushing a file buffer again after a short write delivers characters twice. (`C16_retry_flush_violated`)
* C18: Flushing a truncating buffer into a primary buffer that hands out smaller areas than the cache copies the beginning of the cache every time. (`C18_small_primary_cache_violated`)
* C24: '{255}!' is accepted without arguments, and its result is empty: the field and the literal text behind it are dropped. (`C24_violated`)
* C22: '{:O}' is accepted for integers, but formatting then fails with `invalid_format`. (`C22_octal_violated`)
* C23: '{255}' is taken as the end of the string: the rest of the string is not validated. (`C23_argument_255_violated`)
* C26: A tuple skips a number of characters that depends on where its field stands. (`C26_tuples_violated`)
* C29: Widths and precisions of 2^32 or more wrap around silently. (`C29_width_overflow_violated`)
* C31: The debug form of a character is padded as if it always had three characters. (`C31_debug_char_violated`)
* C34: Texts of more than 128 characters in one piece (long floating-point numbers) fail with `eof` on buffers with a cache. (`C34_long_float_violated`)
* C38: Decoding takes the distance below the smallest normal number to be half of that above, and the boundaries of subnormal numbers with an odd fraction to be inside; both are harmless (C39, C40). (`C38_smallest_normal_violated`, `C38_odd_subnormal_violated`)
* C44: '{:.2f}' of 0.0999 gives 0.1 instead of 0.10. (`C44_lost_zero_violated`)
* C47: '{:#o}' of 0 writes 0, which scanning takes for the mark of the base. (`C47_octal_zero_violated`)
* C49: A number that does not fit into a narrow type is skipped: the error leaves the reader moved. (`C49_narrow_violated`)
* C50: A signed number beyond 32 bits overflows an `int` while it is scanned. (`C50_overflow_violated`)
* C51: With base detection a single 0 is not read if something follows it. (`C51_single_zero_violated`)
* C52: A string field followed by text with braces: braces that do not come first are forgotten, and the search for text that starts with a brace misses the first occurrence. (`C52_braces_violated`)
* C54: The formatter of tuples moves the reader by an absolute position: text behind the field is lost or repeated. (`C54_rest_is_lost_violated`, `C54_undefined_behaviour_violated`)
* C63: Behind a tuple, malformed text is accepted because it is skipped ({::d}{), and correct format strings are refused because a field is skipped ({::d} {}). (`C63_accepted_violated`, `C63_tuples_violated`)
* C48: Fields and text behind a field for variable number 255 are ignored: scan("", "{255}!") succeeds. (`C48_every_field_violated`)
* C58: Scanning into signed variables overflows for numbers that are too big. (`C58_signed_overflow_violated`)
* C59: Scan strings: a field for variable number 255 is accepted and ends the scan string, as in C23. (`C59_accepted_violated`)
* C60: A dynamic precision is not checked against the maximum of 1100: it is cut to 16 bits, or the program terminates. (`C60_precision_is_kept_violated`, `C60_precision_terminates_violated`)
* C65: Operations of the big integer that are not used for formatting leave a wrong number of blocks. (`C65_add_small_violated`, `C65_sub_small_violated`, `C65_mul_violated`, `C65_div_rem_small_violated`)
* C82: The formatter of optional does not quote its string, so [optional(a), optional(b)] is the text of a vector with one and of one with two elements. (`C82_optional_strings_violated`, `C82_variants_violated`)
* C82: The text of a variant does not show the alternative: variant<int, double> of 1 and of 1.0 are both variant(1). (`C82_optional_strings_violated`, `C82_variants_violated`)
* C88: Infinities and NaN are numbers, but placed to the left unless told otherwise: {:5} of inf is 'inf  ', {:>5} is '  inf'. (`C88_non_finite_violated`)
* C91: An unscoped enumeration with a format_as, or a class that is two of: convertible to string_view, an exception, with a format_as, a tuple, has two formatters, and the program does not compile. A format_as that returns a reference to a number is not found; one that returns a reference to a set or map gives the text of a sequence. (`C91_two_ways_violated`, `C91_reference_violated`)
* C94: {} on a range is accepted without asking the formatter of the elements, which may reject an empty specification when formatting. The optional validate is needed for elements of ranges and tuples. format of variants is not const, so they cannot be put into ranges, tuples and optionals (the model of C37 and others allows it). Containers drop format_can_fail, so format throws errors the element announced. (`C94_unread_specification_violated`, `C94_containers_violated`, `C94_announced_violated`)
* C95: A float is formatted as the double of the same value, so its text has up to 17 digits where 9 are always enough: 0.1f gives 0.10000000149011612. std::format and fmt give 0.1. (`C95_shortest_violated`)
* C98: The storage of a `memory_buffer` grows by exactly what is requested, not by a factor: once it is full, every character written on its own allocates new memory and copies the whole text, so long texts take quadratic time. (`C98_few_allocations_violated`)
* C99: The documentation of `request_write_area` does not exclude that a class of the user returns an empty area; `write_str` and `write_char_n` then ask for areas for ever. (`C99_empty_areas_violated`)
* C101: A text longer than the 128 characters of the cache is handed to the stream in several calls of `fwrite`, between which other threads can write to it; `std::print` and `fmt::print` write a text as a whole. (`C101_never_mixed_violated`)
* C102: Of numbers in base 16 separated by `:`, as in hardware addresses, the separators are read as digits: `1f:2b` is read as one number (see C03). (`C102_read_back_violated`)
* C103: Move assignment of a vector that uses its inline storage to one that has outgrown it frees the block but keeps the pointer: the block is written after it was freed, and freed again by the destructor (see C13). (`C103_tidy_violated`)
* C104: The length of a text is cast to `int` when it is padded: with a width, a text of 2^31 or more characters overflows or gets fill characters although it is longer than the width. (`C104_overflow_violated`, `C104_fill_violated`, `C104_padding_violated`)
* C68: Functions which 'can never fail' throw for '{:O}' and for long floating-point numbers. (`C68_format_violated`, `C68_formatted_size_violated`, `C68_print_violated`)

## The properties

For each: what is modelled and how it is proved, the theorems with their axioms, and what is missing.

* **C01 parse_int returns the denoted number or out_of_range** (partial) - Model parse_int for an integer type given by (signed, bits) with wrap-around/UB of the upcast type. Prove: in-range numbers are parsed exactly (all types, induction over digits); 8/16-bit unsigned exact in all cases; negation witnesses for 32-bit (wrong value) and signed (UB).
  - `C01_parse_int_wide_unsigned` [PCQ]
  - `C01_parse_int_wide_signed` [PCQ]
  - `C01_parse_int_narrow_signed` [PCQ]
  - `C01_parse_int_narrow_unsigned` [PCQ]
  - `C01_parse_int_exact_partial` [PCQ]
  - `C01_parse_int_minus_unsigned` [PCQ]
  - `C01_parse_int_signed_overflow_is_ub` [PCQ]
  - `C01_parse_int_wide_violated` [PCQ]
  - `C01_parse_int_wide_unsigned_partial` [PCQ]
  - `C01_parse_int_reference` [PCQ]
  - Note: Exactly what happens is proved for every type and every base. 8/16 bit unsigned: complete. 8/16 bit signed: complete for numbers of 32 bit, undefined behaviour beyond. 32/64 bit signed: a number that does not fit is undefined behaviour. 32/64 bit unsigned: the number is taken modulo 2^32 or 2^64 and only a decrease of the reduced value at some digit is noticed. The violations are C01_parse_int_wide_violated and C01_parse_int_signed_overflow_is_ub. C01_parse_int_reference is one equation for every type, base and reader.
* **C02 a failed parse_int does not move the read position** (proved) - Outcome of the modelled parse_int carries the reader state; case analysis + induction on the digit loop.
  - `C02_failed_parse_int_keeps_position` [P]
  - `C02_parse_int_consumes_sign_and_digits` [PCQ]
* **C03 only letters and decimal digits are numerals** (partial) - Whole-table theorem over the 256 bytes x 35 bases (kernel decide on a finite table) against an independent numeral table; disagreement at ':'..'@' recorded.
  - `C03_signed_char_value` [PCQ]
  - `C03_only_numerals_partial` [PCQ]
  - `C03_only_numerals_violated` [PQ]
  - `C03_signedness_of_char_is_irrelevant` [PQ]
  - `C03_exactly` [PCQ]
  - Note: ':' to '@' count as digits 10 to 16 in bases above 10: proved as violated; proved for all other characters. C03_exactly says for every character other than the two signs, every base and every integer type what parsing it alone gives: the numerals of the base, plus ':' to '@' in bases above 10 (takenDigit).
* **C04 a reader never leaves its input** (proved) - Invariant over an inductive type of reader operations, induction on histories; reads past the end are a distinct UB outcome.
  - `C04_reader_stays_in_input` [PCQ]
  - `C04_only_signed_parse_int_is_undefined` [PCQ]
* **C05 read_until stops at the first match** (proved) - read_until_* against a specification by 'first index such that' (existence + minimality).
  - `C05_read_until_predicate` [PCQ]
  - `C05_read_until_char` [none]
  - `C05_read_until_any_of` [PQ]
  - `C05_read_until_none_of` [PQ]
  - `C05_read_until_str` [PCQ]
  - `C05_read_until_eof` [PCQ]
* **C06 fixed-size reads are all or nothing** (proved) - Decision logic.
  - `C06_read_char` [PQ]
  - `C06_read_n_chars` [PQ]
  - `C06_read_if_match_char` [PQ]
  - `C06_read_if_match_str` [PQ]
* **C07 subreader is a window of the remaining input** (partial) - Addresses modelled modulo 2^64; partial theorem when address+pos does not wrap, negation witness otherwise.
  - `C07_subreader_window_partial` [PCQ]
  - `C07_subreader_violated` [PCQ]
  - `C07_exactly` [PCQ]
  - Note: The window is exact unless pos + len wraps around 2^64, where the bounds check is bypassed: proved as violated. C07_exactly says what subreader does for every offset of a size_t: window, end-of-file, a window before the read position when the pointer sum wraps, undefined behaviour when that lies before the input.
* **C08 write_int emits the canonical numeral** (proved) - write_int over an arbitrary lawful buffer; digits compared with Nat.digits.
  - `C08_write_int` [PCQ]
  - `C08_write_int_span` [PCQ]
  - `C08_write_int_bad_base` [PCQ]
* **C09 write_int and parse_int are inverse** (proved) - Composition of C08 and C01 (round trip).
  - `C09_write_then_parse` [PCQ]
* **C10 the digit count computed in advance is exact** (proved) - Loops of write_number and get_number_of_digits against Nat.digits length; exact fill of the area.
  - `C10_digit_count_exact` [PCQ]
* **C11 writing to a fixed-size buffer never leaves the span and fails exactly when it does not fit** (proved) - Generic buffer base class + storage memory, UB for stores outside it; induction over histories.
  - `C11_span_view` [PQ]
  - `C11_span_exact_request` [PQ]
  - `C11_span_max_request` [PCQ]
  - `C11_static_copy` [PQ]
  - `C11_span_copy` [PQ]
  - `C11_all_written` [PQ]
* **C12 memory_buffer holds exactly what was written** (proved) - ct_vector with explicit storage, capacity and size; induction over histories.
  - `C12_memory_buffer` [PQ]
  - `C12_memory_buffer_request` [PQ]
* **C13 copied and moved memory_buffers behave like fresh ones with the same content** (partial) - All four copy/move operations with explicit freed state; negation witnesses for the two faulty ones, partial theorem for the rest. Both assignments exactly: an invariant with the size of the vector, the size of its block and the end of the write area, by induction over the client.
  - `C13_copy_assign_exact` [PCQ]
  - `C13_move_assign_exact` [PCQ]
  - `C13_copy_construct` [PQ]
  - `C13_move_construct` [PQ]
  - `C13_copy_assign_partial` [PQ]
  - `C13_copy_assign_violated` [PCQ]
  - `C13_move_assign_partial` [PQ]
  - `C13_move_assign_violated` [PQ]
  - Note: Copy and move construction are proved for every buffer. Both assignments are characterised exactly for any two buffers. Copy assignment always succeeds with the right content; afterwards the buffer works as long as memFits (four numbers, Spec/Assign.lean) says so, and is undefined behaviour where it says no (C13_copy_assign_exact): only targets that are larger than the source are affected. Move assignment is undefined behaviour exactly if the target has outgrown its inline storage and the source has not (C13_move_assign_exact). The full claims are refuted by C13_copy_assign_violated and C13_move_assign_violated.
* **C14 iterator_buffer delivers every character once and in order** (proved) - Cache + delivered list; induction over histories.
  - `C14_iterator_buffer` [PQ]
  - `C14_iterator_buffer_request` [PQ]
  - `C14_output_pointer` [PQ]
  - `C14_all_written` [PQ]
  - `C14_all_written_pointer` [PQ]
* **C15 back_inserter-backed buffers append to their container** (partial) - Container with size/capacity, stores outside size are UB; negation witnesses; partial theorem for empty containers with enough room; an exact theorem for any container and any client (three numbers decide whether the pieces fit), and the same for format_to with any string and any arguments but tuples.
  - `C15_back_inserter_every_argument` [PCQ]
  - `C15_back_insert_exact` [PCQ]
  - `C15_format_to_back_inserter` [PCQ]
  - `C15_format_to_back_inserter_room` [PCQ]
  - `C15_format_to_back_inserter_violated` [PCQ]
  - `C15_back_insert_out_of_bounds_violated` [P]
  - `C15_back_insert_overwrites_violated` [PCQ]
  - `C15_back_insert_partial` [PQ]
  - Note: The code overwrites existing content and hands out areas behind the end of the container: both proved, also for `format_to`. `C15_back_insert_exact` says for every container and every client exactly when it goes well (then the container holds the text instead of its previous content) and when it is undefined behaviour; `C15_format_to_back_inserter` says the same for `format_to` with any string and arguments of any types but tuples, `C15_format_to_back_inserter_room` that enough room from the start is enough. C15_back_inserter_every_argument holds for arguments of every kind whenever format has no undefined behaviour.
* **C16 file_buffer hands every character to the stream once and in order** (partial) - Stream = oracle for the number of accepted bytes; history theorem for accepting streams; negation witness for retry.
  - `C16_file_buffer` [PCQ]
  - `C16_short_write_partial` [PCQ]
  - `C16_short_write_is_reported` [PQ]
  - `C16_retry_flush_violated` [PCQ]
  - `C16_all_written` [PCQ]
  - `C16_exactly` [PCQ]
  - `C16_nothing_lost` [PCQ]
  - Note: Proved for streams that accept everything and up to the first error. Flushing again after a short write duplicates characters: proved as violated. C16_exactly says for every cache size, every history of writes and flushes and every behaviour of fwrite (any number of characters accepted per call) what is in the file and what is pending: exactly Spec/Stream. C16_nothing_lost: no written character disappears or changes order - the written text is a subsequence of file plus pending - so the defect is repetition of characters after a short write, never loss.
* **C17 counting_buffer counts exactly** (proved) - Induction over histories.
  - `C17_counting_buffer` [PQ]
  - `C17_all_counted` [PQ]
* **C18 truncating_buffer passes the first n characters and counts all** (partial) - Truncating buffer over a lawful primary; partial for primaries that never split, witness otherwise.
  - `C18_truncating_memory_buffer` [PCQ]
  - `C18_truncating_span_buffer` [PCQ]
  - `C18_truncating_iterator_buffer` [PCQ]
  - `C18_truncating_output_pointer` [PCQ]
  - `C18_small_primary_cache_violated` [PCQ]
  - `C18_all_written` [PCQ]
  - `C18_all_written_span` [PCQ]
  - `C18_all_written_iterator` [PCQ]
  - `C18_exactly` [PCQ]
  - Note: Proved for primary buffers used by the library. With a primary buffer of a smaller cache the code writes wrong characters: proved as violated. C18_exactly covers caches of any two sizes and every client history: the count is right, and the iterator receives exactly what Spec/Truncating says - every piece that goes through a smaller cache is taken from the beginning of the pending characters.
* **C19 write_str and write_char_n append everything or an exact prefix** (proved) - Generic over lawful buffers; induction over the chunk loop.
  - `C19_span_buffer_exactly` [PCQ]
  - `C19_memory_buffer_appends` [PCQ]
  - `C19_span_buffer_appends` [PCQ]
  - `C19_span_write_str` [PCQ]
  - `C19_write_char_n_is_write_str` [PCQ]
  - `C19_iterator_buffer_appends` [PCQ]
  - `C19_iterator_buffer_prefix` [PCQ]
  - `C19_file_buffer_appends` [PCQ]
  - `C19_counting_buffer_counts` [PCQ]
* **C20 escaped output does not depend on how the buffer splits areas** (proved) - write_escaped_helper state machine, any list of area sizes; induction.
  - `C20_escaped_string` [PCQ]
  - `C20_escaped_char` [PCQ]
  - `C20_escaped_string_span_too_small` [PCQ]
* **C21 escaping is unambiguous and printable** (proved) - Decoder defined in the specification; decode (escape s) = s by induction.
  - `C21_escaped_is_printable` [PCQ]
  - `C21_escaped_literal_ends_at_quote` [PCQ]
  - `C21_escape_injective` [PCQ]
  - `C21_escaped_output_determines_string` [PCQ]
* **C22 an accepted format string is processed without error or undefined behaviour** (partial) - Model of both parser passes and of the core formatters; simulation between validation run and formatting run.
  - `C22_accepted_without_O_succeeds` [PCQ]
  - `C22_accepted_with_O_fails` [PCQ]
  - `C22_without_O_succeeds` [PCQ]
  - `C22_with_O_fails` [PCQ]
  - `C22_fails_iff_O` [PCQ]
  - `C22_validation_total` [PCQ]
  - `C22_octal_violated` [PCQ]
  - `C22_accepted_formats_succeed_partial` [PCQ]
  - `C22_no_undefined_behaviour_partial` [PCQ]
  - `C22_rejected_is_invalid_format` [PCQ]
  - Note: Violated by '{:O}' of an integer; for every accepted string (widths of any size, ignored text behind {255}) it is proved which ones succeed and which fail with what output.
* **C23 validation guarantees that every argument is used and every index is in range** (partial) - Invariant of the validation loop with the bitset.
  - `C23_argument_255_violated` [PCQ]
  - `C23_accepted_strings_partial` [PCQ]
  - `C23_accepted_uses_arguments_partial` [PCQ]
  - Note: '{255}' is accepted without any argument: proved as violated. C23_accepted_strings_partial says what holds for every accepted string: only text behind a field for argument 255 is ignored, every argument in front of it is used, and no other.
* **C24 literal text is reproduced exactly** (partial) - Specification as a list of pieces (literal/field) rendered in order; parser run equals it.
  - `C24_any_accepted` [PCQ]
  - `C24_violated` [PCQ]
  - `C24_output_partial` [PCQ]
  - `C24_fields_are_independent_partial` [PCQ]
  - `C24_only_templates_are_accepted` [PCQ]
  - Note: Violated by '{255}!', whose fields and literal text are ignored; C24_any_accepted says for every accepted string what is written. Where the text of each field is given, type 'O', escaped debug characters and the zero lost in fixed notation are excluded (see C22, C31, C44).
* **C25 a format string without replacement fields formats to itself** (proved) - Case of C24 + model of the shortcut.
  - `C25_plain_string` [PCQ]
  - `C25_escaped_text` [PCQ]
* **C26 automatic numbering is left-to-right numbering** (partial) - Simulation between the two numberings.
  - `C26_automatic_numbering_partial` [PCQ]
  - `C26_core_values` [PCQ]
  - `C26_tuples_violated` [PCQ]
  - Note: Proved for every format string whatever its fields contain, accepted or not, on every buffer, for all arguments but tuples, which skip by absolute positions: proved as violated.
* **C27 validation and parsing of a format spec agree** (proved) - Two spec parsers compared by case analysis on the common grammar.
  - `C27_parse_agrees_with_validate` [PCQ]
  - `C27_formatter_parse_agrees_with_validate` [PCQ]
* **C28 a format spec means what its grammar says** (proved) - Printer for specs in the specification; parse (print s) = s.
  - `C28_allowed_specifications` [PCQ]
  - `C28_grammar_is_accepted` [PCQ]
  - `C28_only_grammar_is_accepted` [PCQ]
  - `C28_type_check` [PCQ]
* **C29 widths and precisions that do not fit are rejected** (partial) - Negation witness from C01; partial for digit strings that fit.
  - `C29_width_overflow_violated` [PCQ]
  - `C29_widths_taken_or_rejected_partial` [PCQ]
  - `C29_numbers_of_any_size` [PCQ]
  - `C29_type_check` [PCQ]
  - `C29_formatted_with_reduced_numbers` [PCQ]
  - Note: Holds for values below 2^32; larger ones wrap around in the reader: proved as violated. C29_numbers_of_any_size says exactly what happens to a number of any size, C29_formatted_with_reduced_numbers what whole format strings are formatted to.
* **C30 integer arguments are rendered as specified** (proved) - Pure rendering function in the specification vs. modelled write_arg.
  - `C30_integers` [PCQ]
  - Note: Every type, value and accepted specification with one of the documented types; 'O', which is accepted and then fails, is C22.
* **C31 the minimum width is met exactly** (partial) - Rendering = pad fill align width content; partial for char debug form with witness.
  - `C31_debug_char_exactly` [PCQ]
  - `C31_debug_char_too_wide` [PCQ]
  - `C31_debug_char_violated` [PCQ]
  - `C31_width_is_met_partial` [PCQ]
  - Note: Violated for debug characters that need an escape sequence; proved for all other arguments. C31_debug_char_exactly gives the text of every debug character, C31_debug_char_too_wide by how much the width is missed.
* **C32 string precision truncates and nothing else** (proved) - As C30.
  - `C32_strings` [PCQ]
  - `C32_precision` [PCQ]
* **C33 bool, char and pointer arguments are rendered as specified** (partial) - As C30.
  - `C33_debug_char_violated` [PCQ]
  - `C33_bool_partial` [PCQ]
  - `C33_char_partial` [PCQ]
  - `C33_pointer` [PCQ]
  - Note: Type 'O' excluded (C22); debug characters that need an escape sequence excluded when the width is above 3 (C31, C33_debug_char_violated). The remaining case is C31_debug_char_exactly.
* **C34 the output does not depend on the buffer** (partial) - Traces of writer calls executed on lawful buffers; witness for >128-character pieces on cached buffers.
  - `C34_through_cache_exactly` [PCQ]
  - `C34_cache_decides` [PCQ]
  - `C34_long_float_violated` [PCQ]
  - `C34_same_text_partial` [PCQ]
  - Note: Violated for floating-point numbers with more than 128 characters in one piece, which functions with a cache of 128 characters reject; C34_through_cache_exactly says for every accepted format string exactly when this happens, and that all functions agree otherwise.
* **C35 format_to a too small buffer keeps a prefix and reports eof** (proved) - Trace execution on span buffers.
  - `C35_fixed_size_buffer` [PCQ]
  - `C35_what_is_kept` [PCQ]
  - Note: For every format string and every core argument that can be formatted.
* **C36 format_to_n writes the first n characters and reports the full size** (partial) - Composition of C18/C14/C56 with C34.
  - `C36_first_n_decides` [PCQ]
  - `C36_buffers_decide` [PCQ]
  - `C36_long_float_violated` [PCQ]
  - `C36_format_to_n_buffer_partial` [PCQ]
  - `C36_format_to_n_iterator_partial` [PCQ]
  - `C36_format_to_n_pointer_partial` [PCQ]
  - Note: format_to_n fails exactly for numbers of more than 128 characters in one piece (C36_first_n_decides; C36_long_float_violated); otherwise proved.
* **C37 println is print plus a newline** (proved) - Trace + newline.
  - `C37_println_every_argument` [PCQ]
  - `C37_print_decides` [PCQ]
  - `C37_print_text` [PCQ]
  - `C37_null_file` [PCQ]
  - `C37_println` [PCQ]
  - `C37_println_nested` [PCQ]
  - Note: For a file that takes everything, all strings, accepted or not, and all arguments (C37_println, C37_println_nested). C37_print_text, C37_print_decides: what print sends, given what format yields. C71_print: files that do not take everything. C37_println_every_argument holds for arguments of every kind.
* **C38 every double is decoded exactly** (partial) - Bit-level decode over all 2^64 patterns.
  - `C38_smallest_normal_violated` [PCQ]
  - `C38_odd_subnormal_violated` [PCQ]
  - `C38_decoded_exactly_partial` [PCQ]
  - Note: Violated for the distance below the smallest normal number and for the boundaries of subnormal numbers with an odd fraction, both proved with a witness and both harmless (C39, C40); proved for everything else.
* **C39 shortest formatting round-trips** (proved) - Refinement bignum -> Nat, then the digit generation invariant.
  - `C39_round_trip` [PCQ]
  - `C39_reading_is_unique` [PCQ]
  - Note: Zero included. ReadsAs is the correctly rounded value (nearest, ties to even, overflow limit); C39_reading_is_unique shows that it determines the double.
* **C40 shortest formatting is shortest and closest** (proved) - As C39, lower bounds by the non-termination condition.
  - `C40_shortest_and_closest` [PCQ]
  - Note: Shortest also fixes the choice among equally close candidates (the larger one).
* **C41 shortest formatting never needs more than 17 digits** (proved) - As C39, interval width argument.
  - `C41_at_most_17_digits` [PCQ]
* **C42 fixed and significant-digit formatting is correctly rounded** (proved) - Loop invariant (exact remainder), rounding lemma.
  - `C42_fixed_is_correctly_rounded` [PCQ]
  - `C42_significant_digits_are_correctly_rounded` [PCQ]
* **C43 the fixed-size big integers never overflow** (proved) - Block-level model with out-of-bounds = UB; size bounds from a kernel-evaluated table over exponents.
  - `C43_operations_are_exact` [PCQ]
  - `C43_construction_is_exact` [PCQ]
  - `C43_digit_generation_is_defined` [PCQ]
* **C44 fixed notation prints exactly the requested decimals** (partial) - Model of write_decimal on digits; partial + witness 0.0999 with .2f.
  - `C44_lost_zero_violated` [PCQ]
  - `C44_fixed_has_decimals_partial` [PCQ]
  - `C44_fixed_notation` [PCQ]
  - Note: '{:.2f}' of 0.0999 gives 0.1: proved as violated. The numbers concerned are characterised exactly (LostZero); for those one zero is missing, for all others the property is proved.
* **C45 exponent notation denotes the rounded value** (proved) - Model of write_decimal exponent branch.
  - `C45_exponent_notation` [PCQ]
  - `C45_exponent_digits` [PCQ]
* **C46 non-finite values ignore zero padding** (proved) - Decision logic.
  - `C46_not_finite` [PCQ]
* **C47 scanning what was formatted gives the number back** (partial) - Composition; witness for #o and 0.
  - `C47_template_partial` [PCQ]
  - `C47_octal_zero_violated` [PCQ]
  - `C47_round_trip_partial` [PCQ]
  - Note: The 0 written by '{:#o}' cannot be read back: proved as violated. Everything else is proved, for one field and for whole format strings whose fields are separated by text that does not look like digits.
* **C48 scan consumes the whole input or reports an error** (partial) - Model of vscan + parser.
  - `C48_scan_from` [PCQ]
  - `C48_scan` [PCQ]
  - `C48_every_field_violated` [PCQ]
  - `C48_every_field_partial` [PCQ]
  - `C48_leftover` [PCQ]
  - `C48_written_is_read` [PCQ]
  - Note: C48_scan_from and C48_scan are for every input and scan string: widths of 2^32 or more are taken reduced (C29), and text behind a field for variable 255 is ignored. That such fields are not read is proved as violated. The converse, which inputs are read, is C48_written_is_read.
* **C49 an integer field with width reads exactly that many characters** (partial) - Model of read_arg.
  - `C49_narrow_violated` [PCQ]
  - `C49_width_is_exact_partial` [PCQ]
  - `C49_number_of_width` [PCQ]
  - `C49_width_exactly` [PCQ]
  - Note: A number out of range for a narrow type moves the reader: proved as violated. Proved for all other outcomes. C49_width_exactly is the outcome for every input.
* **C50 scanning into narrow integers is range checked** (partial) - Model of narrow scanner.
  - `C50_overflow_violated` [PCQ]
  - `C50_narrow_is_checked_partial` [PCQ]
  - `C50_stored_values_fit` [PCQ]
  - `C50_exactly` [PCQ]
  - Note: Signed numbers beyond 32 bit are undefined behaviour: proved as violated. Proved otherwise. C50_exactly is the outcome for every input.
* **C51 base detection accepts every prefixed or plain number** (partial) - Model of determine_base; witness '0,'.
  - `C51_single_zero_violated` [PCQ]
  - `C51_base_is_detected_partial` [PCQ]
  - `C51_exactly` [PCQ]
  - Note: A single 0 followed by anything is not read: proved as violated. Proved otherwise. C51_exactly is the outcome for every input.
* **C52 a string field reads up to the first occurrence of the following text** (partial) - Model of read_string(_complex); partial for brace-free literals; witness.
  - `C52_braces_violated` [PCQ]
  - `C52_string_field_partial` [PCQ]
  - `C52_single_brace` [PCQ]
  - `C52_last_field` [PCQ]
  - `C52_read_up_to_first_occurrence` [PCQ]
  - `C52_exactly` [PCQ]
  - Note: Literal text with braces is violated (two ways). Proved for text without braces, for a single brace, and for a field at the end. C52_exactly is the outcome for any text and every input.
* **C53 ranges are rendered element by element** (proved) - Model of range formatter, induction on the list.
  - `C53_map` [PCQ]
  - `C53_range` [PCQ]
  - `C53_range_total` [PCQ]
  - `C53_range_needs_elements` [PCQ]
  - `C53_in_format_string` [PCQ]
  - Note: Specifications n and :spec, nested to any depth, sequences and sets/maps; in whole format strings for arguments without tuples (C54).
* **C54 formatting a tuple leaves the rest of the format string alone** (partial) - Model of the tuple formatter on positions; negation witness.
  - `C54_lost_exactly` [PCQ]
  - `C54_text_lost_exactly` [PCQ]
  - `C54_tuple` [PCQ]
  - `C54_rest_is_lost_violated` [PCQ]
  - `C54_undefined_behaviour_violated` [PCQ]
  - `C54_last_field_partial` [PCQ]
  - Note: Proved as violated: text behind the field is lost ('{}!'), and '{}{}' has undefined behaviour. Rendering alone and at the end of the format string is proved. C54_text_lost_exactly says how much: as many characters of the text behind the field as the format string has in front of the elements' specification. C54_lost_exactly says for every accepted string, any number of fields, any types and nesting, how many characters are lost behind each field (Spec/Loss), as long as the text behind a field with a tuple has no braces and is long enough. Missing: losses that reach into the next field.
* **C55 optional and variant render their content** (proved) - Model of the std formatters as actions on the list of writer calls; any content.
  - `C55_optional_some` [PCQ]
  - `C55_optional_none` [PCQ]
  - `C55_optional_needs_content` [PCQ]
  - `C55_monostate` [PCQ]
  - `C55_variant` [PCQ]
  - `C55_variant_total` [PCQ]
  - `C55_valueless` [PCQ]
  - Note: For any nesting of contents.
* **C56 the truncating iterator forwards exactly the first n assignments** (proved) - Induction over assignments.
  - `C56_truncating_iterator` [PQ]
  - `C56_truncating_pointer` [PCQ]
* **C57 the set of seen argument numbers is exact** (proved) - Word-level model; induction over set operations.
  - `C57_bitset` [PCQ]
* **C58 scanning has no undefined behaviour** (partial) - The scan model has a distinct outcome for undefined behaviour; witnesses for the overflow in parse_int (C01), proof for inputs and widths that fit.
  - `C58_signed_overflow_violated` [PCQ]
  - `C58_scan_is_defined_partial` [PCQ]
  - `C58_few_digits_partial` [PCQ]
  - `C58_seven_digits_partial` [PCQ]
  - `C58_undefined_exactly` [PCQ]
  - Note: Signed variables are violated (overflow). Proved for every scan string if all integer variables are unsigned, and for all variables if the input has only runs of digits that are short enough to fit (9 decimal digits, 7 digits of any base; 18 and 15 for 64 bit). C58_undefined_exactly says for every scan string, types and input exactly when the behaviour is undefined.
* **C59 exactly the well-formed scan strings are accepted** (partial) - Independent grammar of scan strings (Spec/Scan.lean); both directions by induction over the fields.
  - `C59_accepted_violated` [PCQ]
  - `C59_accepted_strings` [PCQ]
  - `C59_accepted_scan_strings_partial` [PCQ]
  - Note: '{255}' is accepted without any variable: proved as violated. C59_accepted_strings is exact for every string, with such fields and with widths of any size.
* **C60 a dynamic width or precision acts as if written in the format string** (partial) - Model of format_spec_with_value on all nested types; the written specification is constructed from the dynamic one and both runs are compared; witnesses for precisions beyond 16 bits.
  - `C60_dynamic_is_written` [PCQ]
  - `C60_dynamic_text` [PCQ]
  - `C60_none_given` [PCQ]
  - `C60_in_format_string` [PCQ]
  - `C60_precision_without_effect` [PCQ]
  - `C60_precision_is_kept_violated` [PCQ]
  - `C60_precision_terminates_violated` [PCQ]
  - Note: Proved for every width and precision that could be written in the format string, for all types and nested ranges. Larger precisions of floating-point numbers are violated: they are cut to 16 bits, or terminate the program.
* **C61 accepted format strings succeed for ranges, optionals and variants** (partial) - Nested types and values are inductive types; simulation of validation and formatting by induction over the type.
  - `C61_without_O_succeeds` [PCQ]
  - `C61_with_O_fails` [PCQ]
  - `C61_fails_iff_O` [PCQ]
  - `C61_any_string` [PCQ]
  - `C61_octal_violated` [PCQ]
  - `C61_validation_total` [PCQ]
  - `C61_accepted_succeeds_partial` [PCQ]
  - `C61_no_undefined_behaviour_partial` [PCQ]
  - Note: Without conditions refuted (C61_octal_violated: a specification ending with O). C61_any_string is exact for every string and all arguments without tuples: refused, formatted, or failing at the first field that asks for O of something. Tuples are excluded (C54).
* **C62 nested format arguments render the nested text** (proved) - The nested format run is inlined into the list of writer calls; proved for any outer string.
  - `C62_nested` [PCQ]
  - `C62_nested_text` [PCQ]
  - `C62_nested_twice` [PCQ]
  - `C62_in_format_string` [PCQ]
  - Note: For any nested string and arguments, on any buffer; in whole format strings with any other arguments.
* **C63 exactly the well-formed format strings are accepted** (partial) - Independent grammar of format strings (Spec/Template.lean); both directions by induction over the fields.
  - `C63_accepted_violated` [PCQ]
  - `C63_accepted_strings_partial` [PCQ]
  - `C63_accepted_format_strings_partial` [PCQ]
  - `C63_ignored_text` [PCQ]
  - `C63_templates_are_accepted` [PCQ]
  - `C63_tuples_violated` [PCQ]
  - `C63_accepted_strings_any_types` [PCQ]
  - `C63_accepted_strings` [PCQ]
  - Note: '{255}' is accepted without any argument: proved as violated. C63_accepted_strings is exact for all strings and core arguments, including '{255}' and widths of any size; C63_accepted_strings_any_types is the same for arguments of any types but tuples (ranges, optionals, variants, nested); C63_ignored_text says what the strings with '{255}' are formatted to. For tuples both directions fail (C63_tuples_violated).
* **C64 all formatting functions produce the same text** (partial) - A format run is a list of writer calls independent of the buffer; executed on every lawful buffer it produces the same text.
  - `C64_in_memory_every_argument` [PCQ]
  - `C64_error_every_argument` [PCQ]
  - `C64_through_cache_exactly` [PCQ]
  - `C64_cache_decides` [PCQ]
  - `C64_in_memory` [PCQ]
  - `C64_any_arguments` [PCQ]
  - `C64_through_cache_partial` [PCQ]
  - `C64_long_float_violated` [PCQ]
  - Note: The functions that format into memory: proved for all arguments (any string for arguments without tuples; strings of the grammar with tuples at the end otherwise, C54). The functions with a cache of 128 characters: proved unless a floating-point number has more than 127 characters, which is proved as violated. C64_through_cache_exactly and C64_cache_decides say, for every string that format can format and for values of any type but tuples, exactly when the functions with a cache give the same text: unless a number inside of the ranges and optionals of some argument has more than 128 characters in one piece under its specification; then all of them fail with end-of-file. C64_in_memory_every_argument and C64_error_every_argument hold for arguments of every kind, tuples and user formatters included.
* **C65 the big integer operations are exact** (partial) - Block-level model, refinement to natural numbers by induction over the blocks; witnesses for the size field.
  - `C65_get_bit` [PCQ]
  - `C65_add_small_partial` [PCQ]
  - `C65_sub_small_partial` [PCQ]
  - `C65_mul_partial` [PCQ]
  - `C65_div_rem_small_partial` [PCQ]
  - `C65_add_small_violated` [PCQ]
  - `C65_sub_small_violated` [PCQ]
  - `C65_mul_violated` [PCQ]
  - `C65_div_rem_small_violated` [PCQ]
  - `C65_add_small_at_size` [PCQ]
  - `C65_add_small_exactly` [PCQ]
  - `C65_sub_small_size` [PCQ]
  - `C65_sub_small_exactly` [PCQ]
  - `C65_div_rem_small_exactly` [PCQ]
  - `C65_mul_exactly` [PCQ]
  - Note: Values are exact. The size fields are not maintained: add_small shrinks them, sub_small, mul and div_rem_small leave leading zero blocks or cut the number, each proved as violated; the partial theorems give the exact value and the conditions under which the result is like every other number. Exactly which size add_small_at, sub_small and div_rem_small leave, and for which numbers it is right, is proved (C65_add_small_exactly, C65_sub_small_exactly, C65_div_rem_small_exactly); and C65_mul_exactly for mul and mul_digits.
* **C66 results hold a value or an error, and errors are passed on unchanged** (proved) - Model of result<T> with separate value and error; decision logic; EMIO_TRY chains by induction over the list.
  - `C66_observers` [PQ]
  - `C66_zero_error` [none]
  - `C66_void_observers` [PQ]
  - `C66_names_are_distinct` [P]
  - `C66_equality` [PQ]
  - `C66_void_equality` [PQ]
  - `C66_try` [none]
  - `C66_try_all` [P]
  - Note: Results as values; the EMIO_TRY macros as the bind of the outcome monad used by the whole model. C66_zero_error: what a result of the value 0, which is no error, does.
* **C67 a valid format string is valid however it was obtained** (proved) - Objects as an inductive type of histories of constructions and conversions; invariant by induction.
  - `C67_valid_is_accepted` [PCQ]
  - `C67_as_valid` [PCQ]
  - `C67_from` [PCQ]
  - `C67_empty` [PQ]
  - Note: Every history of conversions.
* **C68 formatting with a valid format string never throws** (partial) - Composition of C67, C61, C34 and C37 with the model of value(); witnesses.
  - `C68_exactly` [PCQ]
  - `C68_format_violated` [PCQ]
  - `C68_format_partial` [PCQ]
  - `C68_formatted_size_violated` [PCQ]
  - `C68_formatted_size_partial` [PCQ]
  - `C68_print_partial` [PCQ]
  - `C68_print_violated` [PCQ]
  - Note: Violated by '{:O}' of an integer, and by formatted_size and print of floating-point numbers of more than 127 characters; proved otherwise: format for all argument types without tuples, the others for core arguments. C68_exactly says for every valid format string and for values of any type but tuples which of format, formatted_size, print and println return and which exception they throw otherwise.
* **C69 constant expressions give the same results as run time** (proved) - Separate definitions of the branches for constant expressions; equality with the run-time model by induction over the rounds.
  - `C69_validation` [PQ]
  - `C69_format` [PCQ]
  - `C69_format_values` [PCQ]
  - `C69_scan` [PCQ]
  - `C69_fill_n` [PCQ]
  - `C69_copy_n` [PCQ]
  - `C69_equal_n` [PCQ]
  - `C69_equal_n_exactly` [PCQ]
  - Note: All buffers, all arguments; run-time undefined behaviour is excluded by hypothesis and shown never to occur for all argument types without tuples (C61).
* **C70 values of other types are formatted as the core value they stand for** (proved) - Inductive type of arguments with the conversion to a core argument; exactness of the conversions; composition with C30, C32, C39.
  - `C70_integers` [PCQ]
  - `C70_same_number` [PCQ]
  - `C70_float_is_exact` [PCQ]
  - `C70_float_not_finite` [PCQ]
  - `C70_valid` [PCQ]
  - `C70_strings` [PCQ]
  - `C70_float_text` [PCQ]
  - Note: Conversions of the compiler (float to double, enumerator to integer) are modelled as the language prescribes.
* **C71 every formatting call comes to a result and hands out the beginning of one text** (proved) - Every accepted string is one fixed list of writer calls, possibly followed by invalid_format; the contract of every buffer, with failing ones among them, gives the outcome of each function.
  - `C71_every_argument` [PCQ]
  - `C71_any_depth` [PCQ]
  - `C71_core` [PCQ]
  - `C71_nested` [PCQ]
  - `C71_print` [PCQ]
  - `C71_print_refused` [PCQ]
  - Note: C71_core and C71_nested exclude tuples (see C54), C71_every_argument does not. A null file pointer gives invalid_data. C71_every_argument drops all hypotheses on types, numbers and tuples: either every function has the same undefined behaviour, or all deliver one text. C71_any_depth: the same for format strings nested to any depth.
* **C72 user-defined formatters compose** (proved) - Formatters as arbitrary programs over reader and writer; the contract as a specification; induction over the rounds of validation and formatting.
  - `C72_any_depth` [PCQ]
  - `C72_nested_is_inlined` [PCQ]
  - `C72_nested_many_times` [PCQ]
  - `C72_fields` [PCQ]
  - `C72_error` [PCQ]
  - `C72_any_string` [PCQ]
  - `C72_parse_only` [PCQ]
  - `C72_inherited` [PCQ]
  - Note: What format does is a program over the writer that passes errors of the output on. In C72_any_string builtin arguments are values without tuples (C54). C72_any_depth extends C72_any_string to arguments of every kind at any depth: widths and precisions given at run time (at most 1100 digits for floating-point numbers), and format strings with arguments of every kind, nested to any depth. C72_nested_is_inlined and C72_nested_many_times say that nesting changes nothing.
* **C73 user-defined scanners compose** (proved) - Scanners as arbitrary programs over reader and input; the scan as an inductive relation over fields; induction over it, over the rounds of validation and scanning, and a simulation for inheritance.
  - `C73_fields` [PCQ]
  - `C73_whole_input` [PCQ]
  - `C73_any_string` [PCQ]
  - `C73_builtin` [PCQ]
  - `C73_integer` [PCQ]
  - `C73_inherited` [PQ]
  - Note: Scanners are arbitrary programs over reader and input; all variables of a scan have one type, which can be a sum. The example of inheritance in docs/API.md (scan of 0x2A with {:x}) reports an error in the model; with {:#x} it reads 42.
* **C74 stored format arguments stand for what they refer to when they are used** (proved) - Memory as a function from addresses to objects; storing copies scalars, fixes the extent of characters and binds other objects; equality with formatting the current values on every buffer; induction over the rounds for the claim that every argument is used.
  - `C74_stored_arguments` [PCQ]
  - `C74_scalars` [PCQ]
  - `C74_dangling` [PCQ]
  - Note: Memory maps addresses to objects; an object is a scalar, characters, or any value of the modelled types. The part about objects that are gone is for types without tuples (for those see C54).
* **C75 scanning assigns exactly the variables that were given, also if one is given twice** (proved) - The scan loop over addresses in lockstep with the one over a list of variables; what a scanner of the library does is independent of the old value.
  - `C75_references` [PCQ]
  - `C75_frame` [PCQ]
  - `C75_distinct` [PCQ]
  - `C75_gone` [PCQ]
  - `C75_gone_is_undefined` [PCQ]
  - Note: Memory maps addresses to variables. Scanned string views are copied into the variable; that they point into the input is not modelled. C75_gone, C75_gone_is_undefined: variables that are gone when the scan takes place.
* **C76 values written with a string are read back with it** (proved) - The text of every field by C24, that it can be read back by the forward theorem for scan templates; the variables by what is stored. In columns, the zeros of the zero flag belong to the digits of the number that is read.
  - `C76_columns` [PCQ]
  - `C76_round_trip` [PCQ]
  - Note: C76_round_trip is for strings without widths, C76_columns for all: with a width, scanning takes exactly that many characters, so that what was padded with blanks cannot be read back. The values are those scan can read: floating-point numbers and bool have no scanner.
* **C77 format strings can be put together** (proved) - The outcome as a function of what the template shows (literal text, specification, argument of each field), by the exact theorems for C22; this function of a concatenation.
  - `C77_concatenation` [PCQ]
  - `C77_same_arguments` [PCQ]
  - `C77_any_strings` [PCQ]
  - `C77_concatenation_any_types` [PCQ]
  - `C77_same_arguments_any_types` [PCQ]
  - `C77_any_strings_any_types` [PCQ]
  - Note: Proved for core arguments (templates, any two strings without numbers) and again for arguments of any types but tuples (nested ranges, optionals, variants): `C77_concatenation_any_types`, `C77_same_arguments_any_types`, `C77_any_strings_any_types`. Tuples are left out because a tuple makes the parser lose its place (C54).
* **C78 argument numbers only select arguments** (proved) - The outcome as a function of what the template shows; renumbering shows the same.
  - `C78_numbers_select` [PCQ]
  - `C78_reordered` [PCQ]
  - `C78_numbers_select_any_types` [PCQ]
  - `C78_reordered_any_types` [PCQ]
  - Note: Proved for core arguments and again for arguments of any types but tuples (`C78_numbers_select_any_types`, `C78_reordered_any_types`).
* **C79 every scan has the outcome of a simple reading of the scan string** (proved) - Interpreter on lists of characters; each reading function is proved equal to its counterpart, then induction over the parts of the scan string.
  - `C79_scan_from` [PCQ]
  - `C79_scan` [PCQ]
  - `C79_single_field` [PCQ]
  - Note: The interpreter is Spec/ScanReference.lean; the strings that are accepted are those of C59 (as parts, with numbers as they are computed). Wrong behaviour of the code (C01, C49 to C52, C58) is part of the interpreter.
* **C80 scan strings can be put together** (proved) - The interpreter of C79 on two lists of parts, one behind the other; variables before and behind do not matter.
  - `C80_concatenation` [PCQ]
  - `C80_same_variables` [PCQ]
  - `C80_any_strings` [PCQ]
  - `C80_string_at_the_end` [PCQ]
  - Note: Where errors differ: literal text that spans the two strings is matched as a whole, so that the kind of error and the position of the reader may differ. C80_any_strings is about any two strings without numbers.
* **C81 variable numbers of scan strings only select variables** (proved) - Simulation of the interpreter of C79 by itself with the variables permuted.
  - `C81_reordered` [PCQ]
  - Note: All scan strings that are accepted are such templates (C59), but for those of C59's witness, which end with {255.
* **C82 the default text of a value tells it apart from the other values of its type** (partial) - Values of C53. Texts are cut at the first delimiter outside of quotes; mutual injectivity and prefix lemma by induction over the type, with shortest floating-point texts of C39 read back. The alternatives of a variant are told apart by what their texts begin with and, for numbers and pointers, by the x. NaNs are left out.
  - `C82_optional_strings_violated` [PCQ]
  - `C82_variants_violated` [PCQ]
  - `C82_values_are_told_apart_partial` [PCQ]
  - `C82_elements_are_told_apart` [PCQ]
  - Note: Fails for optional strings inside of ranges and tuples (witness: a vector of one and one of two optional strings) and for variants with alternatives of one kind (witness: variant<int, double> of 1 and of 1.0). Proved for all other types, with variants whose alternatives are of different kinds. Missing: types with such optional strings or alternatives that happen to be unambiguous.
* **C83 formatting keeps the order of floating-point numbers** (proved) - From C39 and C42: reading and rounding are monotone; the digits depend on the magnitude only.
  - `C83_order_is_kept` [PCQ]
  - `C83_sign_is_only_a_sign` [PCQ]
  - `C83_error` [PCQ]
* **C84 which calls return a plain value, and when these throw** (proved) - Model format_can_fail_v and the constraints of the three overloads as a decision (Model/Overloads.lean), the calls as what the chosen overload does. Prove the decision exactly, that a call is formatting with value() taken or not, and with C72 that formatters that keep to their declaration never make format throw.
  - `C84_overload` [PCQ]
  - `C84_calls` [PCQ]
  - `C84_honest` [PCQ]
  - `C84_throws` [PCQ]
  - `C84_inherited` [PCQ]
* **C85 upper-case types change nothing but the case of the text** (proved) - With C30, C33 and the float theorems both texts are given by the specification; prove that each part of it (sign, prefix, digits, exponent, padding) in upper case is the part with the upper-case type.
  - `C85_upper_case` [PCQ]
* **C86 numbers filled up with zeros sort like the numbers** (proved) - With C30 the texts are sign, prefix and a fixed number of last digits; prove by induction over the number of digits that these compare like the numbers.
  - `C86_order` [PCQ]
  - `C86_fixed_width` [PCQ]
* **C87 how long a text can be is known from the format string and the types of the arguments** (proved) - Bounds of the lengths of the texts of C30, C32, C33, C42 and C45 by type and specification (digits of the greatest number of a type; 17 shortest digits; 309 digits in front of the point; exponents of three digits), summed up over the fields (C22, C24), and C35 for the buffer.
  - `C87_argument` [PCQ]
  - `C87_text` [PCQ]
  - `C87_fixed_size_buffer` [PCQ]
* **C88 leaving out a part of a specification means the usual** (partial) - The part of the specification that the code reads for every kind of value (width, fill, place, sign, prefix, zeros, digits) is the same for a specification and for what it is written out to (Spec/WrittenOut), so the writing functions are equal as functions; with C28 and C22 the results of format are equal. Infinities and NaN without a place are the exception.
  - `C88_non_finite_violated` [PCQ]
  - `C88_written_out_partial` [PCQ]
  - `C88_non_finite_place` [PCQ]
  - Note: Fails for infinities and NaN without an alignment (C88_non_finite_violated), where the usual place is the left (C88_non_finite_place). Everything else, errors included: C88_written_out_partial.
* **C89 17 significant digits tell every double from all others** (proved) - Rounding to 17 significant digits moves a number by less than half of the distance to the next double (2^53 < 10^16), so the literal is read as the double (C41, C42 for the digits, readsAs_iff for the reading); different doubles then have different texts, as a literal has one value (C39_reading_is_unique). Counterexample for 16 digits.
  - `C89_17_digits` [PCQ]
  - `C89_fixed` [PCQ]
  - `C89_different_texts` [PCQ]
  - `C89_16_digits_are_not_enough` [PCQ]
* **C90 whole numbers are written alike as integers and as floating-point numbers** (proved) - The shortest digits of a whole number below 10^16 denote exactly this number (a number read as the double is less than one away, or exactly one away from an even number); so they are the digits of its numeral. For .0f by C44 with zero decimals. Spec/Whole.
  - `C90_same_text` [PCQ]
  - `C90_no_decimals` [PCQ]
  - `C90_any_integer_type` [PCQ]
  - `C90_limits` [PCQ]
* **C91 a type that can be formatted in one way only is formatted in that way** (partial) - Types as an inductive type that says of each class which of the concepts it meets; the candidates among the specialisations and their ambiguity (Model/Select); the ways of Spec/Types as a relation. Mutual induction over the type for types with one way; witnesses for types with two ways and for references.
  - `C91_two_ways_violated` [P]
  - `C91_reference_violated` [PQ]
  - `C91_formatter_partial` [PQ]
  - `C91_one_way_partial` [PQ]
  - `C91_behind_references` [PQ]
  - `C91_does_not_compile` [PQ]
  - `C91_without_a_way` [PCQ]
  - Note: Fails for types with two ways (C91_two_ways_violated: ambiguous, so the program does not compile) and for a format_as that returns a reference (C91_reference_violated). Proved for types with one way and values: C91_formatter_partial, C91_one_way_partial.
* **C92 general notation is fixed or exponent notation, depending on the exponent** (proved) - From the exact text of C42 (roundSignificant, dropZeros): rounding to n significant digits is rounding to n - 1 - x decimals, x being the exponent of the rounded number, also if it is rounded up to a power of ten; dropping zeros of the digits is dropping zeros of the text (Spec/General).
  - `C92_general_notation` [PCQ]
* **C93 an integer can be read off its text, whatever the specification is** (proved) - From the text of C30 and the value of numerals: characters around the number are skipped, the prefix and the zeros of the zero flag do not change the value (Spec/Recover).
  - `C93_recovered` [PCQ]
  - `C93_told_apart` [PCQ]
* **C94 containers of values with a formatter of the user** (partial) - The formatters of containers over an arbitrary formatter (Model/UserContainers). Texts and errors by composing what the element formatters emit; for formatters made of those of the library a simulation with Model/Values by induction on how they are made, and conversely every type without variants has such a formatter. Tuples at the end of the format string: the reader of a tuple is moved too far, but not past the end.
  - `C94_range` [PCQ]
  - `C94_range_error` [PCQ]
  - `C94_optional_some` [PCQ]
  - `C94_optional_none` [PCQ]
  - `C94_optional_error` [PCQ]
  - `C94_variant` [PCQ]
  - `C94_variant_valueless` [PCQ]
  - `C94_variant_error` [PCQ]
  - `C94_range_decent_partial` [PCQ]
  - `C94_optional_decent` [PQ]
  - `C94_variant_decent` [PCQ]
  - `C94_unread_specification_violated` [PCQ]
  - `C94_accepted_partial` [PCQ]
  - `C94_as_library` [PCQ]
  - `C94_nesting` [PCQ]
  - `C94_containers_violated` [P]
  - `C94_announced_violated` [PCQ]
  - `C94_announced_partial` [PCQ]
  - `C94_tuple_partial` [PCQ]
  - `C94_tuple_error_partial` [PCQ]
  - `C94_range_last` [PCQ]
  - `C94_last_field_partial` [PCQ]
  - Note: Fails for {} on a range whose element formatter rejects an empty specification (C94_unread_specification_violated; otherwise C94_accepted_partial), for what can be put into containers (C94_containers_violated; C94_nesting for everything of the library but variants), and for errors the elements announce (C94_announced_violated, C94_announced_partial). Tuples, pairs and maps of values with any formatter are proved where their field is the end of the format string (C94_tuple_partial, C94_tuple_error_partial, C94_range_last, C94_last_field_partial); elsewhere the library loses text (C54).
* **C95 the shortest text of a float is read as that float, and 9 digits suffice** (partial) - The conversion of floats to doubles is exact (C70). What is read from the shortest text of the double rounds to the double, so it is nearer to the float than the middle between it and the next float; 9 digits by comparing half a unit of the ninth digit with half a gap between floats.
  - `C95_shortest_violated` [PCQ]
  - `C95_round_trip_partial` [PCQ]
  - `C95_9_digits` [PCQ]
  - `C95_8_digits_are_not_enough` [PCQ]
  - `C95_reading_is_unique` [PCQ]
  - Note: Fails for the number of digits (C95_shortest_violated: 0.1f is written 0.10000000149011612); that the text is read as the float is C95_round_trip_partial. 9 digits: C95_9_digits; 8 are not enough: C95_8_digits_are_not_enough.
* **C96 a number and its negative are written alike but for the sign** (proved) - Both texts are one function of the sign characters, from the exact texts of C30 and the layout of non-finite numbers; that function puts a single character at a fixed place.
  - `C96_signs_take_the_same_place` [PCQ]
  - `C96_the_rest_is_the_same` [PCQ]
  - `C96_minus_is_always_shown` [PCQ]
* **C97 how many digits it takes to write a double exactly** (proved) - Rounding leaves a number alone exactly if it has no more digits (spec level); every double is D * 10^q with D below 10^767 and q at least -1074. From the correct rounding of C42; the witnesses by parity and size.
  - `C97_fixed` [PCQ]
  - `C97_1074_decimals` [PCQ]
  - `C97_significant` [PCQ]
  - `C97_767_digits` [PCQ]
  - `C97_1073_decimals_are_not_enough` [PCQ]
  - `C97_766_digits_are_not_enough` [PCQ]
* **C98 the capacity of a memory_buffer follows what is written** (partial) - A small abstract machine for the capacity (Spec/Capacity) simulated by every action of a client; the number of allocations by induction over the text.
  - `C98_capacity` [PQ]
  - `C98_no_waste` [PCQ]
  - `C98_every_character_reallocates` [PCQ]
  - `C98_few_allocations_violated` [PCQ]
  - Note: Fails for the number of allocations (C98_few_allocations_violated; C98_every_character_reallocates says exactly how many there are when characters are written one by one). The capacity itself is exact: C98_capacity, C98_no_waste.
* **C99 a buffer of the user's own receives the formatted text** (partial) - A class of the user is an arbitrary function for request_write_area with arbitrary members (Model/UserBuffer); the contract (Spec/UserBuffer) implies the one the proofs about the buffers of the library use.
  - `C99_write_str` [PCQ]
  - `C99_every_argument` [PCQ]
  - `C99_every_argument_granted` [PCQ]
  - `C99_granted` [PCQ]
  - `C99_truncated` [PCQ]
  - `C99_empty_areas_violated` [PQ]
  - Note: Fails if areas may be empty, which the documentation does not exclude (C99_empty_areas_violated); with non-empty areas: C99_write_str, C99_every_argument, C99_every_argument_granted, C99_granted.
* **C100 resetting a file_buffer starts the file over** (proved) - The file has contents and a position (Model/FileReset: reset, with a stream that can be positioned or not); sessions of client histories, each ended by reset() (Spec/Sessions); induction over the sessions with the invariant of file_buffer from C16.
  - `C100_sessions` [PCQ]
  - `C100_replaced` [PCQ]
  - Note: C100_sessions: any number of sessions, each ended by reset(), with and without a flush before it, for streams with and without a position; C100_replaced: two flushed sessions. The stream is assumed to accept all characters (short writes: C16) and to be used by nobody else.
* **C101 texts printed by several threads are not mixed up** (partial) - file_buffer as the sequence of the calls of fwrite it makes (Model/PrintCalls); invariant over the requests: the pieces are neither empty nor longer than the cache and no two neighbouring ones fit into it together, and neither would the characters in the cache behind the last piece; schedules as interleavings of the calls of the threads (Spec/Interleaving), induction over them.
  - `C101_lines_partial` [PCQ]
  - `C101_one_call` [PCQ]
  - `C101_pieces` [PCQ]
  - `C101_failed` [PCQ]
  - `C101_never_mixed_partial` [PCQ]
  - `C101_torn_apart` [PCQ]
  - `C101_never_mixed_violated` [PCQ]
  - Note: C101_one_call, C101_never_mixed_partial: texts that fit into the cache, any threads and schedules. Missing in the partial theorem: longer texts, for which the claim is false: C101_never_mixed_violated, and C101_torn_apart shows that every text longer than the cache can be torn apart, so the bound is exact. C101_pieces: the calls made for any text. fwrite is taken as one step (it locks the stream) that writes all it is asked to; short writes are in C16. C101_failed: nothing is handed to the stream if formatting fails and the text before fits into the cache.
* **C102 data written field by field with a separator is read back** (partial) - Two programs of a user in terms of writer and reader (Spec/Records); induction over the fields, with the exact result of parse_int (C01) and the position of the first separator.
  - `C102_read_back_partial` [PCQ]
  - `C102_read_back_violated` [PCQ]
  - `C102_written_and_read_partial` [PCQ]
  - Note: C102_read_back_partial: reading, at any place of any input; C102_written_and_read_partial: with writing to any reachable memory_buffer. Missing in both: separators from : to @ in bases above 10, for which the claim is false (C102_read_back_violated).
* **C103 the memory of buffers is freed exactly once and never used afterwards** (partial) - The vectors with pointers into an explicit heap with new and delete (Model/HeapVec); invariant over programs: each live block belongs to exactly one vector; simulation by the vectors as values (Model/Buffer).
  - `C103_tidy_partial` [PCQ]
  - `C103_all_freed_partial` [PCQ]
  - `C103_as_values_partial` [PCQ]
  - `C103_dangling` [PCQ]
  - `C103_dangling_use` [PCQ]
  - `C103_tidy_violated` [P]
  - Note: C103_tidy_partial, C103_all_freed_partial, C103_as_values_partial: programs of any length over any vectors on an explicit heap; memory_buffer owns memory only through such a vector and calls only these operations. Missing in all three: move assignment of a vector that still uses its inline storage to one that has outgrown it, for which the claim is false (C103_tidy_violated); C103_dangling shows that each such assignment ends in a write to a freed block or a double free, so the condition is exact. Failing allocations are not modelled. C103_dangling_use: after that assignment also reading and writing the characters is undefined.
* **C104 strings of any length are padded to the width** (partial) - The conversion of the length to int is modelled (toInt32); the padding follows for every length without a bound, and the case of signed overflow is a distinct outcome.
  - `C104_exactly` [PCQ]
  - `C104_padding_partial` [PCQ]
  - `C104_without_width` [PCQ]
  - `C104_overflow_violated` [PCQ]
  - `C104_fill_violated` [PCQ]
  - `C104_padding_violated` [PCQ]
  - Note: C104_exactly says for strings of every length what is written or that the behaviour is undefined; C104_without_width is the claim without a width. C104_padding_partial is the claim for texts shown with less than 2^31 characters. Missing: longer texts with a width, for which the claim is false (C104_padding_violated, C104_overflow_violated, C104_fill_violated).
* **C105 lists and maps of integers can be read from the text they are formatted as** (proved) - The rendering of ranges (C53) and the exactness of parse_int in front of a separator (C01); induction over the list.
  - `C105_lists` [PCQ]
  - `C105_maps` [PCQ]
  - Note: C105_lists: for all lists and the given specifications. C105_maps: maps with {}. The reading programs are readList and readMap in Spec/Lists. Maps with a specification of a base above 10 for keys and values are not in the claim: the colon behind the key would be read as a digit (C03, C102).
* **C106 a number is never cut** (proved) - The exact calls of the formatter, by induction over its cases (calls that fill the buffer around one call that writes all or nothing); what these calls leave follows from the exact behaviour of the calls on a span (C19).
  - `C106_integers` [PCQ]
  - `C106_pointers` [PCQ]
  - `C106_strings` [PCQ]
  - `C106_in_any_format` [PCQ]
  - `C106_in_any_string` [PCQ]
  - `C106_floats` [PCQ]
  - Note: C106_integers, C106_pointers, C106_floats, C106_strings: a single field, the buffer with any past. C106_in_any_format: the exact contents of the span after any accepted format string (also with widths and precisions of any size, and with ignored text behind, C63) with arguments of the core types, by the parts of its fields; C106_in_any_string states it for every string for which format succeeds. What may be cut and what may not is defined in Spec/NotCut and Spec/NotCutAll.
* **C107 a larger buffer never keeps less** (proved) - Formatting performs a list of calls that does not depend on the buffer (C71); what such a list leaves in a span is a function of the room (C19), which is monotone by induction over the list.
  - `C107_more_room` [PCQ]
  - `C107_same_room` [PCQ]
  - Note: Undefined behaviour, which is then the same for all buffers (C71), is the other case of C107_more_room.
