{
 "claims": [
  {
   "property": "C01",
   "status": "partial",
   "theorems": [
    "Emio.C01_parse_int_wide_unsigned",
    "Emio.C01_parse_int_wide_signed",
    "Emio.C01_parse_int_narrow_signed",
    "Emio.C01_parse_int_narrow_unsigned",
    "Emio.C01_parse_int_exact_partial",
    "Emio.C01_parse_int_minus_unsigned",
    "Emio.C01_parse_int_signed_overflow_is_ub",
    "Emio.C01_parse_int_wide_violated",
    "Emio.C01_parse_int_wide_unsigned_partial",
    "Emio.C01_parse_int_reference"
   ],
   "note": "Exactly what happens is proved for every type and every base. 8/16 bit unsigned: complete. 8/16 bit signed: complete for numbers of 32 bit, undefined behaviour beyond. 32/64 bit signed: a number that does not fit is undefined behaviour. 32/64 bit unsigned: the number is taken modulo 2^32 or 2^64 and only a decrease of the reduced value at some digit is noticed. The violations are C01_parse_int_wide_violated and C01_parse_int_signed_overflow_is_ub. C01_parse_int_reference is one equation for every type, base and reader."
  },
  {
   "property": "C02",
   "status": "proved",
   "theorems": [
    "Emio.C02_failed_parse_int_keeps_position",
    "Emio.C02_parse_int_consumes_sign_and_digits"
   ],
   "note": ""
  },
  {
   "property": "C03",
   "status": "partial",
   "theorems": [
    "Emio.C03_signed_char_value",
    "Emio.C03_only_numerals_partial",
    "Emio.C03_only_numerals_violated",
    "Emio.C03_signedness_of_char_is_irrelevant",
    "Emio.C03_exactly"
   ],
   "note": "':' to '@' count as digits 10 to 16 in bases above 10: proved as violated; proved for all other characters. C03_exactly says for every character other than the two signs, every base and every integer type what parsing it alone gives: the numerals of the base, plus ':' to '@' in bases above 10 (takenDigit)."
  },
  {
   "property": "C04",
   "status": "proved",
   "theorems": [
    "Emio.C04_reader_stays_in_input",
    "Emio.C04_only_signed_parse_int_is_undefined"
   ],
   "note": ""
  },
  {
   "property": "C05",
   "status": "proved",
   "theorems": [
    "Emio.C05_read_until_predicate",
    "Emio.C05_read_until_char",
    "Emio.C05_read_until_any_of",
    "Emio.C05_read_until_none_of",
    "Emio.C05_read_until_str",
    "Emio.C05_read_until_eof"
   ],
   "note": ""
  },
  {
   "property": "C06",
   "status": "proved",
   "theorems": [
    "Emio.C06_read_char",
    "Emio.C06_read_n_chars",
    "Emio.C06_read_if_match_char",
    "Emio.C06_read_if_match_str"
   ],
   "note": ""
  },
  {
   "property": "C07",
   "status": "partial",
   "theorems": [
    "Emio.C07_subreader_window_partial",
    "Emio.C07_subreader_violated",
    "Emio.C07_exactly"
   ],
   "note": "The window is exact unless pos + len wraps around 2^64, where the bounds check is bypassed: proved as violated. C07_exactly says what subreader does for every offset of a size_t: window, end-of-file, a window before the read position when the pointer sum wraps, undefined behaviour when that lies before the input."
  },
  {
   "property": "C08",
   "status": "proved",
   "theorems": [
    "Emio.C08_write_int",
    "Emio.C08_write_int_span",
    "Emio.C08_write_int_bad_base"
   ],
   "note": ""
  },
  {
   "property": "C09",
   "status": "proved",
   "theorems": [
    "Emio.C09_write_then_parse"
   ],
   "note": ""
  },
  {
   "property": "C10",
   "status": "proved",
   "theorems": [
    "Emio.C10_digit_count_exact"
   ],
   "note": ""
  },
  {
   "property": "C11",
   "status": "proved",
   "theorems": [
    "Emio.C11_span_view",
    "Emio.C11_span_exact_request",
    "Emio.C11_span_max_request",
    "Emio.C11_static_copy",
    "Emio.C11_span_copy",
    "Emio.C11_all_written"
   ],
   "note": ""
  },
  {
   "property": "C12",
   "status": "proved",
   "theorems": [
    "Emio.C12_memory_buffer",
    "Emio.C12_memory_buffer_request"
   ],
   "note": ""
  },
  {
   "property": "C13",
   "status": "partial",
   "theorems": [
    "Emio.C13_copy_assign_exact",
    "Emio.C13_move_assign_exact",
    "Emio.C13_copy_construct",
    "Emio.C13_move_construct",
    "Emio.C13_copy_assign_partial",
    "Emio.C13_copy_assign_violated",
    "Emio.C13_move_assign_partial",
    "Emio.C13_move_assign_violated"
   ],
   "note": "Copy and move construction are proved for every buffer. Both assignments are characterised exactly for any two buffers. Copy assignment always succeeds with the right content; afterwards the buffer works as long as memFits (four numbers, Spec/Assign.lean) says so, and is undefined behaviour where it says no (C13_copy_assign_exact): only targets that are larger than the source are affected. Move assignment is undefined behaviour exactly if the target has outgrown its inline storage and the source has not (C13_move_assign_exact). The full claims are refuted by C13_copy_assign_violated and C13_move_assign_violated."
  },
  {
   "property": "C14",
   "status": "proved",
   "theorems": [
    "Emio.C14_iterator_buffer",
    "Emio.C14_iterator_buffer_request",
    "Emio.C14_output_pointer",
    "Emio.C14_all_written",
    "Emio.C14_all_written_pointer"
   ],
   "note": ""
  },
  {
   "property": "C15",
   "status": "partial",
   "theorems": [
    "Emio.C15_back_inserter_every_argument",
    "Emio.C15_back_insert_exact",
    "Emio.C15_format_to_back_inserter",
    "Emio.C15_format_to_back_inserter_room",
    "Emio.C15_format_to_back_inserter_violated",
    "Emio.C15_back_insert_out_of_bounds_violated",
    "Emio.C15_back_insert_overwrites_violated",
    "Emio.C15_back_insert_partial"
   ],
   "note": "The code overwrites existing content and hands out areas behind the end of the container: both proved, also for `format_to`. `C15_back_insert_exact` says for every container and every client exactly when it goes well (then the container holds the text instead of its previous content) and when it is undefined behaviour; `C15_format_to_back_inserter` says the same for `format_to` with any string and arguments of any types but tuples, `C15_format_to_back_inserter_room` that enough room from the start is enough. C15_back_inserter_every_argument holds for arguments of every kind whenever format has no undefined behaviour."
  },
  {
   "property": "C16",
   "status": "partial",
   "theorems": [
    "Emio.C16_file_buffer",
    "Emio.C16_short_write_partial",
    "Emio.C16_short_write_is_reported",
    "Emio.C16_retry_flush_violated",
    "Emio.C16_all_written",
    "Emio.C16_exactly",
    "Emio.C16_nothing_lost"
   ],
   "note": "Proved for streams that accept everything and up to the first error. Flushing again after a short write duplicates characters: proved as violated. C16_exactly says for every cache size, every history of writes and flushes and every behaviour of fwrite (any number of characters accepted per call) what is in the file and what is pending: exactly Spec/Stream. C16_nothing_lost: no written character disappears or changes order - the written text is a subsequence of file plus pending - so the defect is repetition of characters after a short write, never loss."
  },
  {
   "property": "C17",
   "status": "proved",
   "theorems": [
    "Emio.C17_counting_buffer",
    "Emio.C17_all_counted"
   ],
   "note": ""
  },
  {
   "property": "C18",
   "status": "partial",
   "theorems": [
    "Emio.C18_truncating_memory_buffer",
    "Emio.C18_truncating_span_buffer",
    "Emio.C18_truncating_iterator_buffer",
    "Emio.C18_truncating_output_pointer",
    "Emio.C18_small_primary_cache_violated",
    "Emio.C18_all_written",
    "Emio.C18_all_written_span",
    "Emio.C18_all_written_iterator",
    "Emio.C18_exactly"
   ],
   "note": "Proved for primary buffers used by the library. With a primary buffer of a smaller cache the code writes wrong characters: proved as violated. C18_exactly covers caches of any two sizes and every client history: the count is right, and the iterator receives exactly what Spec/Truncating says - every piece that goes through a smaller cache is taken from the beginning of the pending characters."
  },
  {
   "property": "C19",
   "status": "proved",
   "theorems": [
    "Emio.C19_span_buffer_exactly",
    "Emio.C19_memory_buffer_appends",
    "Emio.C19_span_buffer_appends",
    "Emio.C19_span_write_str",
    "Emio.C19_write_char_n_is_write_str",
    "Emio.C19_iterator_buffer_appends",
    "Emio.C19_iterator_buffer_prefix",
    "Emio.C19_file_buffer_appends",
    "Emio.C19_counting_buffer_counts"
   ],
   "note": ""
  },
  {
   "property": "C20",
   "status": "proved",
   "theorems": [
    "Emio.C20_escaped_string",
    "Emio.C20_escaped_char",
    "Emio.C20_escaped_string_span_too_small"
   ],
   "note": ""
  },
  {
   "property": "C21",
   "status": "proved",
   "theorems": [
    "Emio.C21_escaped_is_printable",
    "Emio.C21_escaped_literal_ends_at_quote",
    "Emio.C21_escape_injective",
    "Emio.C21_escaped_output_determines_string"
   ],
   "note": ""
  },
  {
   "property": "C22",
   "status": "partial",
   "theorems": [
    "Emio.C22_accepted_without_O_succeeds",
    "Emio.C22_accepted_with_O_fails",
    "Emio.C22_without_O_succeeds",
    "Emio.C22_with_O_fails",
    "Emio.C22_fails_iff_O",
    "Emio.C22_validation_total",
    "Emio.C22_octal_violated",
    "Emio.C22_accepted_formats_succeed_partial",
    "Emio.C22_no_undefined_behaviour_partial",
    "Emio.C22_rejected_is_invalid_format"
   ],
   "note": "Violated by '{:O}' of an integer; for every accepted string (widths of any size, ignored text behind {255}) it is proved which ones succeed and which fail with what output."
  },
  {
   "property": "C23",
   "status": "partial",
   "theorems": [
    "Emio.C23_argument_255_violated",
    "Emio.C23_accepted_strings_partial",
    "Emio.C23_accepted_uses_arguments_partial"
   ],
   "note": "'{255}' is accepted without any argument: proved as violated. C23_accepted_strings_partial says what holds for every accepted string: only text behind a field for argument 255 is ignored, every argument in front of it is used, and no other."
  },
  {
   "property": "C24",
   "status": "partial",
   "theorems": [
    "Emio.C24_any_accepted",
    "Emio.C24_violated",
    "Emio.C24_output_partial",
    "Emio.C24_fields_are_independent_partial",
    "Emio.C24_only_templates_are_accepted"
   ],
   "note": "Violated by '{255}!', whose fields and literal text are ignored; C24_any_accepted says for every accepted string what is written. Where the text of each field is given, type 'O', escaped debug characters and the zero lost in fixed notation are excluded (see C22, C31, C44)."
  },
  {
   "property": "C25",
   "status": "proved",
   "theorems": [
    "Emio.C25_plain_string",
    "Emio.C25_escaped_text"
   ],
   "note": ""
  },
  {
   "property": "C26",
   "status": "partial",
   "theorems": [
    "Emio.C26_automatic_numbering_partial",
    "Emio.C26_core_values",
    "Emio.C26_tuples_violated"
   ],
   "note": "Proved for every format string whatever its fields contain, accepted or not, on every buffer, for all arguments but tuples, which skip by absolute positions: proved as violated."
  },
  {
   "property": "C27",
   "status": "proved",
   "theorems": [
    "Emio.C27_parse_agrees_with_validate",
    "Emio.C27_formatter_parse_agrees_with_validate"
   ],
   "note": ""
  },
  {
   "property": "C28",
   "status": "proved",
   "theorems": [
    "Emio.C28_allowed_specifications",
    "Emio.C28_grammar_is_accepted",
    "Emio.C28_only_grammar_is_accepted",
    "Emio.C28_type_check"
   ],
   "note": ""
  },
  {
   "property": "C29",
   "status": "partial",
   "theorems": [
    "Emio.C29_width_overflow_violated",
    "Emio.C29_widths_taken_or_rejected_partial",
    "Emio.C29_numbers_of_any_size",
    "Emio.C29_type_check",
    "Emio.C29_formatted_with_reduced_numbers"
   ],
   "note": "Holds for values below 2^32; larger ones wrap around in the reader: proved as violated. C29_numbers_of_any_size says exactly what happens to a number of any size, C29_formatted_with_reduced_numbers what whole format strings are formatted to."
  },
  {
   "property": "C30",
   "status": "proved",
   "theorems": [
    "Emio.C30_integers"
   ],
   "note": "Every type, value and accepted specification with one of the documented types; 'O', which is accepted and then fails, is C22."
  },
  {
   "property": "C31",
   "status": "partial",
   "theorems": [
    "Emio.C31_debug_char_exactly",
    "Emio.C31_debug_char_too_wide",
    "Emio.C31_debug_char_violated",
    "Emio.C31_width_is_met_partial"
   ],
   "note": "Violated for debug characters that need an escape sequence; proved for all other arguments. C31_debug_char_exactly gives the text of every debug character, C31_debug_char_too_wide by how much the width is missed."
  },
  {
   "property": "C32",
   "status": "proved",
   "theorems": [
    "Emio.C32_strings",
    "Emio.C32_precision"
   ],
   "note": ""
  },
  {
   "property": "C33",
   "status": "partial",
   "theorems": [
    "Emio.C33_debug_char_violated",
    "Emio.C33_bool_partial",
    "Emio.C33_char_partial",
    "Emio.C33_pointer"
   ],
   "note": "Type 'O' excluded (C22); debug characters that need an escape sequence excluded when the width is above 3 (C31, C33_debug_char_violated). The remaining case is C31_debug_char_exactly."
  },
  {
   "property": "C34",
   "status": "partial",
   "theorems": [
    "Emio.C34_through_cache_exactly",
    "Emio.C34_cache_decides",
    "Emio.C34_long_float_violated",
    "Emio.C34_same_text_partial"
   ],
   "note": "Violated for floating-point numbers with more than 128 characters in one piece, which functions with a cache of 128 characters reject; C34_through_cache_exactly says for every accepted format string exactly when this happens, and that all functions agree otherwise."
  },
  {
   "property": "C35",
   "status": "proved",
   "theorems": [
    "Emio.C35_fixed_size_buffer",
    "Emio.C35_what_is_kept"
   ],
   "note": "For every format string and every core argument that can be formatted."
  },
  {
   "property": "C36",
   "status": "partial",
   "theorems": [
    "Emio.C36_first_n_decides",
    "Emio.C36_buffers_decide",
    "Emio.C36_long_float_violated",
    "Emio.C36_format_to_n_buffer_partial",
    "Emio.C36_format_to_n_iterator_partial",
    "Emio.C36_format_to_n_pointer_partial"
   ],
   "note": "format_to_n fails exactly for numbers of more than 128 characters in one piece (C36_first_n_decides; C36_long_float_violated); otherwise proved."
  },
  {
   "property": "C37",
   "status": "proved",
   "theorems": [
    "Emio.C37_println_every_argument",
    "Emio.C37_print_decides",
    "Emio.C37_print_text",
    "Emio.C37_null_file",
    "Emio.C37_println",
    "Emio.C37_println_nested"
   ],
   "note": "For a file that takes everything, all strings, accepted or not, and all arguments (C37_println, C37_println_nested). C37_print_text, C37_print_decides: what print sends, given what format yields. C71_print: files that do not take everything. C37_println_every_argument holds for arguments of every kind."
  },
  {
   "property": "C38",
   "status": "partial",
   "theorems": [
    "Emio.C38_smallest_normal_violated",
    "Emio.C38_odd_subnormal_violated",
    "Emio.C38_decoded_exactly_partial"
   ],
   "note": "Violated for the distance below the smallest normal number and for the boundaries of subnormal numbers with an odd fraction, both proved with a witness and both harmless (C39, C40); proved for everything else."
  },
  {
   "property": "C39",
   "status": "proved",
   "theorems": [
    "Emio.C39_round_trip",
    "Emio.C39_reading_is_unique"
   ],
   "note": "Zero included. ReadsAs is the correctly rounded value (nearest, ties to even, overflow limit); C39_reading_is_unique shows that it determines the double."
  },
  {
   "property": "C40",
   "status": "proved",
   "theorems": [
    "Emio.C40_shortest_and_closest"
   ],
   "note": "Shortest also fixes the choice among equally close candidates (the larger one)."
  },
  {
   "property": "C41",
   "status": "proved",
   "theorems": [
    "Emio.C41_at_most_17_digits"
   ],
   "note": ""
  },
  {
   "property": "C42",
   "status": "proved",
   "theorems": [
    "Emio.C42_fixed_is_correctly_rounded",
    "Emio.C42_significant_digits_are_correctly_rounded"
   ],
   "note": ""
  },
  {
   "property": "C43",
   "status": "proved",
   "theorems": [
    "Emio.C43_operations_are_exact",
    "Emio.C43_construction_is_exact",
    "Emio.C43_digit_generation_is_defined"
   ],
   "note": ""
  },
  {
   "property": "C44",
   "status": "partial",
   "theorems": [
    "Emio.C44_lost_zero_violated",
    "Emio.C44_fixed_has_decimals_partial",
    "Emio.C44_fixed_notation"
   ],
   "note": "'{:.2f}' of 0.0999 gives 0.1: proved as violated. The numbers concerned are characterised exactly (LostZero); for those one zero is missing, for all others the property is proved."
  },
  {
   "property": "C45",
   "status": "proved",
   "theorems": [
    "Emio.C45_exponent_notation",
    "Emio.C45_exponent_digits"
   ],
   "note": ""
  },
  {
   "property": "C46",
   "status": "proved",
   "theorems": [
    "Emio.C46_not_finite"
   ],
   "note": ""
  },
  {
   "property": "C47",
   "status": "partial",
   "theorems": [
    "Emio.C47_template_partial",
    "Emio.C47_octal_zero_violated",
    "Emio.C47_round_trip_partial"
   ],
   "note": "The 0 written by '{:#o}' cannot be read back: proved as violated. Everything else is proved, for one field and for whole format strings whose fields are separated by text that does not look like digits."
  },
  {
   "property": "C48",
   "status": "partial",
   "theorems": [
    "Emio.C48_scan_from",
    "Emio.C48_scan",
    "Emio.C48_every_field_violated",
    "Emio.C48_every_field_partial",
    "Emio.C48_leftover",
    "Emio.C48_written_is_read"
   ],
   "note": "C48_scan_from and C48_scan are for every input and scan string: widths of 2^32 or more are taken reduced (C29), and text behind a field for variable 255 is ignored. That such fields are not read is proved as violated. The converse, which inputs are read, is C48_written_is_read."
  },
  {
   "property": "C49",
   "status": "partial",
   "theorems": [
    "Emio.C49_narrow_violated",
    "Emio.C49_width_is_exact_partial",
    "Emio.C49_number_of_width",
    "Emio.C49_width_exactly"
   ],
   "note": "A number out of range for a narrow type moves the reader: proved as violated. Proved for all other outcomes. C49_width_exactly is the outcome for every input."
  },
  {
   "property": "C50",
   "status": "partial",
   "theorems": [
    "Emio.C50_overflow_violated",
    "Emio.C50_narrow_is_checked_partial",
    "Emio.C50_stored_values_fit",
    "Emio.C50_exactly"
   ],
   "note": "Signed numbers beyond 32 bit are undefined behaviour: proved as violated. Proved otherwise. C50_exactly is the outcome for every input."
  },
  {
   "property": "C51",
   "status": "partial",
   "theorems": [
    "Emio.C51_single_zero_violated",
    "Emio.C51_base_is_detected_partial",
    "Emio.C51_exactly"
   ],
   "note": "A single 0 followed by anything is not read: proved as violated. Proved otherwise. C51_exactly is the outcome for every input."
  },
  {
   "property": "C52",
   "status": "partial",
   "theorems": [
    "Emio.C52_braces_violated",
    "Emio.C52_string_field_partial",
    "Emio.C52_single_brace",
    "Emio.C52_last_field",
    "Emio.C52_read_up_to_first_occurrence",
    "Emio.C52_exactly"
   ],
   "note": "Literal text with braces is violated (two ways). Proved for text without braces, for a single brace, and for a field at the end. C52_exactly is the outcome for any text and every input."
  },
  {
   "property": "C53",
   "status": "proved",
   "theorems": [
    "Emio.C53_map",
    "Emio.C53_range",
    "Emio.C53_range_total",
    "Emio.C53_range_needs_elements",
    "Emio.C53_in_format_string"
   ],
   "note": "Specifications n and :spec, nested to any depth, sequences and sets/maps; in whole format strings for arguments without tuples (C54)."
  },
  {
   "property": "C54",
   "status": "partial",
   "theorems": [
    "Emio.C54_lost_exactly",
    "Emio.C54_text_lost_exactly",
    "Emio.C54_tuple",
    "Emio.C54_rest_is_lost_violated",
    "Emio.C54_undefined_behaviour_violated",
    "Emio.C54_last_field_partial"
   ],
   "note": "Proved as violated: text behind the field is lost ('{}!'), and '{}{}' has undefined behaviour. Rendering alone and at the end of the format string is proved. C54_text_lost_exactly says how much: as many characters of the text behind the field as the format string has in front of the elements' specification. C54_lost_exactly says for every accepted string, any number of fields, any types and nesting, how many characters are lost behind each field (Spec/Loss), as long as the text behind a field with a tuple has no braces and is long enough. Missing: losses that reach into the next field."
  },
  {
   "property": "C55",
   "status": "proved",
   "theorems": [
    "Emio.C55_optional_some",
    "Emio.C55_optional_none",
    "Emio.C55_optional_needs_content",
    "Emio.C55_monostate",
    "Emio.C55_variant",
    "Emio.C55_variant_total",
    "Emio.C55_valueless"
   ],
   "note": "For any nesting of contents."
  },
  {
   "property": "C56",
   "status": "proved",
   "theorems": [
    "Emio.C56_truncating_iterator",
    "Emio.C56_truncating_pointer"
   ],
   "note": ""
  },
  {
   "property": "C57",
   "status": "proved",
   "theorems": [
    "Emio.C57_bitset"
   ],
   "note": ""
  },
  {
   "property": "C58",
   "status": "partial",
   "theorems": [
    "Emio.C58_signed_overflow_violated",
    "Emio.C58_scan_is_defined_partial",
    "Emio.C58_few_digits_partial",
    "Emio.C58_seven_digits_partial",
    "Emio.C58_undefined_exactly"
   ],
   "note": "Signed variables are violated (overflow). Proved for every scan string if all integer variables are unsigned, and for all variables if the input has only runs of digits that are short enough to fit (9 decimal digits, 7 digits of any base; 18 and 15 for 64 bit). C58_undefined_exactly says for every scan string, types and input exactly when the behaviour is undefined."
  },
  {
   "property": "C59",
   "status": "partial",
   "theorems": [
    "Emio.C59_accepted_violated",
    "Emio.C59_accepted_strings",
    "Emio.C59_accepted_scan_strings_partial"
   ],
   "note": "'{255}' is accepted without any variable: proved as violated. C59_accepted_strings is exact for every string, with such fields and with widths of any size."
  },
  {
   "property": "C60",
   "status": "partial",
   "theorems": [
    "Emio.C60_dynamic_is_written",
    "Emio.C60_dynamic_text",
    "Emio.C60_none_given",
    "Emio.C60_in_format_string",
    "Emio.C60_precision_without_effect",
    "Emio.C60_precision_is_kept_violated",
    "Emio.C60_precision_terminates_violated"
   ],
   "note": "Proved for every width and precision that could be written in the format string, for all types and nested ranges. Larger precisions of floating-point numbers are violated: they are cut to 16 bits, or terminate the program."
  },
  {
   "property": "C61",
   "status": "partial",
   "theorems": [
    "Emio.C61_without_O_succeeds",
    "Emio.C61_with_O_fails",
    "Emio.C61_fails_iff_O",
    "Emio.C61_any_string",
    "Emio.C61_octal_violated",
    "Emio.C61_validation_total",
    "Emio.C61_accepted_succeeds_partial",
    "Emio.C61_no_undefined_behaviour_partial"
   ],
   "note": "Without conditions refuted (C61_octal_violated: a specification ending with O). C61_any_string is exact for every string and all arguments without tuples: refused, formatted, or failing at the first field that asks for O of something. Tuples are excluded (C54)."
  },
  {
   "property": "C62",
   "status": "proved",
   "theorems": [
    "Emio.C62_nested",
    "Emio.C62_nested_text",
    "Emio.C62_nested_twice",
    "Emio.C62_in_format_string"
   ],
   "note": "For any nested string and arguments, on any buffer; in whole format strings with any other arguments."
  },
  {
   "property": "C63",
   "status": "partial",
   "theorems": [
    "Emio.C63_accepted_violated",
    "Emio.C63_accepted_strings_partial",
    "Emio.C63_accepted_format_strings_partial",
    "Emio.C63_ignored_text",
    "Emio.C63_templates_are_accepted",
    "Emio.C63_tuples_violated",
    "Emio.C63_accepted_strings_any_types",
    "Emio.C63_accepted_strings"
   ],
   "note": "'{255}' is accepted without any argument: proved as violated. C63_accepted_strings is exact for all strings and core arguments, including '{255}' and widths of any size; C63_accepted_strings_any_types is the same for arguments of any types but tuples (ranges, optionals, variants, nested); C63_ignored_text says what the strings with '{255}' are formatted to. For tuples both directions fail (C63_tuples_violated)."
  },
  {
   "property": "C64",
   "status": "partial",
   "theorems": [
    "Emio.C64_in_memory_every_argument",
    "Emio.C64_error_every_argument",
    "Emio.C64_through_cache_exactly",
    "Emio.C64_cache_decides",
    "Emio.C64_in_memory",
    "Emio.C64_any_arguments",
    "Emio.C64_through_cache_partial",
    "Emio.C64_long_float_violated"
   ],
   "note": "The functions that format into memory: proved for all arguments (any string for arguments without tuples; strings of the grammar with tuples at the end otherwise, C54). The functions with a cache of 128 characters: proved unless a floating-point number has more than 127 characters, which is proved as violated. C64_through_cache_exactly and C64_cache_decides say, for every string that format can format and for values of any type but tuples, exactly when the functions with a cache give the same text: unless a number inside of the ranges and optionals of some argument has more than 128 characters in one piece under its specification; then all of them fail with end-of-file. C64_in_memory_every_argument and C64_error_every_argument hold for arguments of every kind, tuples and user formatters included."
  },
  {
   "property": "C65",
   "status": "partial",
   "theorems": [
    "Emio.C65_get_bit",
    "Emio.C65_add_small_partial",
    "Emio.C65_sub_small_partial",
    "Emio.C65_mul_partial",
    "Emio.C65_div_rem_small_partial",
    "Emio.C65_add_small_violated",
    "Emio.C65_sub_small_violated",
    "Emio.C65_mul_violated",
    "Emio.C65_div_rem_small_violated",
    "Emio.C65_add_small_at_size",
    "Emio.C65_add_small_exactly",
    "Emio.C65_sub_small_size",
    "Emio.C65_sub_small_exactly",
    "Emio.C65_div_rem_small_exactly",
    "Emio.C65_mul_exactly"
   ],
   "note": "Values are exact. The size fields are not maintained: add_small shrinks them, sub_small, mul and div_rem_small leave leading zero blocks or cut the number, each proved as violated; the partial theorems give the exact value and the conditions under which the result is like every other number. Exactly which size add_small_at, sub_small and div_rem_small leave, and for which numbers it is right, is proved (C65_add_small_exactly, C65_sub_small_exactly, C65_div_rem_small_exactly); and C65_mul_exactly for mul and mul_digits."
  },
  {
   "property": "C66",
   "status": "proved",
   "theorems": [
    "Emio.C66_observers",
    "Emio.C66_zero_error",
    "Emio.C66_void_observers",
    "Emio.C66_names_are_distinct",
    "Emio.C66_equality",
    "Emio.C66_void_equality",
    "Emio.C66_try",
    "Emio.C66_try_all"
   ],
   "note": "Results as values; the EMIO_TRY macros as the bind of the outcome monad used by the whole model. C66_zero_error: what a result of the value 0, which is no error, does."
  },
  {
   "property": "C67",
   "status": "proved",
   "theorems": [
    "Emio.C67_valid_is_accepted",
    "Emio.C67_as_valid",
    "Emio.C67_from",
    "Emio.C67_empty"
   ],
   "note": "Every history of conversions."
  },
  {
   "property": "C68",
   "status": "partial",
   "theorems": [
    "Emio.C68_exactly",
    "Emio.C68_format_violated",
    "Emio.C68_format_partial",
    "Emio.C68_formatted_size_violated",
    "Emio.C68_formatted_size_partial",
    "Emio.C68_print_partial",
    "Emio.C68_print_violated"
   ],
   "note": "Violated by '{:O}' of an integer, and by formatted_size and print of floating-point numbers of more than 127 characters; proved otherwise: format for all argument types without tuples, the others for core arguments. C68_exactly says for every valid format string and for values of any type but tuples which of format, formatted_size, print and println return and which exception they throw otherwise."
  },
  {
   "property": "C69",
   "status": "proved",
   "theorems": [
    "Emio.C69_validation",
    "Emio.C69_format",
    "Emio.C69_format_values",
    "Emio.C69_scan",
    "Emio.C69_fill_n",
    "Emio.C69_copy_n",
    "Emio.C69_equal_n",
    "Emio.C69_equal_n_exactly"
   ],
   "note": "All buffers, all arguments; run-time undefined behaviour is excluded by hypothesis and shown never to occur for all argument types without tuples (C61)."
  },
  {
   "property": "C70",
   "status": "proved",
   "theorems": [
    "Emio.C70_integers",
    "Emio.C70_same_number",
    "Emio.C70_float_is_exact",
    "Emio.C70_float_not_finite",
    "Emio.C70_valid",
    "Emio.C70_strings",
    "Emio.C70_float_text"
   ],
   "note": "Conversions of the compiler (float to double, enumerator to integer) are modelled as the language prescribes."
  },
  {
   "property": "C71",
   "status": "proved",
   "theorems": [
    "Emio.C71_every_argument",
    "Emio.C71_any_depth",
    "Emio.C71_core",
    "Emio.C71_nested",
    "Emio.C71_print",
    "Emio.C71_print_refused"
   ],
   "note": "C71_core and C71_nested exclude tuples (see C54), C71_every_argument does not. A null file pointer gives invalid_data. C71_every_argument drops all hypotheses on types, numbers and tuples: either every function has the same undefined behaviour, or all deliver one text. C71_any_depth: the same for format strings nested to any depth."
  },
  {
   "property": "C72",
   "status": "proved",
   "theorems": [
    "Emio.C72_any_depth",
    "Emio.C72_nested_is_inlined",
    "Emio.C72_nested_many_times",
    "Emio.C72_fields",
    "Emio.C72_error",
    "Emio.C72_any_string",
    "Emio.C72_parse_only",
    "Emio.C72_inherited"
   ],
   "note": "What format does is a program over the writer that passes errors of the output on. In C72_any_string builtin arguments are values without tuples (C54). C72_any_depth extends C72_any_string to arguments of every kind at any depth: widths and precisions given at run time (at most 1100 digits for floating-point numbers), and format strings with arguments of every kind, nested to any depth. C72_nested_is_inlined and C72_nested_many_times say that nesting changes nothing."
  },
  {
   "property": "C73",
   "status": "proved",
   "theorems": [
    "Emio.C73_fields",
    "Emio.C73_whole_input",
    "Emio.C73_any_string",
    "Emio.C73_builtin",
    "Emio.C73_integer",
    "Emio.C73_inherited"
   ],
   "note": "Scanners are arbitrary programs over reader and input; all variables of a scan have one type, which can be a sum. The example of inheritance in docs/API.md (scan of 0x2A with {:x}) reports an error in the model; with {:#x} it reads 42."
  },
  {
   "property": "C74",
   "status": "proved",
   "theorems": [
    "Emio.C74_stored_arguments",
    "Emio.C74_scalars",
    "Emio.C74_dangling"
   ],
   "note": "Memory maps addresses to objects; an object is a scalar, characters, or any value of the modelled types. The part about objects that are gone is for types without tuples (for those see C54)."
  },
  {
   "property": "C75",
   "status": "proved",
   "theorems": [
    "Emio.C75_references",
    "Emio.C75_frame",
    "Emio.C75_distinct",
    "Emio.C75_gone",
    "Emio.C75_gone_is_undefined"
   ],
   "note": "Memory maps addresses to variables. Scanned string views are copied into the variable; that they point into the input is not modelled. C75_gone, C75_gone_is_undefined: variables that are gone when the scan takes place."
  },
  {
   "property": "C76",
   "status": "proved",
   "theorems": [
    "Emio.C76_columns",
    "Emio.C76_round_trip"
   ],
   "note": "C76_round_trip is for strings without widths, C76_columns for all: with a width, scanning takes exactly that many characters, so that what was padded with blanks cannot be read back. The values are those scan can read: floating-point numbers and bool have no scanner."
  },
  {
   "property": "C77",
   "status": "proved",
   "theorems": [
    "Emio.C77_concatenation",
    "Emio.C77_same_arguments",
    "Emio.C77_any_strings",
    "Emio.C77_concatenation_any_types",
    "Emio.C77_same_arguments_any_types",
    "Emio.C77_any_strings_any_types"
   ],
   "note": "Proved for core arguments (templates, any two strings without numbers) and again for arguments of any types but tuples (nested ranges, optionals, variants): `C77_concatenation_any_types`, `C77_same_arguments_any_types`, `C77_any_strings_any_types`. Tuples are left out because a tuple makes the parser lose its place (C54)."
  },
  {
   "property": "C78",
   "status": "proved",
   "theorems": [
    "Emio.C78_numbers_select",
    "Emio.C78_reordered",
    "Emio.C78_numbers_select_any_types",
    "Emio.C78_reordered_any_types"
   ],
   "note": "Proved for core arguments and again for arguments of any types but tuples (`C78_numbers_select_any_types`, `C78_reordered_any_types`)."
  },
  {
   "property": "C79",
   "status": "proved",
   "theorems": [
    "Emio.C79_scan_from",
    "Emio.C79_scan",
    "Emio.C79_single_field"
   ],
   "note": "The interpreter is Spec/ScanReference.lean; the strings that are accepted are those of C59 (as parts, with numbers as they are computed). Wrong behaviour of the code (C01, C49 to C52, C58) is part of the interpreter."
  },
  {
   "property": "C80",
   "status": "proved",
   "theorems": [
    "Emio.C80_concatenation",
    "Emio.C80_same_variables",
    "Emio.C80_any_strings",
    "Emio.C80_string_at_the_end"
   ],
   "note": "Where errors differ: literal text that spans the two strings is matched as a whole, so that the kind of error and the position of the reader may differ. C80_any_strings is about any two strings without numbers."
  },
  {
   "property": "C81",
   "status": "proved",
   "theorems": [
    "Emio.C81_reordered"
   ],
   "note": "All scan strings that are accepted are such templates (C59), but for those of C59's witness, which end with {255."
  },
  {
   "property": "C82",
   "status": "partial",
   "theorems": [
    "Emio.C82_optional_strings_violated",
    "Emio.C82_variants_violated",
    "Emio.C82_values_are_told_apart_partial",
    "Emio.C82_elements_are_told_apart"
   ],
   "note": "Fails for optional strings inside of ranges and tuples (witness: a vector of one and one of two optional strings) and for variants with alternatives of one kind (witness: variant<int, double> of 1 and of 1.0). Proved for all other types, with variants whose alternatives are of different kinds. Missing: types with such optional strings or alternatives that happen to be unambiguous."
  },
  {
   "property": "C83",
   "status": "proved",
   "theorems": [
    "Emio.C83_order_is_kept",
    "Emio.C83_sign_is_only_a_sign",
    "Emio.C83_error"
   ],
   "note": ""
  },
  {
   "property": "C84",
   "status": "proved",
   "theorems": [
    "Emio.C84_overload",
    "Emio.C84_calls",
    "Emio.C84_honest",
    "Emio.C84_throws",
    "Emio.C84_inherited"
   ],
   "note": ""
  },
  {
   "property": "C85",
   "status": "proved",
   "theorems": [
    "Emio.C85_upper_case"
   ],
   "note": ""
  },
  {
   "property": "C86",
   "status": "proved",
   "theorems": [
    "Emio.C86_order",
    "Emio.C86_fixed_width"
   ],
   "note": ""
  },
  {
   "property": "C87",
   "status": "proved",
   "theorems": [
    "Emio.C87_argument",
    "Emio.C87_text",
    "Emio.C87_fixed_size_buffer"
   ],
   "note": ""
  },
  {
   "property": "C88",
   "status": "partial",
   "theorems": [
    "Emio.C88_non_finite_violated",
    "Emio.C88_written_out_partial",
    "Emio.C88_non_finite_place"
   ],
   "note": "Fails for infinities and NaN without an alignment (C88_non_finite_violated), where the usual place is the left (C88_non_finite_place). Everything else, errors included: C88_written_out_partial."
  },
  {
   "property": "C89",
   "status": "proved",
   "theorems": [
    "Emio.C89_17_digits",
    "Emio.C89_fixed",
    "Emio.C89_different_texts",
    "Emio.C89_16_digits_are_not_enough"
   ],
   "note": ""
  },
  {
   "property": "C90",
   "status": "proved",
   "theorems": [
    "Emio.C90_same_text",
    "Emio.C90_no_decimals",
    "Emio.C90_any_integer_type",
    "Emio.C90_limits"
   ],
   "note": ""
  },
  {
   "property": "C91",
   "status": "partial",
   "theorems": [
    "Emio.C91_two_ways_violated",
    "Emio.C91_reference_violated",
    "Emio.C91_formatter_partial",
    "Emio.C91_one_way_partial",
    "Emio.C91_behind_references",
    "Emio.C91_does_not_compile",
    "Emio.C91_without_a_way"
   ],
   "note": "Fails for types with two ways (C91_two_ways_violated: ambiguous, so the program does not compile) and for a format_as that returns a reference (C91_reference_violated). Proved for types with one way and values: C91_formatter_partial, C91_one_way_partial."
  },
  {
   "property": "C92",
   "status": "proved",
   "theorems": [
    "Emio.C92_general_notation"
   ],
   "note": ""
  },
  {
   "property": "C93",
   "status": "proved",
   "theorems": [
    "Emio.C93_recovered",
    "Emio.C93_told_apart"
   ],
   "note": ""
  },
  {
   "property": "C94",
   "status": "partial",
   "theorems": [
    "Emio.C94_range",
    "Emio.C94_range_error",
    "Emio.C94_optional_some",
    "Emio.C94_optional_none",
    "Emio.C94_optional_error",
    "Emio.C94_variant",
    "Emio.C94_variant_valueless",
    "Emio.C94_variant_error",
    "Emio.C94_range_decent_partial",
    "Emio.C94_optional_decent",
    "Emio.C94_variant_decent",
    "Emio.C94_unread_specification_violated",
    "Emio.C94_accepted_partial",
    "Emio.C94_as_library",
    "Emio.C94_nesting",
    "Emio.C94_containers_violated",
    "Emio.C94_announced_violated",
    "Emio.C94_announced_partial",
    "Emio.C94_tuple_partial",
    "Emio.C94_tuple_error_partial",
    "Emio.C94_range_last",
    "Emio.C94_last_field_partial"
   ],
   "note": "Fails for {} on a range whose element formatter rejects an empty specification (C94_unread_specification_violated; otherwise C94_accepted_partial), for what can be put into containers (C94_containers_violated; C94_nesting for everything of the library but variants), and for errors the elements announce (C94_announced_violated, C94_announced_partial). Tuples, pairs and maps of values with any formatter are proved where their field is the end of the format string (C94_tuple_partial, C94_tuple_error_partial, C94_range_last, C94_last_field_partial); elsewhere the library loses text (C54)."
  },
  {
   "property": "C95",
   "status": "partial",
   "theorems": [
    "Emio.C95_shortest_violated",
    "Emio.C95_round_trip_partial",
    "Emio.C95_9_digits",
    "Emio.C95_8_digits_are_not_enough",
    "Emio.C95_reading_is_unique"
   ],
   "note": "Fails for the number of digits (C95_shortest_violated: 0.1f is written 0.10000000149011612); that the text is read as the float is C95_round_trip_partial. 9 digits: C95_9_digits; 8 are not enough: C95_8_digits_are_not_enough."
  },
  {
   "property": "C96",
   "status": "proved",
   "theorems": [
    "Emio.C96_signs_take_the_same_place",
    "Emio.C96_the_rest_is_the_same",
    "Emio.C96_minus_is_always_shown"
   ],
   "note": ""
  },
  {
   "property": "C97",
   "status": "proved",
   "theorems": [
    "Emio.C97_fixed",
    "Emio.C97_1074_decimals",
    "Emio.C97_significant",
    "Emio.C97_767_digits",
    "Emio.C97_1073_decimals_are_not_enough",
    "Emio.C97_766_digits_are_not_enough"
   ],
   "note": ""
  },
  {
   "property": "C98",
   "status": "partial",
   "theorems": [
    "Emio.C98_capacity",
    "Emio.C98_no_waste",
    "Emio.C98_every_character_reallocates",
    "Emio.C98_few_allocations_violated"
   ],
   "note": "Fails for the number of allocations (C98_few_allocations_violated; C98_every_character_reallocates says exactly how many there are when characters are written one by one). The capacity itself is exact: C98_capacity, C98_no_waste."
  },
  {
   "property": "C99",
   "status": "partial",
   "theorems": [
    "Emio.C99_write_str",
    "Emio.C99_every_argument",
    "Emio.C99_every_argument_granted",
    "Emio.C99_granted",
    "Emio.C99_truncated",
    "Emio.C99_empty_areas_violated"
   ],
   "note": "Fails if areas may be empty, which the documentation does not exclude (C99_empty_areas_violated); with non-empty areas: C99_write_str, C99_every_argument, C99_every_argument_granted, C99_granted."
  },
  {
   "property": "C100",
   "status": "proved",
   "theorems": [
    "Emio.C100_sessions",
    "Emio.C100_replaced"
   ],
   "note": "C100_sessions: any number of sessions, each ended by reset(), with and without a flush before it, for streams with and without a position; C100_replaced: two flushed sessions. The stream is assumed to accept all characters (short writes: C16) and to be used by nobody else."
  },
  {
   "property": "C101",
   "status": "partial",
   "theorems": [
    "Emio.C101_lines_partial",
    "Emio.C101_one_call",
    "Emio.C101_pieces",
    "Emio.C101_failed",
    "Emio.C101_never_mixed_partial",
    "Emio.C101_torn_apart",
    "Emio.C101_never_mixed_violated"
   ],
   "note": "C101_one_call, C101_never_mixed_partial: texts that fit into the cache, any threads and schedules. Missing in the partial theorem: longer texts, for which the claim is false: C101_never_mixed_violated, and C101_torn_apart shows that every text longer than the cache can be torn apart, so the bound is exact. C101_pieces: the calls made for any text. fwrite is taken as one step (it locks the stream) that writes all it is asked to; short writes are in C16. C101_failed: nothing is handed to the stream if formatting fails and the text before fits into the cache."
  },
  {
   "property": "C102",
   "status": "partial",
   "theorems": [
    "Emio.C102_read_back_partial",
    "Emio.C102_read_back_violated",
    "Emio.C102_written_and_read_partial"
   ],
   "note": "C102_read_back_partial: reading, at any place of any input; C102_written_and_read_partial: with writing to any reachable memory_buffer. Missing in both: separators from : to @ in bases above 10, for which the claim is false (C102_read_back_violated)."
  },
  {
   "property": "C103",
   "status": "partial",
   "theorems": [
    "Emio.C103_tidy_partial",
    "Emio.C103_all_freed_partial",
    "Emio.C103_as_values_partial",
    "Emio.C103_dangling",
    "Emio.C103_dangling_use",
    "Emio.C103_tidy_violated"
   ],
   "note": "C103_tidy_partial, C103_all_freed_partial, C103_as_values_partial: programs of any length over any vectors on an explicit heap; memory_buffer owns memory only through such a vector and calls only these operations. Missing in all three: move assignment of a vector that still uses its inline storage to one that has outgrown it, for which the claim is false (C103_tidy_violated); C103_dangling shows that each such assignment ends in a write to a freed block or a double free, so the condition is exact. Failing allocations are not modelled. C103_dangling_use: after that assignment also reading and writing the characters is undefined."
  },
  {
   "property": "C104",
   "status": "partial",
   "theorems": [
    "Emio.C104_exactly",
    "Emio.C104_padding_partial",
    "Emio.C104_without_width",
    "Emio.C104_overflow_violated",
    "Emio.C104_fill_violated",
    "Emio.C104_padding_violated"
   ],
   "note": "C104_exactly says for strings of every length what is written or that the behaviour is undefined; C104_without_width is the claim without a width. C104_padding_partial is the claim for texts shown with less than 2^31 characters. Missing: longer texts with a width, for which the claim is false (C104_padding_violated, C104_overflow_violated, C104_fill_violated)."
  },
  {
   "property": "C105",
   "status": "proved",
   "theorems": [
    "Emio.C105_lists",
    "Emio.C105_maps"
   ],
   "note": "C105_lists: for all lists and the given specifications. C105_maps: maps with {}. The reading programs are readList and readMap in Spec/Lists. Maps with a specification of a base above 10 for keys and values are not in the claim: the colon behind the key would be read as a digit (C03, C102)."
  },
  {
   "property": "C106",
   "status": "proved",
   "theorems": [
    "Emio.C106_integers",
    "Emio.C106_pointers",
    "Emio.C106_strings",
    "Emio.C106_in_any_format",
    "Emio.C106_in_any_string",
    "Emio.C106_floats"
   ],
   "note": "C106_integers, C106_pointers, C106_floats, C106_strings: a single field, the buffer with any past. C106_in_any_format: the exact contents of the span after any accepted format string (also with widths and precisions of any size, and with ignored text behind, C63) with arguments of the core types, by the parts of its fields; C106_in_any_string states it for every string for which format succeeds. What may be cut and what may not is defined in Spec/NotCut and Spec/NotCutAll."
  },
  {
   "property": "C107",
   "status": "proved",
   "theorems": [
    "Emio.C107_more_room",
    "Emio.C107_same_room"
   ],
   "note": "Undefined behaviour, which is then the same for all buffers (C71), is the other case of C107_more_room."
  }
 ]
}