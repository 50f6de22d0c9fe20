{
 "claims": [
  {
   "property": "C01",
   "status": "proved",
   "theorems": [
    "Srcml.C01_newlines_reads",
    "Srcml.C01_reading_ends",
    "Srcml.C01_newlines_memory",
    "Srcml.C01_empty_source"
   ],
   "note": "All sources, block sizes and read patterns of the model."
  },
  {
   "property": "C02",
   "status": "proved",
   "theorems": [
    "Srcml.C02_hash_reads",
    "Srcml.C02_hash_of_unit",
    "Srcml.C02_hash_memory",
    "Srcml.C02_hash_text",
    "Srcml.C02_no_hash"
   ],
   "note": "SHA-1 is an abstract function of the byte list."
  },
  {
   "property": "C03",
   "status": "partial",
   "theorems": [
    "Srcml.C03_encoding_reads",
    "Srcml.C03_encoding_memory",
    "Srcml.C03_encoding_decided_partial",
    "Srcml.C03_finding_utf32le",
    "Srcml.C03_finding_reported_before_detection",
    "Srcml.C03_finding_bom_latin1",
    "Srcml.C03_finding_bom_only"
   ],
   "note": "Decision table proved; the UTF-8 mark is kept when Latin-1 is requested, UTF-32LE is taken for UTF-16LE, and the encoding is reported before it is detected (finding theorems)."
  },
  {
   "property": "C04",
   "status": "partial",
   "theorems": [
    "Srcml.C04_latin1_blocks_partial",
    "Srcml.C04_memory_whole_partial",
    "Srcml.C04_finding_block_lost",
    "Srcml.C04_finding_utf8_file"
   ],
   "note": "Proved for single-byte encodings and memory input; false for a multi-byte character cut by a block boundary (C04_finding_block_lost)."
  },
  {
   "property": "C05",
   "status": "partial",
   "theorems": [
    "Srcml.C05_written",
    "Srcml.C05_read_back",
    "Srcml.C05_parsed_partial",
    "Srcml.C05_finding_empty",
    "Srcml.C05_unify_lines"
   ],
   "note": "The three counters agree with the specification; an empty source counts 1 in the char buffer counter (finding)."
  },
  {
   "property": "C06",
   "status": "proved",
   "theorems": [
    "Srcml.C06_lookup",
    "Srcml.C06_no_extension",
    "Srcml.C06_registered"
   ],
   "note": ""
  },
  {
   "property": "C07",
   "status": "proved",
   "theorems": [
    "Srcml.C07_register_status"
   ],
   "note": ""
  },
  {
   "property": "C08",
   "status": "proved",
   "theorems": [
    "Srcml.C08_extension"
   ],
   "note": ""
  },
  {
   "property": "C09",
   "status": "partial",
   "theorems": [
    "Srcml.C09_parse_language_partial",
    "Srcml.C09_unknown_unit_language_ignores_archive"
   ],
   "note": "Proved as the code decides; an unknown unit language hides the archive language (finding theorem)."
  },
  {
   "property": "C10",
   "status": "proved",
   "theorems": [
    "Srcml.C10_check_language",
    "Srcml.C10_check_language_null",
    "Srcml.C10_language_list",
    "Srcml.C10_name_round_trip"
   ],
   "note": ""
  },
  {
   "property": "C11",
   "status": "proved",
   "theorems": [
    "Srcml.C11_text_reads_back",
    "Srcml.C11_no_markup",
    "Srcml.C11_finding_nul"
   ],
   "note": "All texts of XML characters (NUL stops the scanner: finding)."
  },
  {
   "property": "C12",
   "status": "partial",
   "theorems": [
    "Srcml.C12_unit_document_partial",
    "Srcml.C12_balanced",
    "Srcml.C12_text",
    "Srcml.C12_balanced_document",
    "Srcml.C12_finding_extra_end",
    "Srcml.C12_finding_missing_end"
   ],
   "note": "All balanced token streams; an unbalanced stream is reported by finding theorems. That the parser produces balanced streams is C15."
  },
  {
   "property": "C13",
   "status": "proved",
   "theorems": [
    "Srcml.C13_code_reads_back",
    "Srcml.C13_codes_distinct",
    "Srcml.C13_code_format",
    "Srcml.C13_events_carry",
    "Srcml.C13_unit_round_trip"
   ],
   "note": "All control characters, whole unit round trip on the model of the writer and the SAX text extraction."
  },
  {
   "property": "C14",
   "status": "partial",
   "theorems": [
    "Srcml.C14_output_is_prefix",
    "Srcml.C14_nothing_lost_partial",
    "Srcml.C14_complete_output",
    "Srcml.C14_regular_nothing_lost",
    "Srcml.C14_witness",
    "Srcml.C14_finding_macro_exception",
    "Srcml.C14_finding_guess_exception"
   ],
   "note": "Every token sequence and every sequence of stream operations of the grammar; not the grammar itself. Two exceptions that leave text behind are given as finding theorems (no handler around a macro call or around a hand-made speculative parse)."
  },
  {
   "property": "C15",
   "status": "partial",
   "theorems": [
    "Srcml.C15_nesting",
    "Srcml.C15_all_closed",
    "Srcml.C15_end_of_file_partial",
    "Srcml.C15_end_of_file_regular",
    "Srcml.C15_witness"
   ],
   "note": "For every regular behaviour of the grammar (Act.Regular, read off srcMLParser.g) and sources whose comments are closed. Comments open at the end of the file and streams paused there are not covered."
  },
  {
   "property": "C16",
   "status": "partial",
   "theorems": [
    "Srcml.C16_source_partial",
    "Srcml.C16_finding_raw_control",
    "Srcml.C16_finding_comment_macro",
    "Srcml.C16_round_trip_partial",
    "Srcml.C16_memory_partial",
    "Srcml.C16_reads_partial"
   ],
   "note": "From the bytes of the source (in memory or by reads) through decoding, lexer, parser, writer and text extraction back to the decoded text with unified newlines. The grammar is any regular one (not modelled); sources with DEL, a comment open at the end of the file, or control characters next to raw strings are excluded (findings)."
  },
  {
   "property": "C17",
   "status": "partial",
   "theorems": [
    "Srcml.C17_start_tag",
    "Srcml.C17_root_partial",
    "Srcml.C17_nested_partial",
    "Srcml.C17_finding_prefix_twice",
    "Srcml.C17_finding_openmp_prefix"
   ],
   "note": "Root and nested unit of an archive from any set-up history; start tag in general. False for a prefix shared by two namespaces and for another OpenMP prefix (finding theorems)."
  },
  {
   "property": "C18",
   "status": "partial",
   "theorems": [
    "Srcml.C18_metadata_reads_back_partial",
    "Srcml.C18_finding_src_encoding",
    "Srcml.C18_finding_duplicate_name",
    "Srcml.C18_last_value_wins",
    "Srcml.C18_finding_prefixed_attribute"
   ],
   "note": "All clean metadata, through the document and the reader's attribute handling; the stored encoding, prefixed and duplicate user attributes do not survive (finding theorems)."
  },
  {
   "property": "C19",
   "status": "proved",
   "theorems": [
    "Srcml.C19_options_history",
    "Srcml.C19_public_only",
    "Srcml.C19_initial",
    "Srcml.C19_set"
   ],
   "note": "All histories of set-up calls."
  },
  {
   "property": "C20",
   "status": "partial",
   "theorems": [
    "Srcml.C20_internal_settings_partial",
    "Srcml.C20_initial",
    "Srcml.C20_finding_set_options",
    "Srcml.C20_finding_cpp_declared"
   ],
   "note": "Proved for histories without set_options; set_options clears the settings (finding)."
  },
  {
   "property": "C21",
   "status": "partial",
   "theorems": [
    "Srcml.C21_prefix_lookup",
    "Srcml.C21_enumeration",
    "Srcml.C21_uris_unique",
    "Srcml.C21_prefix_enumeration_partial",
    "Srcml.C21_finding_prefix_bound",
    "Srcml.C21_uri_lookup",
    "Srcml.C21_finding_ambiguous_prefix",
    "Srcml.C21_enables_option"
   ],
   "note": "Proved for all histories; the prefix accessor reads out of bounds at position = size, and a prefix shared by two uris is ambiguous (findings)."
  },
  {
   "property": "C22",
   "status": "partial",
   "theorems": [
    "Srcml.C22_macro_type",
    "Srcml.C22_macro_list_partial",
    "Srcml.C22_finding_position_wraps"
   ],
   "note": "Proved for all histories and positions below 2^63; beyond, the doubled position wraps (finding)."
  },
  {
   "property": "C23",
   "status": "partial",
   "theorems": [
    "Srcml.C23_clone",
    "Srcml.C23_clone_null",
    "Srcml.C23_independent_setup",
    "Srcml.C23_independent_transforms_partial",
    "Srcml.C23_finding_shared_transformation"
   ],
   "note": "Proved for configuration and set-up calls; parameters of transformations are shared between clone and original (finding)."
  },
  {
   "property": "C24",
   "status": "proved",
   "theorems": [
    "Srcml.C24_mode_of_history",
    "Srcml.C24_write_refused",
    "Srcml.C24_write_accepted",
    "Srcml.C24_read_refused",
    "Srcml.C24_read_accepted",
    "Srcml.C24_write_refused_instance",
    "Srcml.C24_read_accepted_instance",
    "Srcml.C24_write_accepted_instance",
    "Srcml.C24_finding_write_string_unchecked",
    "Srcml.C24_finding_write_string_freed",
    "Srcml.C24_finding_second_write_lost",
    "Srcml.C24_finding_unopenable_file",
    "Srcml.C24_finding_second_close"
   ],
   "note": "Mode of an archive as a function of the history of calls, for every sequence of calls. srcml_archive_write_string is not checked, a second opening for writing loses the units, an unopenable file answers OK (finding theorems)."
  },
  {
   "property": "C25",
   "status": "partial",
   "theorems": [
    "Srcml.C25_round_trip_partial",
    "Srcml.C25_reads",
    "Srcml.C25_made_units",
    "Srcml.C25_finding_empty_archive",
    "Srcml.C25_finding_raw_gt",
    "Srcml.C25_finding_comment",
    "Srcml.C25_finding_cdata_lines",
    "Srcml.C25_finding_no_attributes",
    "Srcml.C25_finding_text_between",
    "Srcml.C25_finding_uri_not_escaped",
    "Srcml.C25_finding_declared_twice",
    "Srcml.C25_finding_instruction",
    "Srcml.C25_finding_solitary_loc",
    "Srcml.C25_finding_null",
    "Srcml.C25_finding_cpp_stays",
    "Srcml.C25_solitary",
    "Srcml.C25_solitary_reads",
    "Srcml.C25_solitary_made_unit",
    "Srcml.C25_finding_unit_inside"
   ],
   "note": "Proved for every non-empty sequence of units with well-formed contents, every delivery of the text by libxml2 (Spec.Delivers), every pattern of reads and skips and every interleaving of the two reader threads: same units, order, metadata, inner text, source text, then the end. C25_solitary*: the same for a unit that is the root of the document (no archive element), with its whole and its outer text; there the lines that end before the first element are not counted (C25_finding_solitary_loc), a processing instruction (C25_finding_instruction) and an element called unit (C25_finding_unit_inside) are excluded. The clause 'an archive without units yields none' is false of the code: C25_finding_empty_archive (the empty archive element is read as one unit). Memory target; buffer moves of libxml2 are not modelled. Every sequence of read and skip calls can be made and returns (AnyCalls)."
  },
  {
   "property": "C26",
   "status": "proved",
   "theorems": [
    "Srcml.C26_kth_call",
    "Srcml.C26_end_stays"
   ],
   "note": "Every sequence of reads and skips on every complete document, under every schedule of the two threads. srcml_archive_read_unit_header is declared in srcml.h but not defined at this commit. Assumes no spurious wake-up (C28_finding_spurious_wakeup)."
  },
  {
   "property": "C27",
   "status": "partial",
   "theorems": [
    "Srcml.C27_archive",
    "Srcml.C27_empty_archive",
    "Srcml.C27_solitary_partial",
    "Srcml.C27_archive_of_made_units",
    "Srcml.C27_solitary_made_unit_partial",
    "Srcml.C27_finding_second_solitary_unit",
    "Srcml.C27_finding_language_lost",
    "Srcml.C27_finding_solitary_without_units"
   ],
   "note": "Archive mode proved for every list of units, also end to end for units that were parsed or written with the library. Solitary mode proved for one unit; the clause \"at most one unit\" is false of the code (C27_finding_second_solitary_unit)."
  },
  {
   "property": "C28",
   "status": "proved",
   "theorems": [
    "Srcml.C28_every_schedule",
    "Srcml.C28_each_unit_once",
    "Srcml.C28_finding_spurious_wakeup"
   ],
   "note": "Every interleaving, document and sequence of calls, with the pauses of the two threads as in the code; assumes that cond.wait returns only when notified: it is called without a condition (C28_finding_spurious_wakeup), and that an incomplete document is reported after its first unit has started (Readable)."
  },
  {
   "property": "C29",
   "status": "partial",
   "theorems": [
    "Srcml.C29_never_stuck",
    "Srcml.C29_calls_return_partial",
    "Srcml.C29_inevitable",
    "Srcml.C29_open_returns",
    "Srcml.C29_call_returns",
    "Srcml.C29_every_sequence",
    "Srcml.C29_finding_open_race",
    "Srcml.C29_finding_no_unit",
    "Srcml.C29_finding_quiet_error"
   ],
   "note": "Progress and termination of every call under every schedule for Readable documents; C29_every_sequence: every sequence of calls can be made, call after call. False in general: an error before the first unit can hang the opening (C29_finding_open_race), a root that is not a unit always does (C29_finding_no_unit), and the errors for which done() is not called hang a read (C29_finding_quiet_error)."
  },
  {
   "property": "C30",
   "status": "proved",
   "theorems": [
    "Srcml.C30_arguments",
    "Srcml.C30_unparse",
    "Srcml.C30_unparse_srcml",
    "Srcml.C30_refused",
    "Srcml.C30_select",
    "Srcml.C30_reachable",
    "Srcml.C30_invertible",
    "Srcml.C30_memory_size",
    "Srcml.C30_finding_nul"
   ],
   "note": "All texts, endings, destinations and archive modes. Conversion to the output encoding is libxml2's; the size reported by the memory variant stops at a NUL (finding)."
  },
  {
   "property": "C31",
   "status": "partial",
   "theorems": [
    "Srcml.C31_written_partial",
    "Srcml.C31_parsed_partial",
    "Srcml.C31_finding_url_text",
    "Srcml.C31_finding_only_declaration",
    "Srcml.C31_finding_url_first",
    "Srcml.C31_finding_stale"
   ],
   "note": "Written and parsed units, every content; start tags with an attribute after the srcML declaration and without the text ` url=` in a value. False otherwise and for a unit written twice (finding theorems). Units read from an archive are covered by C25 (SameContent, SoloContent: inner, outer and whole text)."
  },
  {
   "property": "C32",
   "status": "partial",
   "theorems": [
    "Srcml.C32_unit_partial",
    "Srcml.C32_outside",
    "Srcml.C32_finding_extra_end",
    "Srcml.C32_finding_unit_attribute",
    "Srcml.C32_finding_empty_name",
    "Srcml.C32_finding_escape",
    "Srcml.C32_finding_refused_declaration",
    "Srcml.C32_finding_stale_text"
   ],
   "note": "Every sequence of accepted write calls between the start and the end of a unit, on any archive with clean prefixes and clean metadata. Findings: extra end calls, a unit attribute written first, names that are not checked, attribute on a flushed tag, refused declarations, stale text."
  },
  {
   "property": "C33",
   "status": "partial",
   "theorems": [
    "Srcml.C33_write_open",
    "Srcml.C33_read_open",
    "Srcml.C33_write",
    "Srcml.C33_missing_archive",
    "Srcml.C33_transforms",
    "Srcml.C33_documents_partial",
    "Srcml.C33_finding_not_a_program",
    "Srcml.C33_apply",
    "Srcml.C33_write_calls",
    "Srcml.C33_units",
    "Srcml.C33_finding_null",
    "Srcml.C33_setup_null_archive",
    "Srcml.C33_setup_missing_argument_partial",
    "Srcml.C33_setup_refused_unchanged",
    "Srcml.C33_srcdiff_revision",
    "Srcml.C33_finding_processing_instruction",
    "Srcml.C33_write_without_unit"
   ],
   "note": "Every group of the API: set-up calls, opening, writing, reading, transformations, writing a unit piece by piece, setters, parse and unparse of units; srcml() is C75_refused. Each refused call leaves everything as it was, and a call with all arguments is not refused with INVALID_ARGUMENT. False (findings) for set_processing_instruction, two queries, srcml_archive_free, srcml_transform_free and the accessors of a result, which use a null pointer, and for documents that are no program or schema, which terminate the process."
  },
  {
   "property": "C34",
   "status": "partial",
   "theorems": [
    "Srcml.C34_extract",
    "Srcml.C34_no_markup",
    "Srcml.C34_unchanged",
    "Srcml.C34_get_srcml",
    "Srcml.C34_no_revision",
    "Srcml.C34_written_partial",
    "Srcml.C34_finding_trailing_text",
    "Srcml.C34_finding_unbalanced"
   ],
   "note": "Every properly nested markup whose last character ends a tag (the form the reader stores). Text after the last tag is lost (C34_finding_trailing_text) and unbalanced markup pops an empty stack (C34_finding_unbalanced)."
  },
  {
   "property": "C35",
   "status": "proved",
   "theorems": [
    "Srcml.C35_both",
    "Srcml.C35_same",
    "Srcml.C35_written"
   ],
   "note": "Every value; also the attributes the start tag writes. Getters and user attributes are never revised in the code."
  },
  {
   "property": "C36",
   "status": "partial",
   "theorems": [
    "Srcml.C36_none",
    "Srcml.C36_compose_partial",
    "Srcml.C36_wrapped_partial",
    "Srcml.C36_scalar",
    "Srcml.C36_finding_no_match",
    "Srcml.C36_finding_empty_attribute",
    "Srcml.C36_finding_null_result"
   ],
   "note": "Composition proved for every list of transformations while each step has a result; an intermediate result without match ends the run and discards results (C36_finding_no_match), a null result is dereferenced (C36_finding_null_result). The XPath/XSLT/RelaxNG engines are abstract functions."
  },
  {
   "property": "C37",
   "status": "proved",
   "theorems": [
    "Srcml.C37_history",
    "Srcml.C37_created",
    "Srcml.C37_finding_quote"
   ],
   "note": "All histories of append, param and clear calls. A quote inside a string parameter is not escaped (finding)."
  },
  {
   "property": "C38",
   "status": "partial",
   "theorems": [
    "Srcml.C38_accessors_partial",
    "Srcml.C38_finding_bounds"
   ],
   "note": "All results and non-negative indices; a negative index is not checked (C38_finding_bounds)."
  },
  {
   "property": "C39",
   "status": "proved",
   "theorems": [
    "Srcml.C39_order",
    "Srcml.C39_finding_no_threads"
   ],
   "note": "Every schedule with at least one worker thread. --jobs=0 makes a pool without threads, and no task runs (C39_finding_no_threads). The thread pool (ctpl) is taken as a FIFO of tasks."
  },
  {
   "property": "C40",
   "status": "proved",
   "theorems": [
    "Srcml.C40_bounded",
    "Srcml.C40_end",
    "Srcml.C40_finding_no_threads"
   ],
   "note": "Every schedule with at least one worker thread: a bounded number of steps, and no state without a step but the final one; spurious wake-ups of the condition variable allowed. With --jobs=0 the client never ends (C40_finding_no_threads)."
  },
  {
   "property": "C41",
   "status": "partial",
   "theorems": [
    "Srcml.C41_limit_partial",
    "Srcml.C41_finding_one_more",
    "Srcml.C41_no_lost_wakeup"
   ],
   "note": "Every interleaving: at most 201 files are open, one more than the 200 of the limit (C41_finding_one_more); no wake-up is lost."
  },
  {
   "property": "C42",
   "status": "partial",
   "theorems": [
    "Srcml.C42_split",
    "Srcml.C42_join",
    "Srcml.C42_no_protocol",
    "Srcml.C42_add_partial",
    "Srcml.C42_idempotent",
    "Srcml.C42_finding_web_like",
    "Srcml.C42_standard_streams"
   ],
   "note": "Every name. A name without :// but with both http: and https: in it gets no protocol (C42_finding_web_like)."
  },
  {
   "property": "C43",
   "status": "proved",
   "theorems": [
    "Srcml.C43_unique",
    "Srcml.C43_input",
    "Srcml.C43_finding_empty",
    "Srcml.C43_finding_tbz"
   ],
   "note": "Every name with a non-empty resource. An empty resource is undefined behaviour (C43_finding_empty), .tbz is not counted as compressed (C43_finding_tbz)."
  },
  {
   "property": "C44",
   "status": "partial",
   "theorems": [
    "Srcml.C44_items_partial",
    "Srcml.C44_count",
    "Srcml.C44_literal_partial",
    "Srcml.C44_every_text",
    "Srcml.C44_finding_dangling",
    "Srcml.C44_finding_protocol",
    "Srcml.C44_finding_backslash",
    "Srcml.C44_finding_octal_nul"
   ],
   "note": "Every list of characters and escapes. Text with :// in it loses what is before it, a text ending in a lone backslash reads out of bounds, a doubled backslash is kept doubled, octal escapes over 255 wrap (C44_finding_*)."
  },
  {
   "property": "C45",
   "status": "partial",
   "theorems": [
    "Srcml.C45_lines_partial",
    "Srcml.C45_trim_unique",
    "Srcml.C45_refused",
    "Srcml.C45_finding_last_character",
    "Srcml.C45_finding_nul"
   ],
   "note": "Every list of lines. A last line of one character without a newline is ignored, a line that begins with NUL is skipped (C45_finding_*); an empty file is undefined behaviour."
  },
  {
   "property": "C46",
   "status": "proved",
   "theorems": [
    "Srcml.C46_nonempty",
    "Srcml.C46_steps",
    "Srcml.C46_order",
    "Srcml.C46_source_alone",
    "Srcml.C46_connected"
   ],
   "note": "Every request: the steps, their order, and how their pipes are connected."
  },
  {
   "property": "C47",
   "status": "partial",
   "theorems": [
    "Srcml.C47_selected",
    "Srcml.C47_out_of_range",
    "Srcml.C47_all_partial",
    "Srcml.C47_file_error",
    "Srcml.C47_srcml",
    "Srcml.C47_finding_file_first_only",
    "Srcml.C47_finding_negative",
    "Srcml.C47_finding_no_units",
    "Srcml.C47_finding_many_inputs"
   ],
   "note": "Proved for the standard output, for a selected unit to a file and for srcML output, for every archive and n. False of the code (findings): without a selection only the first unit is written to a file; a negative n gives the first unit; with several inputs the selection is ignored; an archive without units is an error for srcML output. The archive is the list of units that the reader gives (C26, C28); conversion to the source encoding is libxml2's."
  },
  {
   "property": "C48",
   "status": "partial",
   "theorems": [
    "Srcml.C48_status_partial"
   ],
   "note": "Return from main, with fewer than 2^31 messages of each kind; the explicit calls of exit elsewhere in the client are not covered."
  },
  {
   "property": "C49",
   "status": "partial",
   "theorems": [
    "Srcml.C49_sections_partial",
    "Srcml.C49_units_partial",
    "Srcml.C49_finding_no_brace",
    "Srcml.C49_finding_percent",
    "Srcml.C49_finding_percent_field",
    "Srcml.C49_finding_encoding",
    "Srcml.C49_finding_last_percent",
    "Srcml.C49_finding_header_namespaces",
    "Srcml.C49_finding_selected_unit",
    "Srcml.C49_finding_count"
   ],
   "note": "Every format of the forms of WellFormed and every metadata. %% in front of text is an error or prints %s, %s takes the value of another field, %N in a header, a last percent sign (undefined), a selected unit, a format without braces (reads out of bounds), the count of an empty archive: C49_finding_*. Sections without fields, or whose only field is unset, are not printed."
  },
  {
   "property": "C50",
   "status": "partial",
   "theorems": [
    "Srcml.C50_unique",
    "Srcml.C50_arguments_partial",
    "Srcml.C50_finding_empty",
    "Srcml.C50_finding_last_equals"
   ],
   "note": "Every argument vector of PlainArg arguments. An empty argument is undefined behaviour; any argument that ends in = is cut, also a file name (C50_finding_*). The option parser CLI11 is not modelled."
  },
  {
   "property": "C51",
   "status": "partial",
   "theorems": [
    "Srcml.C51_if_zero_partial",
    "Srcml.C51_every_sequence_partial",
    "Srcml.C51_markup_option",
    "Srcml.C51_if_zero_applies",
    "Srcml.C51_finding_starts_with_zero",
    "Srcml.C51_finding_stack_grows",
    "Srcml.C51_finding_behind_comment"
   ],
   "note": "Model: eol_post of srcMLParser.g as a state machine on the directives. Proved for every sequence of directives (every nesting, stray directives, unclosed ones), from every state the parser can be in when guessing has read directives any number of times: the text behind a directive is consumed without markup exactly when the grammar of the preprocessor puts it between #if 0 and the next directive of it. Missing: conditions that only start with 0 (there the code does not satisfy it, finding); the parser rules that lead to eol_post and the lexing of directives are not modelled, and comments inside still get their element."
  },
  {
   "property": "C52",
   "status": "partial",
   "theorems": [
    "Srcml.C52_block_comment",
    "Srcml.C52_block_comment_open",
    "Srcml.C52_block_comment_applies",
    "Srcml.C52_finding_bang",
    "Srcml.C52_line_comment",
    "Srcml.C52_line_comment_applies",
    "Srcml.C52_string_partial",
    "Srcml.C52_finding_adjacent_strings",
    "Srcml.C52_string_open",
    "Srcml.C52_character",
    "Srcml.C52_verbatim_partial",
    "Srcml.C52_raw_string_partial",
    "Srcml.C52_finding_verbatim",
    "Srcml.C52_finding_objective_c",
    "Srcml.C52_finding_continued_line",
    "Srcml.C52_literals_apply",
    "Srcml.C52_finding_quote_at_end"
   ],
   "note": "Model: COMMENT_TEXT of CommentTextLexer.g as a function on the whole remaining input, token by token, with its modes, and the starts in TextLexer.g. Proved without bounds: block comment closes at the first */ for every language, is open without one, line comment's element text is the line without its newline, a string closes at the first unescaped quote, a char literal, a C# verbatim string and a raw string likewise. Partial: the string theorems exclude a quote directly behind the end, verbatim strings with two quotes behind a backslash, and newlines in strings on preprocessor lines: there the code does not satisfy the property (findings). Also a finding for /*!/ and for Objective-C strings. Not modelled: the parser rules that put the tokens into elements, except the newline rule of StreamMLParser."
  },
  {
   "property": "C53",
   "status": "proved",
   "theorems": [
    "Srcml.C53_queries",
    "Srcml.C53_end_down_to",
    "Srcml.C53_end_down_to_reaches",
    "Srcml.C53_end_down_over",
    "Srcml.C53_end_down_to_set",
    "Srcml.C53_end_while",
    "Srcml.C53_finding_split_mask"
   ],
   "note": "All stacks and mode sets; a set of several modes may be spread over levels (finding theorem)."
  },
  {
   "property": "C54",
   "status": "partial",
   "theorems": [
    "Srcml.C54_end_position_partial",
    "Srcml.C54_last_position",
    "Srcml.C54_returned_after_end",
    "Srcml.C54_witness",
    "Srcml.C54_finding_guess",
    "Srcml.C54_finding_preprocessor"
   ],
   "note": "Proved per end action in every state of grammar code (level of the file, not inside a nested preprocessor rule); the place is moved by speculative parsing and by preprocessor lines (finding theorems)."
  },
  {
   "property": "C55",
   "status": "partial",
   "theorems": [
    "Srcml.C55_finding_thread_settings",
    "Srcml.C55_same_settings_partial"
   ],
   "note": "False in general (finding theorem); proved for threads that always used the same position settings."
  },
  {
   "property": "C56",
   "status": "proved",
   "theorems": [
    "Srcml.C56_last_value",
    "Srcml.C56_statuses",
    "Srcml.C56_contents_kept",
    "Srcml.C56_clone",
    "Srcml.C56_clone_null",
    "Srcml.C56_null"
   ],
   "note": ""
  },
  {
   "property": "C57",
   "status": "partial",
   "theorems": [
    "Srcml.C57_to_directory_partial",
    "Srcml.C57_finding_dot",
    "Srcml.C57_finding_leaves_directory"
   ],
   "note": "Proved for every archive and every directory other than '.' and './', for which the property is false (finding: the files go to the root of the file system). A file name may lead out of the directory (finding). Creation of directories is the subject of C92; failing opens are not modelled."
  },
  {
   "property": "C58",
   "status": "partial",
   "theorems": [
    "Srcml.C58_entries_partial",
    "Srcml.C58_finding_no_language",
    "Srcml.C58_finding_same_name",
    "Srcml.C58_finding_nul"
   ],
   "note": "Proved when every unit without file name has a language and no text has a NUL; false otherwise (findings: null pointer made a string, text cut at NUL, two entries of one name for two inputs). Failures of libarchive are not modelled."
  },
  {
   "property": "C59",
   "status": "partial",
   "theorems": [
    "Srcml.C59_message_partial",
    "Srcml.C59_percent",
    "Srcml.C59_finding_percent_percent",
    "Srcml.C59_finding_percent_in_argument",
    "Srcml.C59_finding_percent_last"
   ],
   "note": "Proved when only the last argument has a '%'; false otherwise (finding). Arguments are given as texts."
  },
  {
   "property": "C60",
   "status": "partial",
   "theorems": [
    "Srcml.C60_else_left_out_partial",
    "Srcml.C60_else_left_out_start_partial",
    "Srcml.C60_applies",
    "Srcml.C60_finding_nested_else",
    "Srcml.C60_finding_nested_zero",
    "Srcml.C60_finding_depth"
   ],
   "note": "Same model with CPP_TEXT_ELSE. Proved for directives at one depth where the parts that are left out have only one-part conditionals nested in them. For other nestings and depths the code does not satisfy it (three findings)."
  },
  {
   "property": "C61",
   "status": "partial",
   "theorems": [
    "Srcml.C61_in_order",
    "Srcml.C61_nothing_lost_partial",
    "Srcml.C61_gives_up",
    "Srcml.C61_not_empty",
    "Srcml.C61_finding_delete"
   ],
   "note": "Model: the whole lexer (Model/Lexer.lean, Model/CommentText.lean) rule by rule. Proved for every source of bytes without CR (never reaches the lexer, C01) and DEL; DEL outside of comments and literals is a finding. Not modelled: ANTLR itself (how generated code chooses between rules), #line."
  },
  {
   "property": "C62",
   "status": "proved",
   "theorems": [
    "Srcml.C62_words",
    "Srcml.C62_one_token",
    "Srcml.C62_cpp",
    "Srcml.C62_finding_macro_keyword",
    "Srcml.C62_finding_arrow"
   ],
   "note": "Every word token of every source. Table generated from KeywordLexer.g by tools/keywords.py. Findings: a macro named like a keyword has no effect; in C# the arrow is split depending on earlier lines."
  },
  {
   "property": "C63",
   "status": "proved",
   "theorems": [
    "Srcml.C63_positions",
    "Srcml.C63_end_position"
   ],
   "note": "For every source, with columns as on a screen. Without the option SRCML_OPTION_LINE (which shifts the line numbers)."
  },
  {
   "property": "C64",
   "status": "proved",
   "theorems": [
    "Srcml.C64_strings",
    "Srcml.C64_finding_mixed"
   ],
   "note": "Archives opened with srcml_archive_write_open_memory. Finding C64_finding_mixed: texts and units cannot be mixed in one archive in any order; at the latest the close frees the buffer twice."
  },
  {
   "property": "C65",
   "status": "partial",
   "theorems": [
    "Srcml.C65_lexemes_partial",
    "Srcml.C65_finding_numbers",
    "Srcml.C65_finding_line_comment"
   ],
   "note": "For every source made of the parts in Spec/Lexemes.lean (literals with newlines included, where they are not in the line of a directive). Not part of it: numbers with a second point or an exponent E, the operator =>, >>==, backslashes not at the end of a line, @ with something else behind it. Findings show what the lexer makes of some of these."
  },
  {
   "property": "C66",
   "status": "partial",
   "theorems": [
    "Srcml.C66_directive_partial",
    "Srcml.C66_finding_comment",
    "Srcml.C66_finding_literal"
   ],
   "note": "Without comments, divisions and continued lines directly in front of the #: there the lexer does something else (C66_finding_comment). The part on literals is in C65_lexemes_partial (Lexeme.string and the others are for any newlines when the line is no directive) and C52; C66_finding_literal shows where the lexer forgets that a line is a directive."
  },
  {
   "property": "C67",
   "status": "partial",
   "theorems": [
    "Srcml.C67_element_partial",
    "Srcml.C67_element_unit",
    "Srcml.C67_attribute_partial",
    "Srcml.C67_plain",
    "Srcml.C67_plain_wrapped",
    "Srcml.C67_value",
    "Srcml.C67_finding_unit_and_child",
    "Srcml.C67_finding_attribute_twice",
    "Srcml.C67_finding_attribute_without_namespace"
   ],
   "note": "The functions of libxml2 that change the tree (xmlReplaceNode, xmlAddChild, xmlNewNsProp, xmlGetNsProp) are modelled on nodes with pointers; the evaluation of the query is a parameter. Proved: for any set of nodes below the unit (element), for the unit alone (element), for any set of nodes (attribute, when none has that name in a namespace whose URI is the value). Not as described: the unit and its first child both found (C67_finding_unit_and_child, content is lost), an attribute that is there already (C67_finding_attribute_twice), an attribute appended to an element mark (C67_finding_attribute_without_namespace). Found attribute and namespace nodes are not modelled."
  },
  {
   "property": "C68",
   "status": "partial",
   "theorems": [
    "Srcml.C68_units_partial",
    "Srcml.C68_unit",
    "Srcml.C68_text_partial",
    "Srcml.C68_text_plain",
    "Srcml.C68_nothing",
    "Srcml.C68_finding_units_lost",
    "Srcml.C68_finding_comments",
    "Srcml.C68_finding_text_escaped"
   ],
   "note": "The application of the stylesheet is a parameter (the top nodes of the document it makes). Not as described: units after a text or comment after the first one (C68_finding_units_lost), two comments in front of a unit (C68_finding_comments, undefined behaviour), special characters in a text (C68_finding_text_escaped)."
  },
  {
   "property": "C69",
   "status": "partial",
   "theorems": [
    "Srcml.C69_files",
    "Srcml.C69_once",
    "Srcml.C69_sorted",
    "Srcml.C69_requests",
    "Srcml.C69_finding_dot_directory",
    "Srcml.C69_finding_register",
    "Srcml.C69_finding_question_mark"
   ],
   "note": "The walk of the disk by libarchive is a parameter (the tree); files that are archives under another name and names with a colon or question mark are left out of C69_requests. Not as described: a directory whose last part starts with a dot, `..` among them, gives nothing (C69_finding_dot_directory); extensions registered for the command are not known for the files of directories (C69_finding_register); a question mark ends a file name (C69_finding_question_mark)."
  },
  {
   "property": "C70",
   "status": "partial",
   "theorems": [
    "Srcml.C70_archive",
    "Srcml.C70_single",
    "Srcml.C70_not_opened",
    "Srcml.C70_file",
    "Srcml.C70_finding_damaged",
    "Srcml.C70_finding_no_files",
    "Srcml.C70_finding_language_of_archive",
    "Srcml.C70_finding_time_of_empty",
    "Srcml.C70_finding_cut_name",
    "Srcml.C70_finding_underscore"
   ],
   "note": "libarchive is a parameter (format, entries, blocks). Not as described: the rest of a damaged archive is left out without a message (C70_finding_damaged); archives without files (C70_finding_no_files), entries that take the language of the archive's name (C70_finding_language_of_archive), the time of an empty input (C70_finding_time_of_empty, undefined behaviour), a file called `_` (C70_finding_underscore, undefined behaviour), names with an archive extension after a compression (C70_finding_cut_name)."
  },
  {
   "property": "C71",
   "status": "partial",
   "theorems": [
    "Srcml.C71_parsed",
    "Srcml.C71_passed_on",
    "Srcml.C71_parse_failed",
    "Srcml.C71_write",
    "Srcml.C71_writes",
    "Srcml.C71_noarchive",
    "Srcml.C71_command",
    "Srcml.C71_finding_empty_string",
    "Srcml.C71_finding_large_number",
    "Srcml.C71_finding_noarchive_no_name",
    "Srcml.C71_finding_no_result",
    "Srcml.C71_finding_dots_only",
    "Srcml.C71_finding_invalid_argument"
   ],
   "note": "The parser and the transformations are parameters of the thread (C71_command: the parser gives a unit made with the library and keeps its attributes; no transformation). The order in the queues is C39/C40. Left out: --cat-xml, the parser test, times. Not as described: C71_finding_empty_string, C71_finding_large_number, C71_finding_noarchive_no_name, C71_finding_dots_only (undefined behaviour), C71_finding_no_result (a unit vanishes without a message), C71_finding_invalid_argument."
  },
  {
   "property": "C72",
   "status": "partial",
   "theorems": [
    "Srcml.C72_one_unit",
    "Srcml.C72_refused",
    "Srcml.C72_settings",
    "Srcml.C72_inputs",
    "Srcml.C72_list",
    "Srcml.C72_unreachable",
    "Srcml.C72_command",
    "Srcml.C72_text",
    "Srcml.C72_directory",
    "Srcml.C72_source_archive",
    "Srcml.C72_param",
    "Srcml.C72_finding_not_closed",
    "Srcml.C72_finding_nothing",
    "Srcml.C72_finding_no_equals",
    "Srcml.C72_finding_url",
    "Srcml.C72_finding_param",
    "Srcml.C72_finding_text"
   ],
   "note": "C72_command is for local files in an archive, C72_one_unit for one local file that is not put into an archive; the handlers for srcML inputs and lists of files are parameters (C45, C47 model them alone). The requests are taken in order (C39/C40). Left out: --cat-xml, the parser test, the set-up of transformations (C31, C67). Not as described: C72_finding_not_closed, C72_finding_nothing, C72_finding_no_equals, C72_finding_url, C72_finding_param, C72_finding_text."
  },
  {
   "property": "C73",
   "status": "partial",
   "theorems": [
    "Srcml.C73_refused",
    "Srcml.C73_memory_partial",
    "Srcml.C73_reads_partial",
    "Srcml.C73_empty_partial",
    "Srcml.C73_finding_second_parse",
    "Srcml.C73_finding_no_language"
   ],
   "note": "The grammar is any that ends and behaves as Model/Parser.lean says (Finishes); as in C16 sources with a comment that is open at the end, with raw control characters in languages that drop them, and with DEL bytes are left out. Exceptions of the parser and errors of iconv_open other than EINVAL are not modelled. Not as described: C73_finding_second_parse, C73_finding_no_language; srcml_unit_parse_filename leaves the descriptor it opens open (`ParseFrom.leftOpen`)."
  },
  {
   "property": "C74",
   "status": "partial",
   "theorems": [
    "Srcml.C74_archive_partial",
    "Srcml.C74_solitary_partial"
   ],
   "note": "As in C73, sources with a comment open at the end, raw control characters in languages that drop them, and DEL bytes are left out, and the grammar is any that ends and behaves as Model/Parser.lean says. Settings (KeepsSource): no srcdiff revision, no processing instruction, a cpp prefix that is not empty, uris without characters that XML escapes; for each of these there is a finding at C25, C27 or C60. The units have no namespaces of their own."
  },
  {
   "property": "C75",
   "status": "partial",
   "theorems": [
    "Srcml.C75_refused",
    "Srcml.C75_settings_kept",
    "Srcml.C75_source_partial",
    "Srcml.C75_back",
    "Srcml.C75_round_trip_partial",
    "Srcml.C75_finding_xml_language",
    "Srcml.C75_finding_language_refused",
    "Srcml.C75_finding_bare_name",
    "Srcml.C75_finding_eol",
    "Srcml.C75_finding_missing_input",
    "Srcml.C75_finding_unwritable"
   ],
   "note": "The parse part is as in C73/C74 (no comment open at the end, no DEL byte, KeepsSource). Failures of allocation are not modelled. Findings: a file with the name srcml makes the function read in front of the name; a language that was set is refused for an unknown extension; source parsed while the language is xml is written with language xml; an output that cannot be opened gives OK; a missing input overwrites the output; srcml_set_eol has no effect."
  },
  {
   "property": "C76",
   "status": "partial",
   "theorems": [
    "Srcml.C76_last_value",
    "Srcml.C76_initial",
    "Srcml.C76_clone",
    "Srcml.C76_statuses",
    "Srcml.C76_null_partial",
    "Srcml.C76_finding_instruction",
    "Srcml.C76_convenience",
    "Srcml.C76_convenience_options",
    "Srcml.C76_convenience_extensions"
   ],
   "note": "The getters of the processing instruction do not test the archive pointer, and its setter not the texts (C76_finding_instruction): with a null pointer the behaviour is undefined; this is the only part of the statement that is missing. The tables of namespaces and macros are C21 and C22, the options C19."
  },
  {
   "property": "C77",
   "status": "partial",
   "theorems": [
    "Srcml.C77_files_partial",
    "Srcml.C77_back_partial",
    "Srcml.C77_one_partial"
   ],
   "note": "C77_files_partial and C77_back_partial for an archive, C77_one_partial for one unit. Missing is what is missing in C73 and C74: the contents of a file are those for which the parser is known to come to the end with all characters of the input in the output (no unclosed comment at the end, see C15 and C16), and the command has no transformations."
  },
  {
   "property": "C78",
   "status": "partial",
   "theorems": [
    "Srcml.C78_settings_partial",
    "Srcml.C78_solitary",
    "Srcml.C78_finding_instruction",
    "Srcml.C78_finding_language",
    "Srcml.C78_finding_tabstop",
    "Srcml.C78_finding_empty_macro",
    "Srcml.C78_finding_cpp_prefix",
    "Srcml.C78_finding_old_uri",
    "Srcml.C78_finding_large_tabstop",
    "Srcml.C78_finding_src_encoding"
   ],
   "note": "C78_settings_partial for an archive, C78_solitary for a document of one unit. Not restored, each with a finding: the processing instruction, the language, the tab stop without positions, macros with an empty token or type, registered prefixes of the cpp and OpenMP namespaces, uris of the old project, tab stops of 2^31 and more, the stored source encoding. libxml2 is specified by Delivers and by declaredEncoding (the encoding in the XML declaration)."
  },
  {
   "property": "C79",
   "status": "partial",
   "theorems": [
    "Srcml.C79_same_xml_partial",
    "Srcml.C79_copy_partial",
    "Srcml.C79_copy_solitary_partial",
    "Srcml.C79_any_number_partial",
    "Srcml.C79_finding_cpp_prefix",
    "Srcml.C79_finding_openmp",
    "Srcml.C79_finding_other_prefix",
    "Srcml.C79_finding_encoding_twice"
   ],
   "note": "C79_copy_partial, C79_copy_solitary_partial, C79_any_number_partial and, for the namespaces, C79_same_xml_partial: the namespaces of cpp, errors, positions and OpenMP have their usual prefixes in the first archive, and it stores no source encoding. Otherwise the namespaces that the contents use are not always declared in the copy: C79_finding_cpp_prefix, C79_finding_openmp, C79_finding_other_prefix; a stored encoding is written twice: C79_finding_encoding_twice."
  },
  {
   "property": "C80",
   "status": "partial",
   "theorems": [
    "Srcml.C80_archive_partial",
    "Srcml.C80_one_partial",
    "Srcml.C80_out_of_range",
    "Srcml.C80_unopened",
    "Srcml.C80_namespaces",
    "Srcml.C80_finding_late_namespace",
    "Srcml.C80_finding_two_prefixes"
   ],
   "note": "C80_archive_partial and C80_one_partial: what is missing in C79, the output archive is one that XML can carry, no transformation, and one input. With several inputs the namespaces depend on the threads (C80_finding_late_namespace), and inputs with different prefixes for srcML lose namespaces (C80_finding_two_prefixes)."
  },
  {
   "property": "C81",
   "status": "proved",
   "theorems": [
    "Srcml.C81_show",
    "Srcml.C81_units",
    "Srcml.C81_info",
    "Srcml.C81_longinfo",
    "Srcml.C81_list",
    "Srcml.C81_prefix",
    "Srcml.C81_inputs",
    "Srcml.C81_unopened",
    "Srcml.C81_finding_pretty_first_input",
    "Srcml.C81_finding_empty_count",
    "Srcml.C81_finding_combined",
    "Srcml.C81_finding_info_longinfo",
    "Srcml.C81_finding_no_language",
    "Srcml.C81_finding_unset"
   ],
   "note": "C81_show, C81_units, C81_info, C81_longinfo, C81_list, C81_prefix, C81_inputs and C81_unopened, for the options as the statement lists them; C81_show excludes --unit without --xml. Options of different groups together are findings: they share one pass over the units. The archive as opened and its units are the input here; how they come from a document is C25 and C78."
  },
  {
   "property": "C82",
   "status": "proved",
   "theorems": [
    "Srcml.C82_queries",
    "Srcml.C82_uri",
    "Srcml.C82_refused",
    "Srcml.C82_impossible",
    "Srcml.C82_finding_colon_in_value",
    "Srcml.C82_finding_same_query",
    "Srcml.C82_finding_param_first"
   ],
   "note": "C82_queries, C82_uri, C82_refused and C82_impossible. The list of options is in the order in which CLI11 calls the functions for them; CLI11 is not in the repository. A query given twice with an attribute the second time, a colon in a value without a prefix, and a parameter before every transformation are findings. What the transformations then do is C36, C38 and C67."
  },
  {
   "property": "C83",
   "status": "proved",
   "theorems": [
    "Srcml.C83_settings",
    "Srcml.C83_commands",
    "Srcml.C83_inputs",
    "Srcml.C83_stdin",
    "Srcml.C83_no_stdin",
    "Srcml.C83_url",
    "Srcml.C83_url_directory",
    "Srcml.C83_unit",
    "Srcml.C83_steps",
    "Srcml.C83_accepted",
    "Srcml.C83_defined",
    "Srcml.C83_finding_empty_text",
    "Srcml.C83_finding_text_dash",
    "Srcml.C83_finding_directory_url",
    "Srcml.C83_finding_cpp_prefix",
    "Srcml.C83_finding_unit_several"
   ],
   "note": "C83_settings, C83_commands, C83_inputs, C83_stdin, C83_no_stdin, C83_url, C83_steps, C83_accepted and C83_defined. The list of options is in the order in which CLI11 calls the functions for them; CLI11 (spelling of options, conversion of numbers, --help) is not in the repository. The comparison of iterators of two maps in line 676 is undefined; it is modelled as in the libraries of GCC and LLVM. --jobs, --xml-processing and --external are left out. That --url is lost with a single directory, a text with a minus or an empty one, the prefix cpp for another namespace, and --unit with several inputs are findings."
  },
  {
   "property": "C84",
   "status": "partial",
   "theorems": [
    "Srcml.C84_all_served",
    "Srcml.C84_none_served",
    "Srcml.C84_ends",
    "Srcml.C84_timely_partial",
    "Srcml.C84_finding_hangs",
    "Srcml.C84_finding_other_download",
    "Srcml.C84_finding_refused",
    "Srcml.C84_finding_spurious",
    "Srcml.C84_finding_ftp",
    "Srcml.C84_data"
   ],
   "note": "C84_timely_partial: when no download reports before the main thread waits for it, and each has ended before the next starts, the answers are right and all come. For every order: C84_all_served, C84_none_served, C84_ends. The full statement is false: a download that reports first hangs the command (C84_finding_hangs, for every address), reports of another download are taken for the answer (C84_finding_other_download, C84_finding_refused), so are spurious wake-ups (C84_finding_spurious), and documents with a code other than 200, as from FTP, are refused (C84_finding_ftp). libcurl, a full pipe and errors of write are not modelled; documents that are cut off are left out of C84_timely_partial."
  },
  {
   "property": "C85",
   "status": "partial",
   "theorems": [
    "Srcml.C85_request",
    "Srcml.C85_archive_partial",
    "Srcml.C85_one_partial",
    "Srcml.C85_back"
   ],
   "note": "C85_request (settings, steps, inputs), C85_back (the second command line) are proved in full for their English; C85_archive_partial and C85_one_partial compose C83, C72 and C77 and are missing what C77 is missing (the parser is an arbitrary lexer-faithful parser, see C73), and --xmlns is excluded."
  },
  {
   "property": "C86",
   "status": "partial",
   "theorems": [
    "Srcml.C86_output_partial",
    "Srcml.C86_finding_long",
    "Srcml.C86_finding_empty",
    "Srcml.C86_finding_untested",
    "Srcml.C86_finding_wrong_language",
    "Srcml.C86_finding_mixed",
    "Srcml.C86_finding_url"
   ],
   "note": "Proved for archives of different names that fit their columns, one language for an archive, and failing tests whose markup is short (at most five ends of line, not empty): outside of this the behaviour is undefined or the counts are wrong, C86_finding_*. The decimal text of percentages is a parameter. The text is a list of pieces written to the archive; the writing itself is not modelled here."
  },
  {
   "property": "C87",
   "status": "proved",
   "theorems": [
    "Srcml.C87_result",
    "Srcml.C87_no_deadlock",
    "Srcml.C87_ends",
    "Srcml.C87_compressed",
    "Srcml.C87_steps",
    "Srcml.C87_finding_source",
    "Srcml.C87_finding_zero",
    "Srcml.C87_finding_error"
   ],
   "note": "The general theorems are about any threads that make texts; they are instantiated for create_srcml (its text in any pieces) and compress_srcml (libarchive as a parameter whose output does not depend on the cut). create_src and srcml_display_metadata do not close the pipe: with compression the command never ends (C87_finding_source). Signals and the failure of pipe() and exit() are not modelled."
  },
  {
   "property": "C88",
   "status": "proved",
   "theorems": [
    "Srcml.C88_follows",
    "Srcml.C88_all_taken",
    "Srcml.C88_finding_dropped"
   ],
   "note": "C88_follows and C88_all_taken, for every run of the buffer and the handler's pointer. The callbacks themselves are in Model/SrcSax (C25), where `pend` is the text between pointer and place of reading; here they are reduced to what they do with the pointer. Text that is dropped before it is taken is read outside of the buffer (C88_finding_dropped)."
  },
  {
   "property": "C89",
   "status": "proved",
   "theorems": [
    "Srcml.C89_metadata"
   ],
   "note": "Two calls of srcml_unit_parse_* whose sources are the same text in the same language with the same markup settings succeed and srcml_unit_get_srcml_inner returns the same string for both. Conditions: those of C73 on each call (ParseOk); thread-local variables of the output are those of a fresh thread or of one with the same position setting (else C12's finding)."
  },
  {
   "property": "C90",
   "status": "proved",
   "theorems": [
    "Srcml.C90_units",
    "Srcml.C90_finding_language",
    "Srcml.C90_compares"
   ],
   "note": "C90_units: the units tested, by Holds (an archive opened for reading whose units are us). C90_compares: the two texts that are compared are the recorded contents and the contents of a parse of the same text in any other unit with the same markup settings (with the conditions of C73/C89 on each parse); with C86 the report follows. Condition: the text is legal UTF-8 without byte order mark, CR, NUL and DEL (which is what an archive can hold unless the source was CR-terminated by references). C90_finding_language: units after the first of another language are silently left out."
  },
  {
   "property": "C91",
   "status": "partial",
   "theorems": [
    "Srcml.C91_input",
    "Srcml.C91_leftover",
    "Srcml.C91_finding_unit",
    "Srcml.C91_finding_rest"
   ],
   "note": "C91_input is proved for steps that read all of the document, and packed texts that libarchive reads to their end; the step that reads is any that makes the same text of the document whatever the pieces (the library's reader is C25/C28, the waiting for a download is C84, not combined with it here). Otherwise it is false: with --unit the rest of the document is not read and the unpacking thread is left writing to a pipe that nobody reads (C91_finding_unit: hang, or SIGPIPE); with something behind the packed data of an address the download waits for ever (C91_finding_rest)."
  },
  {
   "property": "C92",
   "status": "partial",
   "theorems": [
    "Srcml.C92_extract",
    "Srcml.C92_finding_same_place",
    "Srcml.C92_finding_conflict"
   ],
   "note": "C92_extract: full for every archive opened for reading, and every directory but . and ./ (C57_finding_dot). Left out of the model: links, .., rights, full disks, and libarchive's replacing of a file at the last place of a directory path. Where names cannot all be put there units are lost without a message: C92_finding_conflict, C92_finding_same_place (the last one stays)."
  },
  {
   "property": "C93",
   "status": "partial",
   "theorems": [
    "Srcml.C93_placeable",
    "Srcml.C93_tree_partial"
   ],
   "note": "C93_tree_partial: from the options (C85_archive_partial) to the files on the disk; C93_placeable: files of one tree always have room in an empty directory. C77_back_partial and C85_archive_partial say it too, for any disk on which the files can be put (Spec.GivesBack.disk). Partial for the reasons of C77 and C85 (the parser's events are given by ParseLib; directories, lists and archives as inputs are not in it) and of C92 (links, .., rights)."
  },
  {
   "property": "C94",
   "status": "partial",
   "theorems": [
    "Srcml.C94_alone",
    "Srcml.C94_in_turn",
    "Srcml.C94_reads",
    "Srcml.C94_finding_lost",
    "Srcml.C94_finding_two_archives",
    "Srcml.C94_finding_command"
   ],
   "note": "C94_alone: true of every document during which no other one is started, whatever pieces of others come in between; C94_in_turn: any number of documents one after the other, and nothing is undefined there. The full statement is false: C94_finding_lost (every document: once another one has started, no unit of this one is handed out any more, and its end is not seen), C94_finding_two_archives (two archives of two units, read in turns); the command does this itself: with a query and --output-src, or the display of metadata, two of its steps read a document at the same time (C94_finding_command). All other properties about reading (C25, C47, C77, C80, ...) are about a document that is not disturbed; C94_reads says it for C25. Overlapping writes to the static variables by two threads are undefined behaviour in C++ and not in the model, nor is the chance that a freed dictionary's place is used again."
  },
  {
   "property": "C95",
   "status": "partial",
   "theorems": [
    "Srcml.C95_output",
    "Srcml.C95_document",
    "Srcml.C95_reads_partial",
    "Srcml.C95_whole_partial",
    "Srcml.C95_finding_no_units",
    "Srcml.C95_finding_attributes_lost",
    "Srcml.C95_finding_cut",
    "Srcml.C95_finding_prefix"
   ],
   "note": "C95_output says for any number of units and all settings what is written: the document of the emptied first unit without its last 51 characters, `>`, the inner texts as lines, `</unit>`; C95_document says what that document is. That the output is one well-formed document with all contents is proved (C95_reads_partial; C95_whole_partial from the units to what is read) when the cut is between two attributes and the srcML namespace has no prefix; it is false otherwise: C95_finding_cut (main.cpp gives `<unit ... rev>`), C95_finding_prefix (end tag without the prefix), C95_finding_no_units (only an end tag); even when it reads, language and name are lost (C95_finding_attributes_lost). Not modelled: non-ASCII documents (bytes and characters differ), requests with transformations or failures between the units, the leak of the buffer."
  },
  {
   "property": "C96",
   "status": "partial",
   "theorems": [
    "Srcml.C96_goes_on_partial",
    "Srcml.C96_ends",
    "Srcml.C96_written_partial",
    "Srcml.C96_finding_stuck"
   ],
   "note": "C96_ends: every schedule ends, with a bound; C96_goes_on_partial / C96_written_partial: it ends with everything written if the output is a file, or the second step has opened its archive before, or there are at most 200 inputs. Otherwise false: C96_finding_stuck gives, for every number of inputs above 200 and every capacity of the pipe, a schedule after which no thread can go on. Left out: the threads that parse (C40), limits of the operating system, inputs that fail to open, --noarchive."
  }
 ]
}