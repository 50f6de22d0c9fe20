{"id": "C01", "title": "Newline normalisation of source input", "statement": "The characters that a unit parse reads from the source are the decoded source with every CR LF pair and every lone CR replaced by one LF, and nothing else changed, whatever the sizes of the blocks in which the source arrives.", "quantifier": "every decoded character sequence and every way of cutting it into read blocks (memory, FILE, fd, user callbacks)", "why_tests_cant": "A CR at the end of one block and LF at the start of the next is only one of infinitely many block boundaries; tests use a handful of sizes.", "anchors": ["src/parser/UTF8CharBuffer.cpp: UTF8CharBuffer::getChar, UTF8CharBuffer::readChars"]}
{"id": "C02", "title": "Hash covers exactly the source bytes", "statement": "The hash stored on a parsed unit is the SHA-1 of precisely the bytes of the source, each byte exactly once and in order, independent of how the source was delivered.", "quantifier": "every byte sequence, every split of it into reads, every amount of undecoded bytes carried over between reads", "why_tests_cant": "The carry-over of undecoded bytes between reads makes double hashing or gaps possible only at particular alignments.", "anchors": ["src/parser/UTF8CharBuffer.cpp: readChars, ~UTF8CharBuffer, getHash", "src/parser/sha1utilities.hpp", "src/libsrcml/srcml_unit.cpp: srcml_unit_parse_internal"]}
{"id": "C03", "title": "Encoding detection and byte order marks", "statement": "If no source encoding was requested, the encoding used is decided by the byte order mark (UTF-8, UTF-16, UTF-32) and is ISO-8859-1 otherwise; a requested encoding is always used; a UTF-8 byte order mark is not part of the text.", "quantifier": "every source byte sequence and every requested encoding", "why_tests_cant": "Tests cover only the listed marks with the matching encoding, not their combinations with requested encodings and short inputs.", "anchors": ["src/parser/UTF8CharBuffer.cpp: readChars, UTF8CharBuffer constructors"]}
{"id": "C04", "title": "No source text is lost while decoding", "statement": "The decoded text is the decoding of the whole source: the block size used to read it never shows in the result.", "quantifier": "every source and every block boundary position", "why_tests_cant": "A multi-byte character across a block boundary is a positional accident that tests with small files never reach.", "anchors": ["src/parser/UTF8CharBuffer.cpp: readChars, growBuffer"]}
{"id": "C05", "title": "Line count of a unit", "statement": "The line count of a unit is the number of line terminators of its source plus one when the last line is unterminated and not empty; parsing, element-wise writing and reading back agree on it.", "quantifier": "every source text", "why_tests_cant": "The three code paths count incrementally in different places; agreement has to hold for every text, including empty and unterminated ones.", "anchors": ["src/parser/UTF8CharBuffer.cpp: getChar, getLOC", "src/libsrcml/srcml_unit.cpp: srcml_write_end_unit", "src/libsrcml/srcml_reader_handler.hpp: charactersUnit", "src/libsrcml/sax2_srcsax_handler.cpp: characters_unit"]}
{"id": "C06", "title": "Extension registration: last registration wins", "statement": "After any history of extension registrations on an archive, looking up a filename gives the language of the last accepted registration of that filename's extension, the built-in mapping when there is none, and nothing when neither exists.", "quantifier": "every sequence of register calls and every filename", "why_tests_cant": "The history is unbounded and user registrations interleave with the built-in list.", "anchors": ["src/libsrcml/language_extension_registry.cpp: register_user_ext, get_language_from_filename, register_standard_file_extensions", "src/libsrcml/srcml_archive.cpp: srcml_archive_register_file_extension, srcml_archive_check_extension"]}
{"id": "C07", "title": "Invalid registrations are refused without effect", "statement": "Registering an extension with an unknown language or a missing argument is refused with an error status and changes no later lookup.", "quantifier": "every archive registration state, extension and language string", "why_tests_cant": "Absence of an effect on all later lookups cannot be tested by finitely many lookups.", "anchors": ["src/libsrcml/srcml_archive.cpp: srcml_archive_register_file_extension", "src/libsrcml/language_extension_registry.cpp: register_user_ext"]}
{"id": "C08", "title": "Extension of a filename", "statement": "The extension used for the lookup is what follows the last dot, after one trailing .gz is removed.", "quantifier": "every filename", "why_tests_cant": "Filenames are arbitrary strings (several dots, dots in directories, only .gz, empty).", "anchors": ["src/libsrcml/language_extension_registry.cpp: get_language_extension"]}
{"id": "C09", "title": "Language of a parse", "statement": "A parse uses the unit's language when it has one the library knows, otherwise the archive's language, otherwise the language registered for the file name; without any of these it fails with UNSET_LANGUAGE and no srcML is produced.", "quantifier": "every combination of unit language, archive language, filename and registrations", "why_tests_cant": "The decision is a product of independent settings with arbitrary strings.", "anchors": ["src/libsrcml/srcml_unit.cpp: srcml_unit_parse_internal, srcml_unit_parse_filename"]}
{"id": "C10", "title": "Language names", "statement": "The list of supported languages, the check of a language name and the names accepted by the translator are consistent: every listed language is accepted, its name survives the conversion to and from the internal number, and no other name is accepted by the check.", "quantifier": "every string", "why_tests_cant": "The claim excludes all other strings.", "anchors": ["src/parser/Language.cpp", "src/libsrcml/libsrcml.cpp: srcml_check_language, srcml_get_language_list"]}
{"id": "C11", "title": "Escaped text reads back unchanged", "statement": "Character data written for source text contains no markup characters that could be taken for tags or entities, and an XML reader decoding it returns exactly the source text.", "quantifier": "every text", "why_tests_cant": "Needs all combinations of adjacent special characters.", "anchors": ["src/parser/srcMLOutput.cpp: processText", "src/libsrcml/srcml_translator.cpp: add_string"]}
{"id": "C12", "title": "Output of a unit is well formed", "statement": "For every stream of tokens that the parser may produce, the emitted elements are properly nested, every opened element is closed and the text content is the text of the tokens in order.", "quantifier": "every token stream, including unbalanced start and end tokens", "why_tests_cant": "The space of token streams is infinite; the parser is error tolerant and must produce well-formed XML even for invalid source.", "anchors": ["src/parser/srcMLOutput.cpp: outputToken, processToken, consume", "src/libsrcml/srcml_translator.cpp: translate"]}
{"id": "C13", "title": "Control characters survive the XML round trip", "statement": "A control character of the source, which XML cannot represent, is written as an escape element whose code, read back, is the same character; no two control characters share a code.", "quantifier": "every control character (and the code reader on every code written)", "why_tests_cant": "Needs every value together with the surrounding text assembly.", "anchors": ["src/parser/StreamMLParser.hpp: consumeSkippedToken", "src/parser/srcMLOutput.cpp: processEscape", "src/libsrcml/srcml_reader_handler.hpp: startElement/endElement escape", "src/libsrcml/sax2_srcsax_handler.cpp: start_element"]}
{"id": "C14", "title": "The parser keeps every source token exactly once and in order", "statement": "Whatever markup the grammar decides on, including speculative parsing that is rolled back, preprocessor handling, comments and recovery from errors, the texts of the emitted tokens concatenate to the texts of the source tokens: nothing is lost, duplicated or reordered.", "quantifier": "every token sequence and every behaviour of the grammar rules (every sequence of stream operations they may perform)", "why_tests_cant": "The grammar has thousands of alternatives and recovery paths; the property must hold for arbitrary, also invalid, source code.", "anchors": ["src/parser/StreamMLParser.hpp", "src/parser/srcMLParser.g: start, eof, endAllModes, preprocessor", "src/parser/TokenParser.hpp"]}
{"id": "C15", "title": "Element stack discipline", "statement": "Elements opened by grammar rules are closed in the reverse order; when the parse ends every opened element has been closed exactly once.", "quantifier": "every sequence of mode and element operations", "why_tests_cant": "Modes can be ended from many rules and at arbitrary depth.", "anchors": ["src/parser/ModeStack.hpp", "src/parser/srcMLState.hpp", "src/parser/StreamMLParser.hpp: startElement, endElement"]}
{"id": "C16", "title": "Source to srcML to source round trip", "statement": "Parsing a source text and unparsing the unit gives the source text back, up to the newline normalisation chosen for the output.", "quantifier": "every source text and every behaviour of the grammar", "why_tests_cant": "This is the central promise of srcML; it must hold for every possible source file.", "anchors": ["src/libsrcml/srcml_unit.cpp: srcml_unit_parse_*, srcml_unit_unparse_*", "src/parser/*", "src/libsrcml/sax2_srcsax_handler.cpp"]}
{"id": "C17", "title": "Namespace declarations on output", "statement": "Each namespace in effect is declared exactly once on the element that needs it: a root declares the standard srcML namespace and those required, a nested unit repeats only what its root lacks; no prefix is declared twice on one element.", "quantifier": "every namespace table reachable by registrations and every option set", "why_tests_cant": "Tables, options and depth interact.", "anchors": ["src/parser/srcMLOutput.cpp: outputNamespaces, startUnit", "src/libsrcml/srcmlns.cpp: operator+="]}
{"id": "C18", "title": "Unit attributes survive writing and reading", "statement": "The metadata of a unit (revision, language, url, filename, version, timestamp, hash, user attributes) written on its start tag is what a reader of the result reports, with absent values reported as absent.", "quantifier": "every assignment of arbitrary values to the attributes", "why_tests_cant": "Values are arbitrary strings, including markup characters.", "anchors": ["src/parser/srcMLOutput.cpp: startUnit", "src/libsrcml/unit_utilities.cpp: unit_update_attributes", "src/libsrcml/srcml_reader_handler.hpp: startRoot, startUnit"]}
{"id": "C19", "title": "Option bits", "statement": "Enabling an option makes it reported and leaves the others; disabling removes only it; setting replaces the whole public set; the reported options never contain internal bits.", "quantifier": "every history of set/enable/disable calls with arbitrary numbers", "why_tests_cant": "Options are integers; interactions between internal and public bits depend on the history.", "anchors": ["src/libsrcml/srcml_archive.cpp: srcml_archive_set_options, srcml_archive_enable_option, srcml_archive_disable_option, srcml_archive_get_options"]}
{"id": "C20", "title": "Internal settings survive public option changes", "statement": "Changing the public options does not change whether the archive is a solitary unit, nor whether hashes are generated.", "quantifier": "every history of option calls", "why_tests_cant": "History dependent.", "anchors": ["src/libsrcml/srcml_archive.cpp: srcml_archive_set_options, srcml_archive_enable_solitary_unit, srcml_archive_has_hash"]}
{"id": "C21", "title": "Namespace registration and lookup", "statement": "After any history of registrations, looking up a uri gives the prefix registered last for it, uris are never duplicated, and registering the preprocessor, position or error namespace enables the corresponding option; enumeration by index covers exactly the table.", "quantifier": "every registration history, prefix, uri and index", "why_tests_cant": "Arbitrary histories; index arguments are arbitrary integers.", "anchors": ["src/libsrcml/srcml_archive.cpp: srcml_archive_register_namespace, srcml_archive_get_namespace_prefix, srcml_archive_get_prefix_from_uri, srcml_archive_get_uri_from_prefix", "src/libsrcml/srcmlns.cpp"]}
{"id": "C22", "title": "Macro list", "statement": "After any history of macro registrations the type of a macro name is the one registered last, names are listed once, in order of first registration.", "quantifier": "every registration history and token", "why_tests_cant": "Arbitrary histories.", "anchors": ["src/libsrcml/srcml_archive.cpp: srcml_archive_register_macro, srcml_archive_get_macro_list_size, srcml_archive_get_macro_token_type"]}
{"id": "C23", "title": "Clone of an archive", "statement": "A clone has the configuration of the original (encodings, language, url, version, options, tab stop, namespaces, attributes, registrations) and no open input or output; later changes to one do not affect the other.", "quantifier": "every archive state", "why_tests_cant": "All reachable states.", "anchors": ["src/libsrcml/srcml_archive.cpp: srcml_archive_clone", "src/libsrcml/srcml_unit.cpp: srcml_unit_clone"]}
{"id": "C24", "title": "I/O mode is enforced", "statement": "Units can be written only to an archive opened for writing and read only from an archive opened for reading; a refused operation returns the documented status and has no effect on output.", "quantifier": "every sequence of API calls on one archive", "why_tests_cant": "Arbitrary call histories.", "anchors": ["src/libsrcml/srcml_archive.cpp: srcml_archive_write_unit, srcml_archive_read_unit, srcml_archive_skip_unit, srcml_archive_close, srcml_archive_write_open_*, srcml_archive_read_open_*"]}
{"id": "C25", "title": "Archive round trip", "statement": "Reading an archive that was written unit by unit yields the same units, in the same order, with the same srcML content, and then reports the end; an archive without units yields none.", "quantifier": "every sequence of units with arbitrary well-formed content", "why_tests_cant": "Unbounded number of units and contents.", "anchors": ["src/libsrcml/srcml_translator.cpp: add_unit, close", "src/libsrcml/sax2_srcsax_handler.cpp", "src/libsrcml/srcml_sax2_reader.cpp"]}
{"id": "C26", "title": "Mixing reads and skips", "statement": "The k-th read or skip on an archive refers to the k-th unit, independent of which of the earlier operations were reads and which skips; after the last unit every operation reports the end, for ever.", "quantifier": "every archive and every sequence of read, header-read and skip operations", "why_tests_cant": "Unbounded histories.", "anchors": ["src/libsrcml/srcml_archive.cpp: srcml_archive_read_unit, srcml_archive_read_unit_header, srcml_archive_skip_unit", "src/libsrcml/srcml_sax2_reader.cpp", "src/libsrcml/srcml_reader_handler.hpp"]}
{"id": "C27", "title": "Solitary unit output", "statement": "In solitary mode the output is the single unit without an archive element, and at most one unit is written; in archive mode the units are children of one archive element in the order written.", "quantifier": "every sequence of written units in both modes", "why_tests_cant": "Unbounded sequences and mode switches.", "anchors": ["src/libsrcml/srcml_translator.cpp: prepareOutput, add_unit, close"]}
{"id": "C28", "title": "Reader thread hand-over delivers every unit once", "statement": "Under every interleaving of the application thread and the background parsing thread, the application receives the units of the document in order, each exactly once.", "quantifier": "every schedule and every document", "why_tests_cant": "Interleavings cannot be enumerated by tests.", "anchors": ["src/libsrcml/srcml_sax2_reader.cpp", "src/libsrcml/srcml_reader_handler.hpp"]}
{"id": "C29", "title": "Reader never hangs", "statement": "No schedule leaves both the application and the parsing thread waiting for each other, for every document, also empty and malformed ones.", "quantifier": "every schedule and document", "why_tests_cant": "A lost wake-up needs one specific interleaving.", "anchors": ["src/libsrcml/srcml_reader_handler.hpp: done, wait, resume_and_wait", "src/libsrcml/srcml_sax2_reader.cpp: start_routine"]}
{"id": "C30", "title": "Line endings of unparsed source", "statement": "Unparsing with a selected line ending replaces each newline of the text by that ending and changes nothing else; with automatic line endings the text is unchanged; invalid selections are refused.", "quantifier": "every text and every eol argument", "why_tests_cant": "Arbitrary texts and numbers.", "anchors": ["src/libsrcml/srcml_unit.cpp: srcml_unit_set_eol, srcml_unit_unparse_internal"]}
{"id": "C31", "title": "Inner and outer srcML of a unit", "statement": "The inner srcML is the text between the start and end tag of the unit, the outer srcML is the unit element itself; inner is contained in outer at the place between the tags; an empty unit has empty inner srcML.", "quantifier": "every unit content", "why_tests_cant": "Index arithmetic on arbitrary strings.", "anchors": ["src/libsrcml/srcml_unit.cpp: srcml_unit_get_srcml, srcml_unit_get_srcml_outer, srcml_unit_get_srcml_inner"]}
{"id": "C32", "title": "Element-wise writing", "statement": "Any sequence of start element, end element, attribute, namespace and string calls between start unit and end unit gives a well-formed unit in which all elements are closed; calls outside a unit are refused.", "quantifier": "every call sequence", "why_tests_cant": "Arbitrary call sequences, also unbalanced ones.", "anchors": ["src/libsrcml/srcml_unit.cpp: srcml_write_start_unit, srcml_write_end_unit, srcml_write_start_element, srcml_write_end_element, srcml_write_attribute", "src/libsrcml/srcml_translator.cpp: add_start_unit, add_end_unit, add_start_element, add_end_element"]}
{"id": "C33", "title": "API argument checking", "statement": "Every API entry rejects missing (null) arguments with INVALID_ARGUMENT, and a refused call changes nothing.", "quantifier": "every call with every combination of missing arguments in every state", "why_tests_cant": "Combinatorial and state dependent.", "anchors": ["src/libsrcml/srcml_unit.cpp", "src/libsrcml/srcml_archive.cpp"]}
{"id": "C34", "title": "srcDiff revision extraction", "statement": "Extracting revision 0 (original) keeps everything except inserted parts, revision 1 (modified) everything except deleted parts; with no difference markup the text is unchanged, and the markers themselves are removed.", "quantifier": "every properly nested difference markup", "why_tests_cant": "Arbitrary nesting of regions.", "anchors": ["src/libsrcml/unit_utilities.cpp: extract_revision"]}
{"id": "C35", "title": "srcDiff revision of attributes", "statement": "An attribute value a|b is a in revision 0 and b in revision 1; a value without the separator is the same in both.", "quantifier": "every attribute value", "why_tests_cant": "Arbitrary strings.", "anchors": ["src/libsrcml/unit_utilities.cpp: attribute_revision"]}
{"id": "C36", "title": "Transformations are applied in order", "statement": "Applying the transformations of an archive to a unit is the left-to-right composition: each transformation is applied to every result of the previous one in order, and no transformation at all is an error or identity as documented.", "quantifier": "every list of transformations and every number of intermediate results", "why_tests_cant": "Unbounded pipelines and result sets.", "anchors": ["src/libsrcml/srcml_transform.cpp: srcml_unit_apply_transforms"]}
{"id": "C37", "title": "Transformation parameters bind to the latest transformation", "statement": "A parameter is added to the most recently appended transformation; without one it is refused; string parameters are quoted; clearing removes all transformations.", "quantifier": "every history of append, param and clear calls", "why_tests_cant": "Arbitrary histories.", "anchors": ["src/libsrcml/srcml_transform.cpp: srcml_append_transform_param, srcml_append_transform_stringparam, srcml_clear_transforms"]}
{"id": "C38", "title": "Transformation results", "statement": "The result accessors return the value exactly for the matching kind of result and a neutral value otherwise; unit access is in range or null.", "quantifier": "every result and every index", "why_tests_cant": "Arbitrary integers as index.", "anchors": ["src/libsrcml/srcml_transform.cpp: srcml_transform_get_*"]}
{"id": "C39", "title": "Order of units with parallel parsing", "statement": "With any number of parsing threads and any schedule, the units are written in the order of their inputs, each exactly once, when ordered output is used.", "quantifier": "every schedule, thread count and input list", "why_tests_cant": "Thread interleavings.", "anchors": ["src/client/ParseQueue.hpp", "src/client/WriteQueue.cpp"]}
{"id": "C40", "title": "The command terminates after all inputs", "statement": "After the last input was scheduled, waiting for the queues returns once every request has been written; no request is left in the queue.", "quantifier": "every schedule", "why_tests_cant": "Thread interleavings.", "anchors": ["src/client/WriteQueue.cpp: WriteQueue::process, stop", "src/client/create_srcml.cpp"]}
{"id": "C41", "title": "Open file limit", "statement": "The number of simultaneously open inputs never exceeds the limit, for every schedule of opens and closes.", "quantifier": "every schedule", "why_tests_cant": "Thread interleavings.", "anchors": ["src/client/OpenFileLimiter.hpp", "src/client/OpenFileLimiter.cpp"]}
{"id": "C42", "title": "Input names and protocols", "statement": "An input name is split at its first :// into protocol and resource; names without a protocol are files, - is standard input; adding a protocol twice changes nothing; recombining protocol and resource gives the name back.", "quantifier": "every string", "why_tests_cant": "Arbitrary strings.", "anchors": ["src/client/src_prefix.cpp"]}
{"id": "C43", "title": "Compression and archive extensions", "statement": "The plain name of an input is its resource with exactly its trailing known compression and archive extensions removed; the collected extensions re-appended in reverse give the resource back; the srcML/source decision depends only on the remaining extension.", "quantifier": "every resource name", "why_tests_cant": "Arbitrary strings and arbitrarily many extensions.", "anchors": ["src/client/srcml_input_src.cpp", "src/client/src_archive.cpp"]}
{"id": "C44", "title": "Escapes in --text", "statement": "Text without backslashes is taken literally; the documented escapes denote the documented bytes; escaped NUL separates units, giving one unit more than there are separators.", "quantifier": "every text argument", "why_tests_cant": "Arbitrary strings of escapes, including incomplete ones at the end.", "anchors": ["src/client/src_input_text.cpp: src_input_text"]}
{"id": "C45", "title": "File lists", "statement": "Each non-blank line of a file list that is not a comment gives exactly one input, trimmed, in order.", "quantifier": "every file content", "why_tests_cant": "Arbitrary contents, including unterminated last lines.", "anchors": ["src/client/src_input_filelist.cpp"]}
{"id": "C46", "title": "Processing steps of the command", "statement": "For every combination of options and inputs at least one processing step is chosen, source is never produced together with metadata or srcML unless requested explicitly, and compression is last.", "quantifier": "every request", "why_tests_cant": "Combinations of options.", "anchors": ["src/client/srcml.cpp: request_create_srcml, request_create_src, request_display_metadata"]}
{"id": "C47", "title": "Unit selection", "statement": "Asking for unit n of an archive outputs exactly the n-th unit, and reports an error when there are fewer; without a selection all units are output, separated by NUL.", "quantifier": "every archive and n", "why_tests_cant": "Unbounded n and archives.", "anchors": ["src/client/create_src.cpp", "src/client/srcml_input_srcml.cpp"]}
{"id": "C48", "title": "Exit status", "statement": "The command exits with 0 exactly when no warning or error message was logged.", "quantifier": "every message history", "why_tests_cant": "Arbitrary histories.", "anchors": ["src/client/SRCMLStatus.hpp", "src/client/srcml.cpp: main"]}
{"id": "C49", "title": "Formatted metadata output", "statement": "In a format string every supported field is replaced by its value in order, a doubled percent sign prints one percent sign, and all other text is printed unchanged.", "quantifier": "every format string and metadata", "why_tests_cant": "Arbitrary strings.", "anchors": ["src/client/srcml_pretty.cpp: parse_templates, pretty_print"]}
{"id": "C50", "title": "Command line argument clean-up", "statement": "Rewriting the arguments before option parsing changes only the documented forms (--xmlns:PRE=, options with an empty value).", "quantifier": "every argument vector", "why_tests_cant": "Arbitrary strings.", "anchors": ["src/client/srcml_cli.cpp: parseCLI11"]}
{"id": "C51", "title": "Skipping of #if 0 regions", "statement": "Without the option to mark them up, exactly the text between #if 0 and its matching #else/#elif/#endif is left without markup, for every nesting of conditional directives inside.", "quantifier": "every sequence of conditional directives", "why_tests_cant": "Unbounded nesting.", "anchors": ["src/parser/srcMLParser.g: eol_post"]}
{"id": "C52", "title": "Ends of comments and literals", "statement": "Inside a block comment the comment ends at the first */ ; a line comment ends before the end of line; a string ends at the first unescaped quote.", "quantifier": "every text", "why_tests_cant": "Arbitrary texts.", "anchors": ["src/parser/CommentTextLexer.g: COMMENT_TEXT"]}
{"id": "C53", "title": "Mode queries of the parser stack", "statement": "Ending modes down to a mode removes exactly the levels above the nearest level that has it (all but the last if no level has it); ending modes while in a mode removes exactly the levels that have it; a mode is seen transparently exactly if the last write to it, at any level still on the stack, set it.", "quantifier": "every mode stack", "why_tests_cant": "Unbounded stacks.", "anchors": ["src/parser/ModeStack.hpp: inTransparentMode, endDownToMode, endDownToModeSet, endWhileMode, getTransparentMode"]}
{"id": "C54", "title": "Element positions", "statement": "With the position option every element gets an end position that is the position of the last token consumed before it was closed, and start and end refer to the same element.", "quantifier": "every sequence of start/end operations", "why_tests_cant": "Unbounded nesting.", "anchors": ["src/parser/StreamMLParser.hpp: pushSToken, pushEToken, nextToken"]}
{"id": "C55", "title": "Output of a unit does not depend on earlier units of the thread", "statement": "What is written for a unit is determined by the settings of its own archive; units written or parsed earlier in the same thread, possibly with other options, have no influence on it.", "quantifier": "every history of units with any options, on any thread", "why_tests_cant": "needs a process that mixes archives of different options on one thread; each test runs in a fresh process or uses one configuration", "anchors": ["src/parser/srcMLOutput.cpp: srcMLOutput::addPosition, processToken"]}
{"id": "C56", "title": "Settings of a unit", "statement": "After any sequence of setter calls on a unit each getter reports the last accepted value of its own setting (null unsets), refused values change nothing, the contents of the unit are untouched, and a clone has the same settings but no contents.", "quantifier": "every sequence of setter calls with any arguments", "why_tests_cant": "Arbitrary call histories and values.", "anchors": ["src/libsrcml/srcml_unit.cpp: srcml_unit_set_*, srcml_unit_get_*, srcml_unit_clone"]}
{"id": "C57", "title": "Extraction to a directory", "statement": "Extracting an archive to a directory writes, for every unit with a file name, the source text of that unit to the file of that name in the directory, in the order of the units, and writes no other file.", "quantifier": "every archive, every directory name", "why_tests_cant": "Unbounded archives and names.", "anchors": ["src/client/src_output_filesystem.cpp: src_output_filesystem", "src/client/create_src.cpp: create_src"]}
{"id": "C58", "title": "Extraction to a source archive", "statement": "Extracting srcML archives to a source archive (tar, zip, ...) makes exactly one entry per unit, in order, named by the unit's file name or else by a number, with the source text of the unit.", "quantifier": "every archive, every mixture of units with and without file name and language", "why_tests_cant": "Unbounded archives and combinations of metadata.", "anchors": ["src/client/src_output_libarchive.cpp: src_output_libarchive", "src/client/src_archive.cpp: language_to_std_extension"]}
{"id": "C59", "title": "Text of a message", "statement": "A message with arguments shows the format with every argument in its place, whatever the arguments are.", "quantifier": "every format and every argument text", "why_tests_cant": "Argument texts come from the user and are unbounded.", "anchors": ["src/client/SRCMLStatus.hpp: SRCMLstatus"]}
{"id": "C60", "title": "Leaving out #else parts", "statement": "With the option for text in #else (--cpp-nomarkup-else), of every conditional exactly one part gets markup: the first one, or the second one when the first is that of #if 0; the text of all other parts is left as it is, for every nesting of conditional directives.", "quantifier": "every sequence of conditional directives", "why_tests_cant": "Unbounded nesting.", "anchors": ["src/parser/srcMLParser.g: eol_post, cppmode_cleanup"]}
{"id": "C61", "title": "Lexing loses nothing", "statement": "The texts of the tokens of a source, one after the other, are exactly the source; no token is empty, and no part of the source is dropped.", "quantifier": "every source text, language and set of macros", "why_tests_cant": "Any character sequence can be a source; a character no rule covers, or a rule that takes one too many, shows only on the right input.", "anchors": ["src/parser/TextLexer.g", "src/parser/OperatorLexer.g", "src/parser/KeywordLexer.g", "src/parser/CommentTextLexer.g", "src/libsrcml/srcml_translator.cpp: translate"]}
{"id": "C62", "title": "Words are recognised by the language's table and the registered macros", "statement": "A word outside of comments and literals is a keyword exactly when the table has it for the language of the source, otherwise a macro when it is registered (the registration made last counts), and otherwise a name.", "quantifier": "every source, word, language and list of registered macros", "why_tests_cant": "All words in all languages and all orders of registrations.", "anchors": ["src/parser/KeywordLexer.g: keyword_map, constructor", "src/libsrcml/srcml_archive.cpp: srcml_archive_register_macro"]}
{"id": "C63", "title": "Positions of tokens", "statement": "Each token carries the line and column of the place where its text starts in the source, with tabs going on to the next multiple of the tab size.", "quantifier": "every source, tab size and language", "why_tests_cant": "Positions depend on everything before the token, including multi-line comments and strings.", "anchors": ["src/parser/TextLexer.g: WS, EOL", "src/parser/CommentTextLexer.g", "src/parser/KeywordLexer.g"]}
{"id": "C64", "title": "Raw text writes", "statement": "Texts written to an archive in memory with srcml_archive_write_string are what the user gets when the archive is closed, in order and unchanged, however often the archive was opened, written and closed before.", "quantifier": "every list of sessions, every list of texts in a session, every setting of the archive", "why_tests_cant": "Any number of texts and of open/close rounds; the buffer is shared with the writer of units.", "anchors": ["src/libsrcml/srcml_archive.cpp: srcml_archive_write_string", "src/libsrcml/srcml_archive.cpp: srcml_archive_close"]}
{"id": "C65", "title": "Lexemes", "statement": "The tokens of a source are the words, numbers, operators, string and character literals, comments, blanks and line ends it is made of, one after the other and with the types of these: an operator is the longest one of the language, a literal ends at its first unescaped quote, a block comment at its first */, a line comment at the end of the line.", "quantifier": "every source that is made of such parts, of any length, in every language, with any registered macros", "why_tests_cant": "The set of sources is unbounded, and what a part is depends on what comes behind it.", "anchors": ["src/parser/TextLexer.g: NAME, CONSTANTS, STRING_START, LINE_COMMENT_START", "src/parser/OperatorLexer.g: OPERATORS", "src/parser/CommentTextLexer.g", "src/parser/KeywordLexer.g"]}
{"id": "C66", "title": "Directives", "statement": "A # starts a preprocessor directive exactly when it is the first thing in its line but for blanks; elsewhere it is an operator. In the line of a directive a string or character literal ends at the end of the line at the latest, in other lines it goes on to its closing quote.", "quantifier": "every source made of lexemes, every # in it, every language", "why_tests_cant": "It depends on all that is in the line before, including literals and comments that contain #, newlines and quotes.", "anchors": ["src/parser/OperatorLexer.g: OPERATORS", "src/parser/TextLexer.g: startline", "src/parser/KeywordLexer.g: onpreprocline", "src/parser/CommentTextLexer.g"]}
{"id": "C67", "title": "Marking the results of a query", "statement": "When the results of an XPath query are to be marked with an element, the transformed unit is the unit with that element, in its namespace, around each result and nothing else changed; when they are to be marked with an attribute, it is the unit with that attribute on each result that is an element and nothing else changed. Without a mark the results themselves are the result, in order.", "quantifier": "every unit as a document tree of any size and shape, every set of nodes found in it, every name, prefix, URI and value", "why_tests_cant": "The trees and the sets of nodes, nested in each other or not, are unbounded; the operations are destructive updates of pointers.", "anchors": ["src/libsrcml/xpathTransformation.cpp: apply, addElementXPathResults, append_attribute_to_node", "src/libsrcml/srcml_transform.cpp: srcml_append_transform_xpath_element, srcml_append_transform_xpath_attribute"]}
{"id": "C68", "title": "Results of stylesheets", "statement": "When a stylesheet makes units, all of them are in the result, in order; when it makes a text, the result is a string, this text; when it makes nothing there is no result.", "quantifier": "every sequence of top nodes of the document that the stylesheet made", "why_tests_cant": "The sequences are unbounded.", "anchors": ["src/libsrcml/xsltTransformation.cpp: apply"]}
{"id": "C69", "title": "Directories as inputs", "statement": "For a directory given to the command, every regular file below it is handled, except those whose name, or that of a directory on the way, starts with a dot: each one once and in the order of the paths, whatever order the file system lists them in. The requests made are those of these files one after the other: source files with their path, language and contents, archives and other files left out (or listed with -v).", "quantifier": "every directory tree of any depth and width, every order of listing, every set of registered extensions and options", "why_tests_cant": "The trees and the orders are unbounded.", "anchors": ["src/client/src_input_filesystem.cpp: src_input_filesystem", "src/client/src_input_libarchive.cpp: src_input_libarchive"]}
{"id": "C70", "title": "Archives, compressed and single files as inputs", "statement": "Of an archive of another kind (tar, zip, ...) every entry that is not a directory is handled, in order: it gives one request with its name (below the directory of the archive), its language (the one asked for if the name has a language, else that of the name), its time and all its bytes, or nothing if there is no language; the output is an archive. An input that is not an archive gives one request with all its bytes, under its own name without `./` and without the extensions of compressions, or under the name asked for if one unit is written. A local file gives one request to read that file.", "quantifier": "every sequence of entries and data blocks, every name and option, every set of registered extensions", "why_tests_cant": "The sequences of entries and blocks and the names are unbounded.", "anchors": ["src/client/src_input_libarchive.cpp: src_input_libarchive", "src/client/src_input_file.cpp: src_input_file"]}
{"id": "C71", "title": "Processing a request", "statement": "Every request of the command is parsed into a unit with exactly its language, its name without `./` in front, its version and its time. What it adds to the output is: the unit, or its text for the options that ask for text; the units of the results of the transformations, or their value on a line of its own; or a message and nothing else if it failed. The requests add to the output in their order and nothing else is added. Without an archive every unit goes to a file of its own, named after it. Whoever reads the archive that was written gets exactly the units of the requests, in order, with these attributes.", "quantifier": "every list of requests, every library result for each (units, values, failures), every combination of the modelled options, every schedule of the reader", "why_tests_cant": "The lists of requests, the units and the schedules of the reader are unbounded.", "anchors": ["src/client/srcml_consume.cpp: srcml_consume", "src/client/srcml_write.cpp: srcml_write_request", "src/client/WriteQueue.cpp: WriteQueue"]}
{"id": "C72", "title": "The command from its options and inputs to the output", "statement": "The output of the command is one unit exactly when there is one input, it is not a directory, a list of files or a source archive, and no archive is asked for; otherwise it is an archive. Its encodings, url, version, language, tabs, options, hashes, extensions and namespaces are exactly those asked for on the command line; the command is refused exactly when a unit name is given for an archive or an extension is registered for an unknown language. The inputs are handled in order, each by its kind (text, file, directory, source archive), until one fails. Whoever reads the output for local files gets exactly one unit per file, in the order of the command line, with its name and language.", "quantifier": "every combination of the options, every list of inputs of every kind, every library result, every schedule of the reader", "why_tests_cant": "The combinations of options, the lists of inputs, the contents and the schedules of the reader are unbounded.", "anchors": ["src/client/create_srcml.cpp: create_srcml, srcml_handler_dispatch", "src/client/src_input_text.cpp: src_input_text", "src/client/srcml_cli.hpp: srcml_request_t", "src/libsrcml/srcml_archive.cpp: srcml_archive_free"]}
{"id": "C73", "title": "Parsing source into a unit, from the bytes to the unit", "statement": "srcml_unit_parse_filename, _memory, _FILE, _fd and _io refuse a null unit, a source that is not there, a file that cannot be opened, a source whose language is not known and an encoding that is not known, each with its own status, and then leave the unit as it was. Otherwise the text of the unit is exactly the source, decoded from the encoding asked for (of the unit, else of the archive, else found by the byte order mark), without byte order mark and with one kind of newline; the number of lines is that of the text; the srcML of the unit is one well-formed document that stands for exactly that text; the hash is that of the bytes of the source, unless the unit had one; the other metadata are as they were. It does not matter in what pieces the source comes.", "quantifier": "every archive and unit, every source in every encoding, every division of it into reads, every way to give it, every behaviour of the grammar that ends", "why_tests_cant": "Sources, encodings, pieces, settings and runs of the grammar are unbounded.", "anchors": ["src/libsrcml/srcml_unit.cpp: srcml_unit_parse_internal, srcml_unit_parse_filename, srcml_unit_parse_memory, srcml_unit_parse_FILE, srcml_unit_parse_fd, srcml_unit_parse_io", "src/libsrcml/srcml_translator.cpp: srcml_translator::translate", "src/parser/UTF8CharBuffer.cpp: UTF8CharBuffer"]}
{"id": "C74", "title": "Source files through an archive and back", "statement": "A user who sets up an archive, parses source files into units, writes the units to the archive, and later reads the archive, gets one unit for each file, in the order of writing and no other; the text of each unit is exactly the text of its file (decoded, without byte order mark, with one kind of newline), unparsing the unit to any destination writes exactly that text, and the unit has the language of the parse, the hash of the bytes of the file, and the file name, version, timestamp and further attributes that were set. The same holds for one file written as a solitary unit.", "quantifier": "every history of set-up calls that leaves settings XML can carry, every list of files, every encoding and division into reads, every behaviour of the grammar that ends, every division of the srcML text into pieces, every interleaving of the two threads of the reader, every pattern of reads and skips", "why_tests_cant": "Files, settings, runs of the grammar, pieces and schedules are unbounded, and the property needs all of them together.", "anchors": ["src/libsrcml/srcml_unit.cpp: srcml_unit_parse_internal, srcml_unit_unparse_internal", "src/libsrcml/srcml_archive.cpp: srcml_archive_write_unit, srcml_archive_read_unit", "src/libsrcml/srcml_translator.cpp: add_unit", "src/libsrcml/srcmlns.cpp: operator+=", "src/libsrcml/sax2_srcsax_handler.cpp: start_unit, characters_unit", "src/libsrcml/srcml_reader_handler.hpp: srcml_reader_handler"]}
{"id": "C75", "title": "The convenience function srcml(input, output)", "statement": "srcml(input, output) translates a file by its name: a file with an extension of source code is parsed and written as one solitary unit, a file with the extension xml or srcml (or any other file while the language is set to xml) is turned back to source code, and every other input and every null argument is refused with a status and a message, before anything is written. After any sequence of the setters the srcML file holds exactly one unit, whose text is that of the input, whose language, file name, version and timestamp are those that were set, or else the language of the extension and the name of the input; translating that file back writes exactly the text of the input. No call changes the settings.", "quantifier": "every sequence of setter calls, every pair of names or null pointers, every input file, encoding and division into reads, every behaviour of the grammar that ends, every division of the srcML text into pieces and every interleaving of the threads of the reader", "why_tests_cant": "Histories of settings, names, file contents and schedules are unbounded.", "anchors": ["src/libsrcml/libsrcml.cpp: srcml, srcml_set_language, srcml_set_filename, srcml_error_string, srcml_check_extension", "src/libsrcml/srcml_archive.cpp: srcml_archive_clone, srcml_archive_write_open_filename, srcml_archive_close", "src/libsrcml/srcml_unit.cpp: srcml_unit_parse_filename, srcml_unit_unparse_filename"]}
{"id": "C76", "title": "Settings of an archive", "statement": "After any history of calls of the setters of an archive, each getter (source encoding, XML encoding, language, url, version, tab stop, processing instruction, srcDiff revision) reports the value of the last accepted call of its own setter, whatever the other calls were, a null pointer unsets a text, the revision of the library is never changed, and a refused call changes nothing; a copy of an archive reports the same. The same holds for the settings, options and file extensions of the convenience functions srcml_set_… and srcml_get_….", "quantifier": "every history of setter calls with every argument, on every archive", "why_tests_cant": "Histories of calls and their arguments are unbounded; a setter that touches another setting shows only in some orders.", "anchors": ["src/libsrcml/srcml_archive.cpp: srcml_archive_set_language, srcml_archive_set_version, srcml_archive_set_srcdiff_revision, srcml_archive_get_language", "src/libsrcml/libsrcml.cpp: srcml_set_filename, srcml_get_filename, srcml_set_eol, srcml_check_extension"]}
{"id": "C77", "title": "Source code through the command and back", "statement": "The command that is given source files of this machine writes one srcML document without a message; a reader of it, however the document is delivered and however the threads are scheduled, reads one unit for each file in the order of the command line and then the end, and every sequence of its calls returns. From the units that are read the command gets the source code of the files back: of all of them one after the other, of one that is selected by its number, and into a directory with the names of the files. For one file that is not put into an archive, the document is that unit, and the same holds for it.", "quantifier": "every list of files, every content of a file that is read and parsed completely, all options of the command that ask for an archive or for one unit, every delivery of the document and every schedule", "why_tests_cant": "Contents, file lists, deliveries and schedules are unbounded.", "anchors": ["src/client/create_srcml.cpp: create_srcml", "src/client/srcml_consume.cpp: srcml_consume", "src/client/create_src.cpp: create_src", "src/client/src_output_filesystem.cpp: src_output_filesystem", "src/libsrcml/srcml_unit.cpp: srcml_unit_parse_filename"]}
{"id": "C78", "title": "The settings of an archive survive writing and reading", "statement": "An archive is set up by calls of the library, units are written to it and it is closed. If its text is opened for reading, the archive that is opened has the revision, the url, the version, the XML encoding, the prefixes of the srcML namespace and of all namespaces that srcML does not know itself, the macros in their order, the other attributes and the options that the root shows (text of else branches, marked up #if 0, line numbers, debug, position), and it is in archive mode; the tab stop and the prefix of the position namespace are restored if positions were written. For a document of one unit the archive that is opened is solitary, has the revision and the encoding of the archive and the url and the version of the unit, and each declared namespace has the prefix of its declaration.", "quantifier": "every sequence of set-up calls whose settings XML can carry, every non-empty list of units, every way in which libxml2 delivers the text", "why_tests_cant": "Set-up histories, values, prefixes, units and deliveries are unbounded.", "anchors": ["src/libsrcml/srcml_reader_handler.hpp: startRoot, metaTag", "src/libsrcml/srcml_archive.cpp: srcml_archive_read_open_internal, srcml_archive_register_namespace", "src/libsrcml/sax2_srcsax_handler.cpp: start_root, first_start_element", "src/parser/srcMLOutput.cpp: startUnit, outputNamespaces"]}
{"id": "C79", "title": "Units copied from one archive to another stay the same", "statement": "Units are read from documents that the library wrote, archives or single units, and written with srcml_archive_write_unit to another archive, with any settings, which is closed; its text is read. Nothing fails, and the i-th read gives the copy of the i-th unit that was written: the inner text is the same character by character, and so are the source text, the language, the filename, the version, the timestamp, the hash, the revision and the other attributes. However often a unit is copied in this way, it stays the same. If the unit becomes the root of a document it keeps the url, and has the revision of the new archive. If the new archive knows the namespaces of the archives from which the units were read, with the same prefixes, each copy is the same XML: the same element with the same contents, in which each prefix that was declared is declared for the same namespace.", "quantifier": "every set-up of the first and of the second archive, every list of units with any contents, every way in which libxml2 delivers the texts, every interleaving of the threads of the reader, and every number of copies", "why_tests_cant": "Contents, settings, deliveries, schedules and the number of copies are unbounded.", "anchors": ["src/libsrcml/srcml_archive.cpp: srcml_archive_read_unit, srcml_archive_write_unit", "src/libsrcml/srcml_translator.cpp: add_unit", "src/libsrcml/srcml_reader_handler.hpp: startUnit, endUnit", "src/libsrcml/srcmlns.cpp: operator+=", "src/client/srcml_input_srcml.cpp: srcml_input_srcml"]}
{"id": "C80", "title": "A srcML document as input of the command", "statement": "The command is run on one srcML document that the library wrote and that can be read, an archive or a single unit, with output in srcML; all units are asked for, or one by its number. It writes no message and ends normally, and reading its output gives exactly the units that were asked for, in their order, and no other: inner text, source text, metadata, revision and attributes are the same, except that the language is replaced if one was asked for, and each unit is the same XML element with the same namespaces for its prefixes. The output is an archive exactly if the input is one and no unit is selected, or if the command line asks for one; otherwise it is a document of one unit. If the number is too large, or the archive has no units, the command fails and writes nothing; if the document cannot be opened, no unit is made.", "quantifier": "every srcML document with any number of units and any contents, every selection and command line, every way in which libxml2 delivers the output, and every interleaving of the threads of the reader", "why_tests_cant": "Documents, settings, deliveries and schedules are unbounded.", "anchors": ["src/client/srcml_input_srcml.cpp: srcml_input_srcml", "src/client/create_srcml.cpp: srcml_handler_dispatch, create_srcml", "src/client/srcml_consume.cpp: srcml_consume", "src/client/srcml_write.cpp: srcml_write_request"]}
{"id": "C81", "title": "Metadata shown by the command", "statement": "For every srcML document that can be opened: each of --show-encoding, --show-url, --show-filename, --show-language, --show-version, --show-hash and --show-timestamp, in any combination, shows exactly the values of the archive and then those of each unit in order, one per line and with its name unless it is the only option; --show-unit-count shows the number of units that have a language; --info shows the namespaces, encoding and url, and language and filename of a single unit; --full-info adds the number of units; --list has one line per unit with its number, language, lines of code, hash and filename and ends with the number of units and the sum of their lines of code; --prefix shows the prefix of a namespace. For several inputs what is shown is the concatenation, up to the first that cannot be opened, for which there is one message.", "quantifier": "every archive (settings, table of namespaces, number and contents of units), every combination of the value options, every list of inputs, any of which may fail to open", "why_tests_cant": "The output is put together from a format string made from the options, and options share the one pass over the units; tests use one document and one option at a time, so they do not see which combinations find no units left, or what is shown for values that are not set.", "anchors": ["src/client/srcml_display_metadata.cpp: srcml_display_metadata, srcml_list, srcml_display_info, srcml_unit_count", "src/client/srcml_pretty.cpp: srcml_pretty"]}
{"id": "C82", "title": "Queries and transformations on the command line", "statement": "The options --xpath, --element, --attribute, --xslt, --xslt-param and --relaxng become the transformations of the output archive, one for each query, stylesheet and schema, in order. An element and an attribute mark the results of the latest query before them and of no other, with the prefix, name and value as written, quotes left out, and the prefix of the element where the attribute has none; the uri of a prefix is that of the archive, else that of --xmlns. A parameter belongs to the transformation before it. The archive is a full archive as soon as a query has no mark, and nothing else of it changes. A mark before every query, or without the colon or equals sign it needs, is refused; a prefix without a uri, or a stylesheet or schema that cannot be read, ends the command.", "quantifier": "every list of these options and values, every archive with any table of namespaces and any transformations it already has, every set of --xmlns options and every set of readable documents", "why_tests_cant": "The options are kept in two lists of different length that are matched up again by counting the queries, and the texts are cut at the first colon and equals sign; tests use one query with one mark at a time.", "anchors": ["src/client/srcml_cli.cpp: parseCLI11, attribute, element", "src/client/transform_srcml.cpp: apply_xpath, apply_xslt, apply_relaxng", "src/client/create_srcml.cpp: create_srcml"]}
{"id": "C83", "title": "The options of the command", "statement": "What the command does is what its options ask for. Each option without a value turns on what it is for and nothing else; a value is that of the last option for it; --tabs also turns on positions, --to-dir and an --output that is a directory ask for files in a directory; the encoding is UTF-8 and a tab 8 columns unless asked otherwise; --xmlns gives the last uri for each prefix. The inputs are those that are named, in order, a stylesheet or schema among them being a transformation; without inputs it is the standard input, which is source code when a language is given and srcML when not. The output is that of the last option for it, else the standard output. The url is that of --url unless the only input is a directory. The steps (make srcML, show metadata, make source code, compress) follow from options, inputs and output in this order. The options are accepted exactly when each value can be, no two exclude each other, marks fit the queries, a text has a language or a filename, and the default namespace of srcML is not lost.", "quantifier": "every list of options and values of any length, every file system (which names are directories) and every set of known encodings", "why_tests_cant": "More than fifty options set bits in shared words and overwrite each other's values; tests run a few of the combinations, never all lists of options with all values.", "anchors": ["src/client/srcml_cli.cpp: parseCLI11", "src/client/srcml_cli.hpp: srcml_request_t", "src/client/srcml.cpp: main, request_create_srcml, request_display_metadata, request_create_src", "src/client/create_srcml.cpp: create_srcml", "src/client/srcml_display_metadata.cpp: srcml_display_metadata"]}
{"id": "C84", "title": "Inputs that are addresses: waiting for the download", "statement": "Opening an address returns, with success exactly when the document is there, whatever the order in which the downloading threads and the main thread run and however many addresses there are; what is read is then the document. When there is nothing at the address it is refused and nothing is read. No address's answer depends on another address.", "quantifier": "every list of addresses with every answer of the server (code, blocks of data, completion) and every interleaving of the threads, with any delays", "why_tests_cant": "The outcome depends on which thread is first to lock and signal; a test sees one order of a few microseconds, and needs a network.", "anchors": ["src/client/input_curl.cpp: input_curl, waitCurl, goCurl, our_curl_write_callback", "src/client/srcml_pipe.cpp: srcml_pipe"]}
{"id": "C85", "title": "A command line, the document it makes, and the source code back from it", "statement": "A user names files of this machine on the command line and asks for srcML of them and for nothing else (settings such as --language, --src-encoding, --url, --src-version, --tabs, --position, --hash, --archive, --register-ext are free). Then the options are accepted; the only step is to make srcML, followed by the compression that the name of the output asks for; the inputs are those files in that order; the output has the settings of the last of the options for each, and is one unit exactly for one file without --archive. The command writes no message and ends normally, and its output, whatever the pieces in which it arrives and however the threads of the reader interleave, is read as one unit for each file, from which the command gives exactly the text of the file back, all of them, one of them by its number, or into a directory. A second command line with the document, at most --unit, --src-encoding and an output, makes only source code of it.", "quantifier": "all command lines, all numbers of files, all contents, names and encodings of the files, all settings, all deliveries of the output and all interleavings of the reader", "why_tests_cant": "The space of command lines times contents times interleavings cannot be enumerated; tests fix a few of each.", "anchors": ["src/client/srcml_cli.cpp: parseCLI11", "src/client/srcml.cpp: main", "src/client/create_srcml.cpp: create_srcml", "src/client/create_src.cpp: create_src"]}
{"id": "C86", "title": "What the parser test says", "statement": "srcml --parser-test on archives of tests (each a name, url, language and units with the markup that is expected) writes: for each archive, in order, a heading with language and url and the numbers 1, 2, ... of all its tests, in lines that are broken at 75 columns, each number marked as passed or failed exactly by whether the new markup equals the expected one; then for each failing test, in order, where it is with the expected and the new markup; then one line for each archive with failing tests, naming exactly their numbers, the lines being in alphabetical order; then the number of failing tests and of all tests, of all archives and of each language, the languages in alphabetical order without doubles.", "quantifier": "all archives, all numbers of tests, all markup, all languages, with and without colours", "why_tests_cant": "The report is made from static variables that live through all archives (counts, the name of the file before, the last line of the summary), so what it says depends on the whole history of tests.", "anchors": ["src/client/ParserTest.cpp: ParserTest::entry, ParserTest::report", "src/client/srcml_write.cpp: srcml_write_request", "src/client/create_srcml.cpp: create_srcml"]}
{"id": "C87", "title": "Steps of the command that run at the same time", "statement": "The steps of a command are threads with a pipe between each and the next. If each step, whatever the pieces in which it gets its input, reads all of it, makes a certain text of it and closes its output, then all of them end, none waits for ever, and the destination gets exactly the text that the steps make one after the other: for every order in which the threads run, every cut of reads and writes, and every room in the pipes. In particular srcML that is written to a compressed file is the compressed form of exactly the text that create_srcml writes.", "quantifier": "all numbers of steps, all texts, all pieces in which they are written, read and moved, all sizes of the pipes, all interleavings of the threads", "why_tests_cant": "The operating system decides when a thread runs and how much a read gives; a pipe is filled only by long texts, so a test with short files never meets a full pipe.", "anchors": ["src/client/srcml_execute.cpp: srcml_execute", "src/client/compress_srcml.cpp: compress_srcml", "src/client/create_srcml.cpp: create_srcml", "src/client/create_src.cpp: create_src"]}
{"id": "C88", "title": "The text of a unit is taken from a buffer that moves", "statement": "The reader takes the markup of a unit directly from the input buffer of libxml2. However often and wherever libxml2 moves the buffer and drops text from its front, in whatever pieces it reads the document and whenever it calls the handler, the text that the handler puts together is what one would take from the document itself: what is taken follows without gap and without doubled characters, and what is not taken yet is seen exactly, as long as libxml2 keeps text until the handler has taken it.", "quantifier": "all documents, all sizes and moves of the buffer, all pieces in which it is filled, all sequences of callbacks", "why_tests_cant": "Where the buffer moves depends on its size, on the length of the document, on allocation and on the version of libxml2; a test document meets a few of these moves at a few places.", "anchors": ["src/libsrcml/sax2_srcsax_handler.cpp: update_ctx, start_document, start_element, end_element, characters_unit, comment, cdata_block, processing_instruction"]}
{"id": "C89", "title": "The markup of a source does not depend on the metadata", "statement": "The contents of a unit after parsing depend only on the text of the source, its language, and the settings of the markup (tab stop, user macros, the options position, cpp, line, cpp-text-else, cpp-markup-if0 and debug, and the prefixes of the five srcML namespaces). Two units that differ in anything else - file name, version, timestamp, hash, url, attributes, encoding, other options of their archives, other namespaces, the thread that parses them, and whether the source is given in memory or read in pieces from a file, FILE, descriptor or callback - have the same contents, character by character, when the same text is parsed into them.", "quantifier": "for all pairs of archives, units and threads, all sources in all encodings and pieces, and all token streams of the parser", "why_tests_cant": "A test compares the markup of one source under a few settings; that no metadata can influence it is a statement about pairs of runs over all sources.", "anchors": ["src/libsrcml/srcml_unit.cpp:srcml_unit_parse_internal", "src/libsrcml/srcml_unit.cpp:srcml_write_end_unit", "src/libsrcml/srcml_unit.cpp:srcml_unit_get_srcml_inner", "src/parser/srcMLOutput.cpp:outputToken", "src/parser/srcMLOutput.cpp:processToken", "src/libsrcml/srcml_translator.cpp:translate"]}
{"id": "C90", "title": "Which units the parser test tests and what it compares", "statement": "srcml --parser-test on a srcML archive tests the units of the archive in order: all of them, or with a language on the command line those before the first unit of another language; with --unit n only the n-th, if it has the language; if there is no such unit the command ends with a message. A tested unit passes exactly if its recorded contents equal, character by character, the contents that parsing its text now gives in any unit of any archive with the same language and the same settings of the markup.", "quantifier": "for all archives and all their units, all numbers and languages on the command line, all texts that can be handed over as UTF-8, all parsers, and all other units in which the text may be parsed", "why_tests_cant": "That unparsing to memory, cloning, and parsing again compares the same thing that a user would get from a parse of the source is a statement about all texts, all metadata and all parsers; the parser test is itself the test of the project and nothing tests it.", "anchors": ["src/client/srcml_input_srcml.cpp:srcml_input_srcml", "src/client/ParserTest.cpp:ParserTest::entry", "src/libsrcml/srcml_unit.cpp:srcml_unit_unparse_memory", "src/libsrcml/srcml_unit.cpp:srcml_unit_clone", "src/libsrcml/srcml_unit.cpp:srcml_unit_parse_memory"]}
{"id": "C91", "title": "Inputs that come through threads and pipes", "statement": "A srcML document as input that comes from an address, is compressed or in an archive, or both, gives the same output as the document itself in a plain file: threads that download and unpack it run at the same time as the steps of the command, and whatever the blocks of the download, the room in the pipes and the order in which the threads run, the destination gets the same text, the threads do not wait for each other for ever, and they end.", "quantifier": "for all packed formats, all documents, all blocks, all sizes of pipes, all schedules, with and without compression of the output, for all steps that read the document to its end", "why_tests_cant": "Tests see one schedule, and documents that fit into a pipe.", "anchors": ["src/client/srcml_pipe.cpp:srcml_pipe", "src/client/srcml_pipe.cpp:srcml_pipe_clean", "src/client/decompress_srcml.cpp:decompress_srcml", "src/client/unarchive_srcml.cpp:unarchive_srcml", "src/client/input_curl.cpp:input_curl", "src/client/create_srcml.cpp:srcml_handler_dispatch"]}
{"id": "C92", "title": "What extraction to a directory leaves on the disk", "statement": "Extracting an archive to a directory leaves, for every unit with a file name, a file at that place below the directory with the source text of the last unit with that place; the directories of these files are there, made when needed; and no other file or directory has changed. It does not matter which of the directories were there before, in which order the units come, and which neighbouring units have the same directory.", "quantifier": "for all archives, all output directories, all sets of file names that can be put there (no .., no file in the place of a directory), all earlier contents of the disk", "why_tests_cant": "Directories are made only when the path differs from that of the unit before, so whether a file can be opened depends on the sequence of all units before it and on the disk.", "anchors": ["src/client/src_output_filesystem.cpp:src_output_filesystem", "src/client/mkDir.cpp:mkDir::mkdir", "src/libsrcml/srcml_unit.cpp:srcml_unit_unparse_filename"]}
{"id": "C93", "title": "A tree of source files, through an archive and back onto the disk", "statement": "If the command line makes an archive of source files with different names and no other options change them, and that archive is later read and extracted to a directory that is empty or not there yet, then this directory has every one of the files at the same relative place with the same (decoded) text, and nothing else on the disk has changed.", "quantifier": "for all command lines that only ask for srcML, all numbers of files, all names (however deep, with or without ./ in front) that are files of one tree, all texts, all ways the document is cut into pieces when read, all directories without .., all earlier contents of the disk", "why_tests_cant": "It joins the parser of options, the threads and queues, the writer, the reader and the extraction, for every tree of files: a test has one tree.", "anchors": ["src/client/create_srcml.cpp:create_srcml", "src/client/src_output_filesystem.cpp:src_output_filesystem", "src/client/mkDir.cpp:mkDir::mkdir", "src/libsrcml/srcml_archive.cpp:srcml_archive_read_unit"]}
{"id": "C94", "title": "Archives that are read in the same process do not influence each other", "statement": "An archive that is read in a process gives the same units as if nothing else was read there, whatever other archives are read before, after and in between.", "quantifier": "for all numbers of documents, all documents, all ways they are delivered, all orders in which pieces of different documents are parsed, all choices of the user of what to read", "why_tests_cant": "The names unit, macro-list and escape are compared as pointers into the dictionary of libxml2 through three static variables that every document overwrites when it starts; a test that reads one archive at a time never sees a wrong pointer.", "anchors": ["src/libsrcml/sax2_srcsax_handler.cpp:UNIT_ENTRY", "src/libsrcml/sax2_srcsax_handler.cpp:start_document", "src/libsrcml/sax2_srcsax_handler.cpp:first_start_element", "src/libsrcml/sax2_srcsax_handler.cpp:end_element"]}
{"id": "C95", "title": "srcml --cat: all units in one unit", "statement": "`srcml --cat` writes one element with the contents of all units of its inputs: for every number of units the output is a start tag taken from the first unit, then the contents of the units, each exactly once, in order and ending with a newline, then the end tag; the output is a well-formed document.", "quantifier": "every sequence of units (at least one) whatever their contents, every setting of the output archive, every library that parses the first unit's clone", "why_tests_cant": "the start tag is obtained by cutting a fixed number of characters (51) from a document whose length depends on name, language and settings; tests use names for which the cut happens to be right", "anchors": ["src/client/srcml_write.cpp:179-203", "src/client/create_srcml.cpp:350-353", "src/libsrcml/srcml_archive.cpp:1244-1255"]}
{"id": "C96", "title": "The command does not wait for itself", "statement": "However many srcML inputs with however many units there are, the command reads and writes them all: the limit on open files, the queues and the pipe to the second step never make all threads wait for each other, in any schedule.", "quantifier": "every list of inputs with any numbers of units, every schedule, every capacity of the pipe, with and without a second step", "why_tests_cant": "needs more than 200 inputs and a particular interleaving of three threads", "anchors": ["src/client/OpenFileLimiter.hpp:34-51", "src/client/srcml_input_srcml.cpp:36-135", "src/client/WriteQueue.cpp:67-95", "src/client/create_src.cpp:37", "src/client/srcml_utilities.hpp:32-52"]}
