# Findings

Where a property is false of the code, a theorem of the model shows it. Generated by tools/findings.py from the comments of these theorems.


## C03

* `C03_finding_bom_latin1` (CharBuffer.lean): three bytes of the *decoded* text are skipped for a UTF-8 byte order mark even when the requested encoding is ISO-8859-1; the text then starts inside a character.
* `C03_finding_bom_only` (CharBuffer.lean): a file that consists of nothing but a UTF-8 byte order mark makes the first `getChar` read past the end of the converted text.
* `C03_finding_reported_before_detection` (CharBuffer.lean): for a source that is not in memory the encoding is only determined by the first `getChar`, after `srcml_unit_parse_internal` has copied it to the unit (srcml_unit.cpp:525): with no requested encoding the unit reports an empty encoding.
* `C03_finding_utf32le` (CharBuffer.lean): the byte order mark of UTF-32 little endian is taken for UTF-16.

## C04

* `C04_finding_block_lost` (CharBuffer.lean): when the end of a block cuts a multi-byte character, `iconv` fails for the block and the text ends *before that block*: its complete characters and everything after it are lost.
* `C04_finding_utf8_file` (CharBuffer.lean): for UTF-8 files: a file of ASCII letters with a two-byte character across byte 2048 (1024 is the block size). Of the file, whatever follows, only the first 1024 bytes are delivered: the 1023 letters before the character and everything after it are lost, and no error is reported.

## C05

* `C05_finding_empty` (CharBuffer.lean): for an empty source `getLOC` is 1, not 0.

## C11

* `C11_finding_nul` (Output.lean): C11 is false for a text with a NUL character: the search for markup stops there, and a `<` after it is written as it is.

## C12

* `C12_finding_extra_end` (Output.lean): C12 is false for a stream with one end token too many: it closes the unit itself, and the rest of the text is outside of the document element.
* `C12_finding_missing_end` (Output.lean): C12 is false for a stream that leaves an element open: ending the unit closes that element, and the unit stays open.

## C14

* `C14_finding_guess_exception` (Parser.lean): an exception that leaves a speculative parse done by hand leaves the parser speculating, and all that follows is dropped.
* `C14_finding_macro_exception` (Parser.lean): the rule for a macro call has no exception handler around it, unlike that for preprocessor lines. When it is left by an exception, the parser goes on writing to the buffers of the skipped line: here everything is passed, including the end of file, and the output buffer has none of it but the first name.

## C16

* `C16_finding_comment_macro` (Lexer.lean): a macro registered with the name `//` takes the place of the start of a comment, but not of its end: the parser then takes a comment off an empty stack, which is undefined.
* `C16_finding_raw_control` (Lexer.lean): a raw string of C++ can have a control character in its delimiter; then the character is in a token of text, and what is written is not XML.

## C17

* `C17_finding_openmp_prefix` (OutputTags.lean): C17 is false when another prefix is registered for the OpenMP namespace: the use in a unit is lost when the tables are merged, and neither the root nor the nested unit declares it, although the elements of the unit have that prefix.
* `C17_finding_prefix_twice` (OutputTags.lean): C17 is false when one prefix is registered for two namespaces: it is declared twice on the root, and the document cannot be read.

## C18

* `C18_finding_duplicate_name` (OutputTags.lean): C18 is false for a user attribute with the name of a standard one: the document cannot be read.
* `C18_finding_prefixed_attribute` (OutputTags.lean): C18 is false for a user attribute with a prefix: it is read without the prefix.
* `C18_finding_src_encoding` (OutputTags.lean): C18 is false for the stored encoding: the reader takes it for a user attribute, and when such a unit is written again with the same option, the start tag has the attribute twice and cannot be read.

## C20

* `C20_finding_cpp_declared` (Archive.lean): C20, a consequence: enabling the preprocessor option with set_options, unlike enable_option, forgets that it was requested (the mark that makes the namespace be declared).
* `C20_finding_set_options` (Archive.lean): C20 is false for set_options: whatever was chosen before and whatever options are passed, the archive is afterwards a solitary unit without hashes and no longer declares namespaces.

## C21

* `C21_finding_ambiguous_prefix` (ArchiveTables.lean): C21: "the first namespace for the given prefix", as documented, is not what is promised by the container: with two uris under one prefix both answers are possible.
* `C21_finding_prefix_bound` (ArchiveTables.lean): C21 is false at the position just after the table: the prefix accessor, unlike the uri accessor, reads beyond the end, for every archive.

## C22

* `C22_finding_position_wraps` (ArchiveTables.lean): C22 is false beyond 2^63: the doubled position wraps around and a position far outside the list gives the first macro.

## C23

* `C23_finding_shared_transformation` (ArchiveTables.lean): C23 is false for transformation parameters: they are added to an object that clone and original share, so a parameter given to the clone is also applied by the original.

## C24

* `C24_finding_second_close` (ArchiveIO.lean): a second close of an archive in memory replaces the text that the user got by an empty one.
* `C24_finding_second_write_lost` (ArchiveIO.lean): an archive that is opened for writing a second time accepts units with OK and loses all of them: the closed translator of the first time is used again.
* `C24_finding_unopenable_file` (ArchiveIO.lean): opening a file that cannot be opened answers OK, and so do the units that are then lost.
* `C24_finding_write_string_freed` (ArchiveIO.lean): after a close, `srcml_archive_write_string` uses the buffer that was freed; and writing a unit and a string to the same archive makes the close free the buffer twice.
* `C24_finding_write_string_unchecked` (ArchiveIO.lean): `srcml_archive_write_string` does not look at what the archive is open for: on an archive that is open for reading, or was never opened, it answers OK and writes nothing.

## C25

* `C25_finding_cdata_lines` (SrcSax.lean): a CDATA section of an element is part of both texts of the unit, but its lines are not counted: here there are three.
* `C25_finding_comment` (SrcSax.lean): the `>` of a start tag with a comment after it is lost.
* `C25_finding_cpp_stays` (SrcSax.lean): once a unit of an archive has declared the preprocessor namespace, all later units are marked as using it.
* `C25_finding_declared_twice` (SrcSax.lean): a unit that declares a namespace that the root declares too gets the declaration twice.
* `C25_finding_empty_archive` (SrcSax.lean): the text of an archive without units is an empty element, and the reader takes it for a unit: C25 says that there is none.
* `C25_finding_instruction` (SrcSax.lean): a processing instruction before a solitary unit: the text of the unit starts with the line end after it.
* `C25_finding_no_attributes` (SrcSax.lean): a unit of an archive without attributes gets the namespaces of the root behind its start tag.
* `C25_finding_null` (SrcSax.lean): a document whose default namespace is that of the preprocessor, and one with an `escape` element without an attribute, make the reader use a null pointer and an element that is not there.
* `C25_finding_raw_gt` (SrcSax.lean): a `>` at the start of a text, which XML allows and other tools write, makes the reader compute with a negative length.
* `C25_finding_solitary_loc` (SrcSax.lean): the lines of a solitary unit before its first element are not counted: here there are three.
* `C25_finding_text_between` (SrcSax.lean): text between the units of an archive, read before its callback, becomes part of the start tag of the next unit, in the middle of which the namespaces of the root are put.
* `C25_finding_unit_inside` (SrcSaxSolo.lean): an element of the contents that is called `unit`, in a document that is one unit: its end is taken for the end of the unit, and what follows is lost.
* `C25_finding_uri_not_escaped` (SrcSax.lean): the reader copies the URIs of the namespaces of the root without escaping them: a read unit is then not well-formed.

## C27

* `C27_finding_language_lost` (ArchiveText.lean): a unit whose elements were written one by one, in an archive that has the language, says `language="C++"` itself, but is written to an archive with `language=""`: only parsing records the language that was found.
* `C27_finding_second_solitary_unit` (ArchiveText.lean): C27 says that solitary mode writes at most one unit. A second `srcml_archive_write_unit` answers OK, and the document then has two root elements: it is not well-formed.
* `C27_finding_solitary_without_units` (ArchiveText.lean): closing a solitary archive without a unit gives a document that has no element at all.

## C28

* `C28_finding_spurious_wakeup` (Reader.lean): `cond.wait` is called without a condition, and the C++ standard allows it to return without a notification. If it does, the result is wrong: a skip passes nothing, and the next read gives the unit that was to be skipped.

## C29

* `C29_finding_no_unit` (Reader.lean): A well-formed document whose root is not a `unit`, such as `<a>x</a>`, leads to no callback and no error: whatever the scheduler does, the opening of the archive never returns.
* `C29_finding_open_race` (Reader.lean): A document with an error before its first unit (say, an empty file): `done()` sets the flag and notifies without the lock. If this happens between the test and the wait of the constructor, the opening of the archive never returns.
* `C29_finding_quiet_error` (Reader.lean): The errors for which `done()` is not called: with a document that breaks off inside of a unit and such an error, a read never returns.

## C30

* `C30_finding_nul` (UnitApi.lean): With a NUL in the text the reported size is that of the part before it.

## C31

* `C31_finding_only_declaration` (UnitParts.lean): C31 is false for a unit without any attribute: the end of the start tag is cut away with the declaration.
* `C31_finding_stale` (UnitParts.lean): C31 is false for a unit that is written again: the accessors keep returning the first contents.
* `C31_finding_url_first` (UnitParts.lean): C31 is false if the url follows the declaration directly: the outer form contains the rest of the unit twice.
* `C31_finding_url_text` (UnitParts.lean): C31 is false if another attribute contains the text ` url=`: the outer form is cut there.

## C32

* `C32_finding_empty_name` (UnitWriter.lean): C32 is false after a start of an element with an empty name: the call is refused, but it is counted, and ending the unit then ends one element too many.
* `C32_finding_escape` (UnitWriter.lean): An `escape` element without attribute cannot be ended: the code of its character is read through a null pointer.
* `C32_finding_extra_end` (UnitWriter.lean): C32 is false for one end of an element too many: it ends the unit, and ending the unit afterwards never returns.
* `C32_finding_refused_declaration` (UnitWriter.lean): A refused attribute with a uri leaves its declaration behind: it appears on the next element.
* `C32_finding_stale_text` (UnitWriter.lean): A unit that is written a second time keeps the text and the number of lines of the first time.
* `C32_finding_unit_attribute` (UnitWriter.lean): C32 is false for an attribute that is written right after the start of the unit: it is accepted, but the place where the contents begin was taken before it, and the attribute ends up in the text.

## C33

* `C33_finding_not_a_program` (ApiArgs.lean): C33 is false for documents: one that can be read and is not a program (or schema) does not give a status but terminates the process.
* `C33_finding_null` (ApiArgs.lean): C33 is false for these: freeing a missing archive or result, and asking anything of a missing result, uses the null pointer.
* `C33_finding_processing_instruction` (ArchiveTables.lean): C33 is false for the processing instruction: a missing target or data is not refused but dereferenced; so are a missing archive in the two queries and others listed in DESIGN.md.

## C34

* `C34_finding_trailing_text` (SrcDiff.lean): Text after the last tag is lost: the inner srcML of a unit with a selected revision, and what is written for it, end with the last tag of the contents.
* `C34_finding_unbalanced` (SrcDiff.lean): An empty element of the markup is taken for the start of a region that never ends, and one end too many is undefined.

## C36

* `C36_finding_empty_attribute` (Transform.lean): A result that is an attribute with an empty value is a null dereference.
* `C36_finding_no_match` (Transform.lean): One intermediate result without a match ends the transformation: results of the later ones are lost (node 2 has no match, node 3 has one), and if it is the last one, those of the earlier ones are lost too. In the middle of the transformations those of the earlier ones are kept, so the outcome depends on the position of the node without match.
* `C36_finding_null_result` (Transform.lean): Without a place for the result, a value or an empty result is a null dereference.

## C37

* `C37_finding_quote` (Transform.lean): A string parameter with a quote in its value is not a string of the parameter language any more: nothing is escaped.

## C38

* `C38_finding_bounds` (Transform.lean): A negative index is out of bounds, and a missing result is dereferenced.

## C39

* `C39_finding_no_threads` (Queues.lean): Without a parsing thread (`--jobs=0`) the tasks are dropped: the command ends normally and nothing is written.

## C40

* `C40_finding_no_threads` (Queues.lean): Without a parsing thread, and with a failed request after one that is dropped, the command hangs: the writing thread waits for the dropped request, and no step is possible.

## C41

* `C41_finding_one_more` (Client.lean): The limit is exceeded by one: `>` instead of `>=` lets the 201st input be opened.

## C42

* `C42_finding_web_like` (InputName.lean): A local file whose name contains `http:` and `https:` is not taken for a file: it has no protocol at all.

## C43

* `C43_finding_empty` (InputName.lean): A name with an empty resource (the empty name, a bare protocol, or only a query string) reads the last character of an empty string.
* `C43_finding_tbz` (InputName.lean): `.tbz` is listed as a compressed archive, but not among the compressions: such an output is not compressed.

## C44

* `C44_finding_backslash` (InputText.lean): An escaped backslash stands for two backslashes.
* `C44_finding_dangling` (InputText.lean): A backslash at the end of the text: the loop reads past the end of the string.
* `C44_finding_octal_nul` (InputText.lean): Octal 400 is not zero, so it does not separate units, but it is stored as a byte NUL.
* `C44_finding_protocol` (InputText.lean): A text that contains `://` loses everything up to it: the resource is split a second time.

## C45

* `C45_finding_last_character` (FileList.lean): A last line of one character without a newline is ignored.
* `C45_finding_nul` (FileList.lean): A line that begins with a character NUL is skipped.

## C47

* `C47_finding_file_first_only` (UnitSelect.lean): C47 is false for an output file: without a selection only the first unit is written to it, and this is not reported.
* `C47_finding_many_inputs` (UnitSelect.lean): With several inputs the selection is dropped: every unit of each input is handed on.
* `C47_finding_negative` (UnitSelect.lean): C47 is false for a negative number: the first unit is output, and this is not reported.
* `C47_finding_no_units` (UnitSelect.lean): Without a selection, an archive without units is an error for an output in srcML, and reported as a unit out of range; for the standard output it is not.

## C49

* `C49_finding_count` (Pretty.lean): The footer counts one unit in an archive without units.
* `C49_finding_encoding` (Pretty.lean): The field `%s` (source encoding of the unit) takes the value of the next field.
* `C49_finding_header_namespaces` (Pretty.lean): The namespace field of a header prints `???` and takes one value, but stands for all of them.
* `C49_finding_last_percent` (Pretty.lean): A percent sign at the end of a section moves past the end of the text.
* `C49_finding_no_brace` (Pretty.lean): Without a closing brace the code reads the character at `npos - 1`: out of bounds.
* `C49_finding_percent` (Pretty.lean): A doubled percent sign in front of text is an error: nothing is printed.
* `C49_finding_percent_field` (Pretty.lean): A doubled percent sign in front of the letter of a field: the letter is taken as a field, and `s` is printed for it (`%%f` prints `%s`).
* `C49_finding_selected_unit` (Pretty.lean): With a selected unit (and no `--xml`) no unit is printed.

## C50

* `C50_finding_empty` (Cli.lean): An empty argument reads the last character of an empty string.
* `C50_finding_last_equals` (Cli.lean): Any argument that ends in an equals sign is cut in two, also a value or the name of a file: the equals sign is lost and there is one empty argument more.

## C51

* `C51_finding_behind_comment` (Lexer.lean): behind a comment a `#` counts as the start of a directive, also in the middle of a line.
* `C51_finding_stack_grows` (CppZero.lean): with usual options a `cppmodeitem` stays on the stack for each `#if` until the parser is deleted: it is pushed without the option for `#else` and removed only with it. src/parser/srcMLParser.g:9495, 9540.
* `C51_finding_starts_with_zero` (CppZero.lean): a condition that only starts with 0 counts as 0: the text behind `#if 0 || X` is left without markup. src/parser/srcMLParser.g:9605.

## C52

* `C52_finding_adjacent_strings` (CommentText.lean): all quotes that follow on the end of a string directly are taken into it, so of two strings without a space between them the second one loses its first quote: its text is read as code, and its last quote starts a string. src/parser/CommentTextLexer.g:172-183.
* `C52_finding_bang` (CommentText.lean): in C, C++ and C#, `/*!/` is a comment of its own: the comment is closed at a `/` that no `*` is before. The text of the comment that follows is taken for code. src/parser/TextLexer.g:157-161.
* `C52_finding_continued_line` (CommentText.lean): on a preprocessor line a string ends at the end of the line also when the line goes on: `"a\` newline `b"` in a definition. The lexer ends the string before the newline that the backslash continues. src/parser/CommentTextLexer.g:160, 241-248.
* `C52_finding_objective_c` (CommentText.lean): in Objective-C `@"..."` is a usual string with escapes, but the lexer reads it like a verbatim string of C#: `@"a\" b"` ends at the escaped quote. src/parser/OperatorLexer.g:169-173.
* `C52_finding_quote_at_end` (Lexer.lean): a quote that is the last character of a preprocessor line takes the end of the line into the literal: there is no token for the end of the line, so the directive goes on with the next line.
* `C52_finding_verbatim` (CommentText.lean): in a verbatim string two quotes behind a backslash end it at the first of them. The C# string `@"a\""b"` ends behind the backslash and one quote; the second quote starts another string. src/parser/CommentTextLexer.g:174-176.

## C53

* `C53_finding_split_mask` (ModeStack.lean): with a mask of two modes the nearest level that has both need not exist although both are visible, one from each of two levels. `endDownToMode` then ends every mode but the last.

## C54

* `C54_finding_guess` (ParserPosition.lean): a speculative parse moves the place too, and it is not put back: the same name, ended after a speculative look at the next token, ends at column 5.
* `C54_finding_preprocessor` (ParserPosition.lean): a preprocessor line after a token moves the place to that line: the name before it, ended after it was consumed, is given an end on line 2.

## C55

* `C55_finding_thread_settings` (OutputTags.lean): C55 is false: the settings of the first output of a thread decide for all later ones. With the position option on, the elements have no positions if the thread wrote without it before, and positions without the prefix registered now if it wrote with another prefix before.

## C57

* `C57_finding_dot` (UnitSelect.lean): C57 is false for the directory `.`: the files are written below the root of the file system.
* `C57_finding_leaves_directory` (UnitSelect.lean): A file name of a unit can lead out of the directory.

## C58

* `C58_finding_no_language` (UnitSelect.lean): A unit without a file name and without a language: a null pointer is made a string.
* `C58_finding_nul` (UnitSelect.lean): The text of an entry ends before the first NUL.
* `C58_finding_same_name` (UnitSelect.lean): The numbers start again with each input: the first units of two inputs, both without file name and with the same language, get entries of the same name.

## C59

* `C59_finding_percent_in_argument` (UnitSelect.lean): A `%` in an argument that is not the last one is taken for the place of the next argument.
* `C59_finding_percent_last` (UnitSelect.lean): A format that ends with a `%` before the place of an argument was found: the text behind its end is read.
* `C59_finding_percent_percent` (UnitSelect.lean): with more arguments, a `%%` is undone once more for each further argument; and without an argument it is not undone.

## C60

* `C60_finding_depth` (CppElse.lean): the depth matters: in the `#else` of an `#if 0`, which gets markup, the `#else` of another `#if 0` that is at a smaller depth is left out, though it is the part with the markup. src/parser/srcMLParser.g:9520-9523.
* `C60_finding_nested_else` (CppElse.lean): an `#else` inside of an `#else` that is left out ends that at the inner `#endif`: the count starts again with 1 there. In `#if A`, `#else`, `#if B`, `#else`, `#endif` the text that follows is in the `#else` of A and is marked up. src/parser/srcMLParser.g:9508-9511.
* `C60_finding_nested_zero` (CppElse.lean): so does an `#if 0` inside of it. src/parser/srcMLParser.g:9481-9489, 9536-9538.

## C61

* `C61_finding_delete` (Lexer.lean): a DEL outside of comments and literals is no token: the lexer throws, and the rest of the source is lost.

## C62

* `C62_finding_arrow` (Lexer.lean): in C#, whether `=>` is one token depends on the lines before: the place of the last operator is kept over the end of a line. The two sources have the same last line.
* `C62_finding_macro_keyword` (Lexer.lean): a macro registered with the name of a keyword has no effect: the word keeps the token of the keyword.

## C64

* `C64_finding_mixed` (ArchiveIO.lean): texts and units cannot be written to the same archive in any order: at the latest the close frees the buffer twice.

## C65

* `C65_finding_line_comment` (Lexemes.lean): A line comment without a text takes the newline behind it.
* `C65_finding_numbers` (Lexemes.lean): Not every text is one of parts like these: `>>==` is one operator, the exponent `E` is no exponent, a separator in a number starts a character, two points in a number belong to it.

## C66

* `C66_finding_comment` (Lexemes.lean): Behind a comment in the middle of a line a `#` starts a directive, and so it does behind a division at the start of a line; but not behind `/**/` or a line that goes on.
* `C66_finding_literal` (Lexemes.lean): In the line of a directive a string ends at the end of the line; behind a comment in that line it does not, and neither in the next line of a directive that goes on.

## C67

* `C67_finding_attribute_twice` (XPathApply.lean): an element that has the attribute already gets it a second time (when the value is not the URI of the namespace), which is no XML.
* `C67_finding_attribute_without_namespace` (XPathApply.lean): an attribute that is added to the transformation before it (the same query, with an element) is written without its namespace.
* `C67_finding_unit_and_child` (XPathApply.lean): when the unit and its first child are both results, the unit loses all its other children, and the element that was put in it: the first child still names the unit as its parent, and the pointer of the unit to its first node is not the one that is looked for.

## C68

* `C68_finding_comments` (XPathApply.lean): a document with two comments (or processing instructions) in front of its unit is not a result of units: a null pointer is made a string.
* `C68_finding_text_escaped` (XPathApply.lean): a text is not given as it is.
* `C68_finding_units_lost` (XPathApply.lean): the units after the first one are lost when something else, such as a line end or a comment, is between the first and the second of them.

## C69

* `C69_finding_dot_directory` (Inputs.lean): A directory whose last part starts with a dot gives nothing, though it was asked for by name: `..`, `../..`, a hidden directory, or `.` in one.
* `C69_finding_question_mark` (Inputs.lean): A question mark ends the name: the file of that name is not looked at, but another one, if it exists.
* `C69_finding_register` (Inputs.lean): Extensions registered for the command are not known for the files of directories.

## C70

* `C70_finding_cut_name` (Inputs.lean): Extensions of compressions are counted from the end of the name even if an extension of an archive is there.
* `C70_finding_damaged` (Inputs.lean): A damaged archive is not told from a complete one, as soon as it has a file: no message, and the requests for what comes before the damage.
* `C70_finding_language_of_archive` (Inputs.lean): An entry that is not source takes its language from the name of the archive.
* `C70_finding_no_files` (Inputs.lean): An archive without any file gives a request for an empty file all the same, if its name without the extensions is one of source.
* `C70_finding_time_of_empty` (Inputs.lean): The time of an empty input is taken from an entry that was never read.
* `C70_finding_underscore` (Inputs.lean): A local file called `_`, without a name and a language asked for: a name that is not there is looked into.

## C71

* `C71_finding_dots_only` (Consume.lean): a name that is empty or consists of `./` only is dereferenced behind its end.
* `C71_finding_empty_string` (Consume.lean): for a result that is the empty string, the character in front of the string is looked at.
* `C71_finding_invalid_argument` (Consume.lean): when the library says that an argument of the parse function is invalid, the program ends with an empty message.
* `C71_finding_large_number` (Consume.lean): a number that no `int` can hold (for example infinity, the result of `1 div 0`) is converted to one.
* `C71_finding_no_result` (Consume.lean): a transformation without a result for a unit (also one that failed: its status is not looked at) makes the unit vanish without a message, and one line is taken off the sum of lines: at the start this is the largest number.
* `C71_finding_noarchive_no_name` (Consume.lean): text without a name (from the standard input) that is written to a file of its own: the name is read although there is none.

## C72

* `C72_finding_no_equals` (Create.lean): A language alone, without an equals sign, is accepted as an extension: `--register-ext C` makes `.C` the language C, which was C++ before.
* `C72_finding_not_closed` (Create.lean): One file that cannot be read: the archive is not closed, but freed after the descriptor was closed. On the standard output all that libxml2 had not yet written is lost, also the units of the other files; in a file the end is not the same as that of an archive that was closed (no newlines before the last end tag).
* `C72_finding_nothing` (Create.lean): Nothing is written for a single file that cannot be read: not even an empty document.
* `C72_finding_param` (Create.lean): Without an equals sign a parameter has its own name as the value.
* `C72_finding_text` (Create.lean): A text without a language and without a name: the name that is not there is used.
* `C72_finding_url` (Create.lean): The url of a source archive with an absolute path is not absolute; and the name of a hidden file loses its dot.

## C73

* `C73_finding_no_language` (ParseCalls.lean): a unit whose language was found by the extension of the file has no language in its own srcML, and `srcml_unit_get_language` gives none either, although it is written to an archive with its language (C27).
* `C73_finding_second_parse` (ParseCalls.lean): a unit that has been parsed and is parsed again, from another source, keeps the text and the hash of the first: its srcML is that of the second source.

## C75

* `C75_finding_bare_name` (Convenience.lean): for a file with the name `srcml` the function reads outside of the name.
* `C75_finding_eol` (Convenience.lean): `srcml_set_eol` has no effect on the source code that `srcml` writes.
* `C75_finding_language_refused` (Convenience.lean): a language that was set with `srcml_set_language` does not help for a file whose extension is not known.
* `C75_finding_missing_input` (Convenience.lean): when the input does not exist, the output is overwritten all the same, with an XML declaration and nothing else.
* `C75_finding_unwritable` (Convenience.lean): when the output of a translation to srcML cannot be opened, the function returns OK.
* `C75_finding_xml_language` (Convenience.lean): the language `xml` makes `srcml` take files without an extension for srcML, but source code that is parsed while it is set is written with the language `xml`, although it was parsed as C.

## C76

* `C76_finding_instruction` (ArchiveSettings.lean): a processing instruction with a null target or data is not refused.

## C78

* `C78_finding_cpp_prefix` (ReadRoot.lean): C78 is false for a registered prefix of the cpp namespace: the root does not declare it.
* `C78_finding_empty_macro` (ReadRoot.lean): C78 is false for a macro whose type is empty: it is in the document, and is lost.
* `C78_finding_instruction` (ReadRoot.lean): C78 is false for the processing instruction, which is in the document: the reader ignores it.
* `C78_finding_language` (ReadRoot.lean): C78 is false for the language of the archive: it is not written.
* `C78_finding_large_tabstop` (ReadRoot.lean): C78 is false for a tab stop that is no `int`: the reader converts it with `atoi`, whose result is undefined.
* `C78_finding_old_uri` (ReadRoot.lean): C78 is false for a namespace of the old project: the uri is another one after reading.
* `C78_finding_src_encoding` (ReadRoot.lean): C78 is false for the stored source encoding: after reading it is an attribute.
* `C78_finding_tabstop` (ReadRoot.lean): C78 is false for the tab stop if no positions are written.

## C79

* `C79_finding_cpp_prefix` (CopyUnits.lean): the prefix of the cpp namespace is another one than usual. The copy declares the usual prefix, and the prefix in the contents is not declared.
* `C79_finding_encoding_twice` (CopyUnits.lean): the source encoding is stored, and the unit is copied: it has the attribute twice, and the document is not well-formed.
* `C79_finding_openmp` (CopyUnits.lean): a unit with elements of OpenMP is copied: the namespace is not declared any more.
* `C79_finding_other_prefix` (CopyUnits.lean): a unit is copied to an archive with another prefix of the srcML namespace, and without positions: the unit keeps the prefixes, which nothing declares.

## C80

* `C80_finding_late_namespace` (SrcmlInput.lean): the output of two srcML inputs depends on the threads. If the first unit is written before the second input is opened, the prefixes of the second input are not declared: the document is not well-formed with regard to namespaces.
* `C80_finding_two_prefixes` (SrcmlInput.lean): and if both inputs are opened first, the unit of the first input loses its namespace, because the second input has another prefix for it.

## C81

* `C81_finding_combined` (Metadata.lean): C81, finding: `--show-unit-count` together with an option that shows values shows 0, as the units have been read by then (src/client/srcml_display_metadata.cpp:237-242).
* `C81_finding_empty_count` (Metadata.lean): C81, finding: `--full-info` of an archive without units shows `units="1"` (src/client/srcml_display_metadata.cpp:112-121).
* `C81_finding_info_longinfo` (Metadata.lean): C81, finding: `--info` together with `--full-info` counts one unit less, or one unit for none (src/client/srcml_display_metadata.cpp:244-250).
* `C81_finding_no_language` (Metadata.lean): C81, finding: a unit without a language is listed and counted by `--list` and `--full-info` but not by `--show-unit-count` (src/client/srcml_display_metadata.cpp:133).
* `C81_finding_pretty_first_input` (Metadata.lean): C81, finding: with `--pretty` only the first of several inputs is shown, whatever the others are (src/client/srcml_display_metadata.cpp:171-174).
* `C81_finding_unset` (Metadata.lean): C81, finding: for a unit without a filename `--show-filename` alone shows no line, so the lines cannot be matched with the units, while together with another option it is shown as empty (src/client/srcml_pretty.cpp:236-301).

## C82

* `C82_finding_colon_in_value` (QueryArgs.lean): C82, finding: a colon in the value of an attribute without a prefix is taken for the end of a prefix: with `--element p:e`, `--attribute n="a:b"` asks for an attribute `b"` with the prefix `n="a` (src/client/srcml_cli.cpp:493-505).
* `C82_finding_param_first` (QueryArgs.lean): C82, finding: a parameter before every stylesheet is dropped without a message (src/client/create_srcml.cpp:294).
* `C82_finding_same_query` (QueryArgs.lean): C82, finding: a query that is given twice, the second time with an attribute, is one transformation and not two: the attribute is set on the results of the first, and they are not selected (src/libsrcml/srcml_transform.cpp:126-150).

## C83

* `C83_finding_cpp_prefix` (CliOptions.lean): C83, finding: the check for the prefixes of the namespaces of srcML is only made for the default one, so the prefix `cpp` can be given to another namespace (src/client/srcml_cli.cpp:662-682).
* `C83_finding_directory_url` (CliOptions.lean): C83, finding: with a single directory as the input, the value of `--url` is lost: the url is the name of the directory (src/client/srcml_cli.cpp:654-660).
* `C83_finding_empty_text` (CliOptions.lean): C83, finding: a text that is empty is not a defined case (src/client/srcml_cli.cpp:198-216, src/client/srcml_input_src.cpp:78).
* `C83_finding_text_dash` (CliOptions.lean): C83, finding: a text with a minus at the start is refused, though it is an expression (src/client/srcml_cli.cpp:204-209).
* `C83_finding_unit_several` (CliOptions.lean): C83, finding: `--unit` is passed over when there are several inputs (src/client/srcml.cpp:81-83).

## C84

* `C84_finding_ftp` (Curl.lean): C84, finding: a document that comes with another code than 200, such as the 226 of an FTP server, is refused and nothing of it is read (src/client/input_curl.cpp:92-93).
* `C84_finding_hangs` (Curl.lean): C84, finding: whatever the address, the download may be finished before the main thread waits: then it waits for ever (src/client/input_curl.cpp:46-50: there is no test before `cv.wait`).
* `C84_finding_other_download` (Curl.lean): C84, finding: while a download is still running, its report may be taken for that of the next address, and an address with nothing is accepted (src/client/input_curl.cpp:42-56: one flag for all).
* `C84_finding_refused` (Curl.lean): C84, finding: and an address whose document is there may be refused because an earlier download was cut off.
* `C84_finding_spurious` (Curl.lean): C84, finding: a wake-up without a notification, which the standard allows, refuses an address whose document is there.

## C86

* `C86_finding_empty` (ParserTest.lean): **C86.** Neither has a failing test whose expected markup is empty: the last character of the empty text is asked for.
* `C86_finding_long` (ParserTest.lean): **C86.** A failing test with more than five ends of line has no defined behaviour: the iterators into the two texts are used after the texts were changed.
* `C86_finding_mixed` (ParserTest.lean): **C86.** All units of a file are counted for the language of its first unit.
* `C86_finding_untested` (ParserTest.lean): **C86.** The first unit of a file is not tested when it has no language: it is in no count, and nothing is said of it.
* `C86_finding_url` (ParserTest.lean): **C86.** An archive without url is shown with the url of the archive before.
* `C86_finding_wrong_language` (ParserTest.lean): **C86.** And the units after it are counted for the language of the file before, without a heading of their own.

## C87

* `C87_finding_error` (Pipes.lean): **C87.** An error of libarchive is not seen: the command ends as if all was well, and the destination has nothing of the text.
* `C87_finding_source` (Pipes.lean): **C87.** Source code or metadata that is to be compressed: the command never ends, whatever the text and the order in which the threads run. The step that makes the source code does not close the pipe, and so the one that compresses it waits for ever for its end.
* `C87_finding_zero` (Pipes.lean): **C87.** Nor does it end when libarchive writes nothing of a piece of the text: the step that compresses ends without reading the rest and without closing the pipe, and `create_srcml` waits for ever for room in it if the text is longer.

## C88

* `C88_finding_dropped` (MovingBuffer.lean): **C88.** Text that libxml2 drops before the handler has taken it is read in front of the buffer: this is not defined.

## C90

* `C90_finding_language` (ParserTestUnits.lean): Units after the first one of another language are not tested, though they are of the language that was asked for, and nothing is said about it.

## C91

* `C91_finding_rest` (InputPipes.lean): **C91**, something behind the packed document, from an address: libarchive does not read it. If it has no room in the pipe the download waits for ever, and the command, that waits for the threads, with it. Without the step that reads the document, for which nothing is left to do.
* `C91_finding_unit` (InputPipes.lean): **C91**, one unit of a packed document (`--unit`). As soon as the unit was found nothing more is read. If the rest of the document has no room in the pipe, the thread that unpacks it waits to write it: the command does not end, and the thread is left writing to a pipe that nobody reads. If libxml2 closes what it has read from, as most of its versions do, this ends the process by a signal (SIGPIPE), before the output is complete.

## C92

* `C92_finding_conflict` (ExtractDisk.lean): A unit with the name of the directory of another one, that was written before: no directory can be made there, and the file of the other one cannot be opened. That is not looked at.
* `C92_finding_same_place` (ExtractDisk.lean): Units whose names lead to the same file, in different spellings: the last one stays, nothing is said about the others.

## C94

* `C94_finding_command` (SharedPipeline.lean): The command with a query or a transformation and `--output-src`: srcML is made of the inputs, in one step, and source code of this srcML in a later one. The two steps run at the same time (C87), and for inputs that are srcML both read a document in the same process: what C94_finding_lost is about.
* `C94_finding_lost` (SharedNames.lean): Another document is started before this one has come to its end: no unit of this one is ever handed out any more (what a call of the user gives is a unit that had come to its end before), and its end is not seen, whatever comes.
* `C94_finding_two_archives` (SharedNames.lean): Two archives of two units. The second one is opened after the first unit of the first one was read: the first archive has no second unit. One after the other, both have two.

## C95

* `C95_finding_attributes_lost` (CatXml.lean): With a name of four characters the cut is between two attributes: the output is a document. Its start tag has no attributes left but the namespaces: the language and the name are lost.
* `C95_finding_cut` (CatXml.lean): With a name of another length the cut is inside an attribute, and the output is not a document: `<unit … rev>` for `main.cpp`.
* `C95_finding_no_units` (CatXml.lean): C95: without any unit the output is the end tag alone.
* `C95_finding_prefix` (CatXml.lean): With a prefix for the srcML namespace the start tag has it and the end tag has not: the output is not a document, also when the cut is between two attributes.

## C96

* `C96_finding_stuck` (OpenInputs.lean): With more than 200 srcML inputs and a second step (a query with `--output-src`, for example) there is a schedule after which no thread can go on, whatever the pipe holds: the main thread and the queue hold 201 archives, the writer waits for room in the pipe, and the second step, which would make room, waits until one of them is closed.
