# Design

Formal model of srcML (libsrcml, its parser runtime and the srcml client) in Lean 4.

## Layout

* `lean/Verif/Model/*.lean` - the model, function by function; every definition cites the file and lines of /repo it models and says what is simplified.
* `lean/Verif/Spec/*.lean` - small specifications that do not use the model.
* `lean/Verif/Proofs/*.lean` - helper lemmas.
* `lean/Verif/Props/*.lean` - the property theorems, each followed by a non-vacuity example. Theorem names start with the property id.
* `MANIFEST.json` maps properties to theorems, `seeded/LOG.jsonl` logs the mutation tests.

## Trusted base

* Lean 4.33.0's kernel; axioms at most `propext`, `Classical.choice`, `Quot.sound` (checked by `#print axioms`). No axiom is added, and nothing rests on compiled evaluation.
* The reading of the C++ source as Lean definitions. The C++ is not executed; each definition cites the lines it models and says what it leaves out. Undefined behaviour that the model can see (null pointers, positions out of bounds, popping an empty stack, use after free) is the outcome `Run.ub`; integer overflow is modelled only where a definition says so.
* Text is a list of characters (`Str`), bytes are `UInt8` (Model/CharBuffer). Allocation failures are not modelled.

### External code, and what is assumed of it

* **libxml2, writing** (Model/XmlWriter): the text writer is an element stack with a buffer; `writeAttribute` escapes `<`, `>`, `&`, `"`, tab, newline, carriage return. Null contents of attributes and write errors are not modelled. The output encoding is libxml2's and not modelled.
* **libxml2, reading** (Spec/SrcSax `Delivers`, Spec/Xml `readXml`): the SAX2 callbacks come in the order of the document; text may come in any pieces; at each callback the input pointer is just behind the construct. Moves of libxml2's input buffer (`update_ctx`) are modelled apart from the callbacks (C88): the text that a callback finds is the one that `pend` stands for, if libxml2 keeps it in its buffer until the callback. `readXml` is a reader of the XML subset that the library writes; it rejects a raw `>` in text, as the library never writes one.
* **XPath, XSLT, RelaxNG** (Model/Transform): arbitrary functions from documents to results.
* **iconv** (Model/CharBuffer): an interface with the results per block; theorems that need more say `Iconv.WellBehaved` or name a decoder. **SHA-1**: an arbitrary function of the byte list.
* **ANTLR** (Model/Parser): token buffer with mark and rewind, guessing, exceptions. The grammar `srcMLParser.g` (9800 lines of rules) is not modelled rule by rule: it is an arbitrary program of the stream operations that its actions use (`Exec`, `Act`), and theorems quantify over all such programs. Side conditions that were read off the grammar: `Act.Regular` (which operations its rules perform in which mode), `LexerTokens`/`LexerTypes` (what the lexer delivers), `CommentsClosed`, `InCode`.
* **std::thread, mutex, condition_variable** (Model/Reader, Queues, Client): interleavings of atomic steps between synchronisation points. Unprotected flags are read and written atomically, in program order (the C++ standard calls these data races). Spurious wake-ups are allowed in Queues and Client; in Reader they break the property and are excluded (`C28_finding_spurious_wakeup`). The thread pool ctpl is a FIFO of tasks with a fixed number of threads.
* **libarchive, curl, the file system, CLI11** are not modelled; where the client depends on them the model takes their answer as an argument.

### What is modelled

* libsrcml: srcml_archive.cpp (settings, tables, opening, reading, writing, closing), srcml_unit.cpp (settings, parts of a unit, element-wise writing, parse and unparse), srcml_translator.cpp, srcml_sax2_reader.cpp, srcml_reader_handler.hpp, sax2_srcsax_handler.cpp, srcml_transformation results and parameters, apply_transforms, extract_revision, language registry, namespaces.
* parser: UTF8CharBuffer, StreamMLParser, ModeStack/State, srcMLOutput (elements, attributes, namespaces, escapes, positions), the comment text scanner and the `#if 0` machine of the grammar.
* client: input names, protocols and extensions, `--text`, file lists, argument clean-up, processing steps, open file limit, parse queue and write queue, exit status, formatted metadata, unit selection, extraction.
* Not modelled: the grammar rules themselves, the generated code of ANTLR (the choice between rules of the lexer is read off the rules), srcml_consume's directory walk, curl input, compression, Windows variants, libsrcml's C# and other language bindings.

## Plan per property

* **C01 Newline normalisation of source input** - Model getChar/readChars as a state machine (position, lastcr, remaining blocks); induction over the blocks, refinement to a list function `normalizeNewlines`.
* **C02 Hash covers exactly the source bytes** - Model the read loop with the carried-over byte count; invariant: digested bytes = concatenation of the reads. SHA-1 itself is an abstract function of the byte list (its compression function is not modelled); hex rendering modelled.
* **C03 Encoding detection and byte order marks** - Model constructors + first-block detection on bytes; case proof against a decision table. Negative witness for the ISO-8859-1 + BOM case.
* **C04 No source text is lost while decoding** - Model the decode loop with an iconv interface (result status per block) instantiated with real UTF-8 and Latin-1 decoders; prove for single-byte encodings, negative witness for UTF-8 characters cut by a block boundary.
* **C05 Line count of a unit** - Model three counters, prove all equal to the spec count (or exhibit where they differ).
* **C06 Extension registration: last registration wins** - Registry as a list; induction over registration history.
* **C07 Invalid registrations are refused without effect** - Same model; unchanged-state theorem.
* **C08 Extension of a filename** - Direct model of the string code against a spec by decomposition (name = stem ++ '.' ++ ext).
* **C09 Language of a parse** - Decision function; case proof for all strings.
* **C10 Language names** - Tables; proof for all strings by case analysis on the table.
* **C11 Escaped text reads back unchanged** - processText as list function; XML character-data decoder as independent spec; induction.
* **C12 Output of a unit is well formed** - Writer model = libxml2 text writer as an element stack + event list (assumption); induction over token streams.
* **C13 Control characters survive the XML round trip** - printf/strtol models; proof for all 29 control values by kernel evaluation over the finite type plus round trip inside text by induction.
* **C14 The parser keeps every source token exactly once and in order** - StreamMLParser buffers as a transition system; the grammar is an arbitrary well-bracketed program of stream operations (inductive type of traces); invariant by induction over traces.
* **C15 Element stack discipline** - Mode stack and element stack model; invariant by induction over operations.
* **C16 Source to srcML to source round trip** - Composition of C01, C11-C14 and the reader's text assembly.
* **C17 Namespace declarations on output** - Namespace table + outputNamespaces model; induction over tables.
* **C18 Unit attributes survive writing and reading** - startUnit attribute list and unit_update_attributes; round trip by induction over attribute lists.
* **C19 Option bits** - Options as natural-number bit sets (Nat.testBit).
* **C20 Internal settings survive public option changes** - Same model; true for enable/disable, refuted for set_options (negative theorem).
* **C21 Namespace registration and lookup** - Table with find/update; invariant over histories; index functions with explicit undefined-behaviour outcome.
* **C22 Macro list** - Flat pair vector model; invariant over histories.
* **C23 Clone of an archive** - Record model of archive and unit; field-wise theorem plus independence.
* **C24 I/O mode is enforced** - Archive state machine with explicit status codes and output trace; invariants over call histories.
* **C25 Archive round trip** - The calls on an archive give a text (Model/ArchiveIO), the SAX layer takes any delivery of that text (Model/SrcSax), the two threads hand the units over (Model/Reader); round trip by induction on the unit list. For a document that is one unit, the handler is compared, piece by piece, with one that had started the unit with the root.
* **C26 Mixing reads and skips** - Reader as a cursor refinement of the thread protocol; induction over operations.
* **C27 Solitary unit output** - Translator model; output-shape theorem by induction.
* **C28 Reader thread hand-over delivers every unit once** - Two-thread transition system with mutex/condition variable; safety invariant over all interleavings.
* **C29 Reader never hangs** - Same system; deadlock characterisation; negative witness for the lost wake-up.
* **C30 Line endings of unparsed source** - List function, induction; status of invalid arguments.
* **C31 Inner and outer srcML of a unit** - Index arithmetic on strings modelled with explicit offsets.
* **C32 Element-wise writing** - Element writer model with depth counter; invariant, negative witness for closing the unit itself.
* **C33 API argument checking** - Covered by status functions of the models; per-call theorem. The whole interface (opening, reading, writing, closing, transformations) is in Model/ApiArgs: every call with a missing argument answers SRCML_STATUS_INVALID_ARGUMENT and changes nothing, and the calls that break this are `C33_finding_*`.
* **C34 srcDiff revision extraction** - extract_revision as a scanner; spec on trees of difference markup; induction on trees.
* **C35 srcDiff revision of attributes** - String split model.
* **C36 Transformations are applied in order** - apply_transforms over abstract per-transformation functions; fold/bind spec.
* **C37 Transformation parameters bind to the latest transformation** - History model.
* **C38 Transformation results** - Case analysis over result kinds.
* **C39 Order of units with parallel parsing** - Thread-pool + queue transition system; invariant over all schedules.
* **C40 The command terminates after all inputs** - Same system; progress/termination measure.
* **C41 Open file limit** - Counter transition system; invariant (and the off-by-one as negative theorem).
* **C42 Input names and protocols** - List functions on characters.
* **C43 Compression and archive extensions** - List functions; induction on the loop.
* **C44 Escapes in --text** - Scanner with explicit out-of-bounds outcome against a grammar-style spec.
* **C45 File lists** - Line scanner against split/trim spec; negative witness for the one-character last line.
* **C46 Processing steps of the command** - Boolean functions over the request; exhaustive by cases (finite booleans, all of them).
* **C47 Unit selection** - On top of the reader cursor model.
* **C48 Exit status** - Fold over messages.
* **C49 Formatted metadata output** - Scanner model against a token-level spec; negative witnesses.
* **C50 Command line argument clean-up** - List function.
* **C51 Skipping of #if 0 regions** - Directive state machine against a nesting spec; invariant.
* **C52 Ends of comments and literals** - COMMENT_TEXT loop as a list function per mode; spec by first occurrence.
* **C53 Mode queries of the parser stack** - List functions over the mode stack.
* **C54 Element positions** - Start/end token model with the `ends` stack.
* **C55 Output of a unit does not depend on earlier units of the thread** - Thread-local position state of the output as part of the state; negative witness, and the theorem for threads with one setting.
* **C56 Settings of a unit** - Setters, getters and clone on a record; induction over histories of setter calls.
* **C57 Extraction to a directory** - The loop over the units of an archive (Model/UnitSelect); induction over the units.
* **C58 Extraction to a source archive** - Same model; induction over the units, with the null pointer as undefined behaviour.
* **C59 Text of a message** - The loop that fills a format; induction over format pieces and arguments.
* **C60 Leaving out #else parts** - the machine of C51 with the option; spec by the grammar of conditionals with one live part; findings where nesting breaks it.
* **C61 Lexing loses nothing** - the lexer rule by rule (`Model/Lexer.lean`) with the table of keywords generated from the grammar; each token is a prefix of what is left, induction over the steps.
* **C62 Words** - the lookup in `literals` against a specification by table and registrations; every word token of every source.
* **C63 Positions of tokens** - the position is a fold over the text before; compared with the number of newlines and the width of the last line.
* **C64 Raw text writes** - sessions of open/write_string/close on the model of the archive's writer; induction on the sessions and on the texts.
* **C65 Lexemes** - the lexer against an inductive description of the parts of a source (Spec/Lexemes.lean), with longest match for operators; induction over the parts, each part in every state of the lexer.
* **C66 Directives** - the place in the line as a fold over the parts (LineState); each part in every state of the lexer moves the lexer's members like the fold.
* **C67 Marking the results of a query** - a heap of nodes with the pointers parent, children, last, next, prev and the functions of libxml2 on it; a forest of addresses that the heap represents (Siblings), one round of the loop wraps one node of the forest (Proofs/DomTree), and the document that is read along children and next is the specified one.
* **C68 Results of stylesheets** - the selection of the top nodes as a function on their list; the cases of units, text and nothing.
* **C69 Directories as inputs** - the disk as an inductive tree, the walk, the sort and the loop over the files as functions; membership, uniqueness and order by induction over the tree, the requests by induction over the files with C70 and C43.
* **C70 Archives, compressed and single files as inputs** - libarchive as format and list of entries; the loop with its counter and the solitary flag as a recursive function; induction over the entries.
* **C71 Processing a request** - one function for the thread and one for the writer, over the archive of C24; a specification of what each request shows as calls of the library; case analysis, induction over the requests, and composition with C25_made_units for the reader.
* **C72 The command from its options and inputs to the output** - `Model/Create` is the whole step `create_srcml`: the calls that set up the output archive, the choice of the handler for an input, the loop over the inputs, the threads and the writer of C71, and the end (closing or freeing). The handlers for texts, files, directories and archives are those of C44, C69 and C70. `C72_settings` reads the settings back with the getters of the library (C06, C19-C21 give the meaning of the calls); `C72_command` composes C70, C71 and C25. What can be lost at the end is a flag (`cut`): what libxml2 keeps in its buffer is not modelled.
* **C73 Parsing source into a unit, from the bytes to the unit** - `Model/UnitParse` is `srcml_unit_parse_*` as one function: the checks, the choice of the language (C06-C09) and the encoding, the input (C01-C05), the lexer and the grammar (C14-C16, C61-C66), the output (C12-C13) and the unit (C31-C32). `parse_core` composes those; the specification (`Spec/ParseCalls`) says what a usable source is, which encoding is asked for, what becomes of the hash and which metadata are kept.
* **C74 Source files through an archive and back** - `C74_archive_partial` and `C74_solitary_partial` compose C73 (`C73_reads_partial`), C27/C25 (`C25_made_units`, `C25_solitary_made_unit`) and C30 (`C30_unparse`). New are the invariant of the set-up calls (`Proofs/SetUp`: distinct uris, flags, revision, registered extensions) and that a parsed unit fits its archive (`Proofs/ParsedWrite.merge_back`: the table of a parsed unit, merged into that of the archive and then into the default one, is the table it was parsed with).
* **C75 The convenience function srcml(input, output)** - `Model/Convenience` models the static objects, their setters and `srcml`. `C75_refused`, `C75_settings_kept`, `C75_back` are direct; `C75_source_partial` composes `solitary_source` (C74) with the lemma that an archive in a file keeps what one in memory delivers (C71); `C75_round_trip_partial` composes both. `Spec.UnitsRead` says what a reader gives, over every delivery and schedule.
* **C76 Settings of an archive** - `Spec.settingsAfter` gives for each getter the last value of its own setter (`Spec.lastValue`); `C76_last_value` by induction over the history, `C76_convenience` over the history of the convenience functions, whose options and extensions follow from C19 and C06.
* **C77 Source code through the command and back** - `CommandFile` says which unit belongs to which input; the environment of the threads (`clientEnv`) is the library, so that C72 and C74 apply; `GivesBack` says what the functions of C47, C57 and C58 give for the units that were read.
* **C78 The settings of an archive survive writing and reading** - `openedArchive` runs the calls that the SAX2 handler (`Sax2`, C25) makes before the first unit on the archive that is opened: `readRoot` (attributes, options, tab stop with `atoi`, namespaces) and `readMacro`. The start tag is the one of C17/C27. `SettingsBack` and `SoloSettings` are stated with the getters.
* **C79 Units copied from one archive to another stay the same** - A unit that was read (`Spec.ReadBack`) is one that some job of C25 wrote and some delivery gave back, together with the archive of C78. It is shown that such a unit is again a job that fits every archive (prefixes by the lemmas on merged tables, contents by the offsets of the unit), so C25 applies to the second document; `Spec.SameUnitData` compares the two units that the user sees.
* **C80 A srcML document as input of the command** - `Model/SrcmlInput` is the handler for srcML, plugged into the model of the command (C72): the calls on the output archive, the selection of C47 and the requests, which the threads of C71 leave as they are. `Spec.OutputFor` names the output archive by the calls on it; it knows all namespaces of the input (`output_known`), so C79 applies to the units.
* **C81 Metadata shown by the command** - Model/Metadata.lean models srcml_display_metadata.cpp whole: the format made from the options, given to the model of srcml_pretty (C49), and the loops over the units of the model of the archive (C24). Spec/Metadata.lean states the lines by themselves (valueLines, namedLine, xmlnsLine, ListLines). C81_show comes from C49_sections_partial with the format as a list of pieces; the loops by induction over the units left to be read.
* **C82 Queries and transformations on the command line** - Model/QueryArgs.lean models the functions for the options and the loop of create_srcml over the transformations, on the model of the archive's transformations in memory (C37: World, TCall.run). Spec/QueryArgs.lean states the steps the options ask for (Steps), the texts of marks and parameters (AttributeText, InQuotes, ParamText) and the transformations the steps make (Made). By induction over Steps the request is the texts and marks of the steps; by induction over Made the loop makes the transformations.
* **C83 The options of the command** - Model/CliOptions.lean models the functions for the options (CliOpt.run on the request, with the bits of command and markup_options), the checks at the end of parseCLI11 (finishOpts), and how main and the steps read the request (createReq of C72, cmdOptions of C77, showReq of C81, request of C46). Spec/CliOptions.lean states the last value of an option, the inputs, queries and namespaces of a list of options (Inputs, Queries, LastUri) and which lists are accepted (Accepted). Each field is an induction over the options with the effect of one option (Effect); maps are sorted lists; acceptance is an equivalence proved by the same induction.
* **C84 Inputs that are addresses: waiting for the download** - Model/Curl.lean models the threads as a transition system: the flag go, the condition variable (asleep or awake), and per download the flags it will give to goCurl. Invariants over all reachable states: all flags equal (AllAre), a decreasing measure (curlRest), and for timely executions the relation of results to addresses (Keeping).
* **C85 A command line, the document it makes, and the source code back from it** - Composition. From the characterisation of the option parser (C83) follow the fields of the request; from C72 the output archive and its settings, here restated in terms of the options; from C77 the run of the command, the reading of its output and the source code back. All hypotheses are about the command line and the files.
* **C86 What the parser test says** - ParserTest.cpp:40-220 is modelled as a state machine with the static members as state. An invariant for the tests of one file (marks so far cut in lines, counts, summary line) is kept by each test; a second one for whole files connects the maps with the counts of the specification; the report is then equal to the text that the specification describes.
* **C87 Steps of the command that run at the same time** - Small-step semantics of threads with bounded pipes. Invariant: each thread that runs is at a place from where it makes the rest of its text out of what is in its pipe and what the one before will still write; the number of turns to come is a measure. Progress: the first thread that has not ended can run, or its pipe is full and the next can.
* **C88 The text of a unit is taken from a buffer that moves** - The buffer is an address, the number of characters dropped, and the place of reading; the handler keeps a pointer with the address and the number of its last look (sax2_srcsax_handler.cpp:86-104). Invariant: the pointer, brought up to date, is the address of the first character that is not taken. Refinement of a machine that has no buffer.
* **C89 The markup of a source does not depend on the metadata** - Model: UnitParse, UnitWriter, Output, XmlWriter. Proof: a simulation between two output objects (Proofs/SameInside.lean) that have written the same text after their own start tags; every writer operation preserves it; the accessor returns exactly what was written after the start tag.
* **C90 Which units the parser test tests and what it compares** - Model: ParserTestUnits (testUnits, parserTestInput, parserTestCase) on ArchiveIO, UnitApi, UnitParse. Proof: induction over the units for the selection; C30 for the unparse, textBytes/memoryResult for the buffer, and C89 for the parse.
* **C91 Inputs that come through threads and pipes** - Model: InputPipes (threads of the input in front of the steps of C87), libarchive as an abstract machine that reads, gives blocks, stops. Proof: each thread Makes its text, C87's invariant for chains; for the findings an invariant on two threads of which the second takes only a part.
* **C92 What extraction to a directory leaves on the disk** - Model: ExtractDisk (paths as names between slashes, a disk of directories and files, mkdirs, opening for writing, mkDir's memory of the last path). Proof: induction over the units; invariant: the directories of the last path are there, and no file is at the place of a directory that is still needed.
* **C93 A tree of source files, through an archive and back onto the disk** - Composition of C85_archive_partial with C92_extract through Spec.GivesBack; the names of the units are those of the files without ./ in front, which lead to the same place.
* **C94 Archives that are read in the same process do not influence each other** - Model: SharedNames (SrcSax with the comparison of names made dependent on whose dictionary the static names are from; an event is the start of a document or a piece of one). Proof: induction over the events; the log of a disturbed document grows without ends.
* **C95 srcml --cat: all units in one unit** - Model/CatXml.lean: the branch for --cat of the writer with its static variable, and the end tag of create_srcml. Spec/CatXml.lean: SoloDocument (calls of the library), Concatenated. Proof: induction over the units with the invariant that only text was written to the archive; reading by the independent reader of C27.
* **C96 The command does not wait for itself** - Model/OpenInputs.lean: main thread, archives held by requests, writer, pipe, second step. Proof: invariant over Reach; a decreasing measure; for the finding explicit runs by induction on inputs, units and pipe.

## Findings

FINDINGS.md (generated by tools/findings.py) lists the theorems that show where a property is false of the code.
