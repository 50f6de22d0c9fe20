import Verif.Model.QueryArgs
import Verif.Model.Metadata
import Verif.Model.Client
import Verif.Model.UnitApi
/-
The options of the command: from what the option parser (CLI11, which is not in /repo) has found on the command line to the request.
-/
namespace Srcml

/-- The type of `command` and of `*markup_options`, src/client/srcml_cli.hpp:120-121. -/
abbrev CmdBits := BitVec 32

/-- src/client/srcml_cli.hpp:36 -/
def COMMAND_LONGINFO : CmdBits := 1#32 <<< 0
/-- src/client/srcml_cli.hpp:37 -/
def COMMAND_INFO : CmdBits := 1#32 <<< 1
/-- src/client/srcml_cli.hpp:41 -/
def COMMAND_QUIET : CmdBits := 1#32 <<< 4
/-- src/client/srcml_cli.hpp:42 -/
def COMMAND_VERBOSE : CmdBits := 1#32 <<< 5
/-- src/client/srcml_cli.hpp:43 -/
def COMMAND_VERSION : CmdBits := 1#32 <<< 6
/-- src/client/srcml_cli.hpp:45 -/
def COMMAND_XML : CmdBits := 1#32 <<< 7
/-- src/client/srcml_cli.hpp:46 -/
def COMMAND_SRC : CmdBits := 1#32 <<< 8
/-- src/client/srcml_cli.hpp:47 -/
def COMMAND_LIST : CmdBits := 1#32 <<< 9
/-- src/client/srcml_cli.hpp:48 -/
def COMMAND_UNITS : CmdBits := 1#32 <<< 10
/-- src/client/srcml_cli.hpp:50 -/
def COMMAND_TO_DIRECTORY : CmdBits := 1#32 <<< 11
/-- src/client/srcml_cli.hpp:51 -/
def COMMAND_TIMESTAMP : CmdBits := 1#32 <<< 12
/-- src/client/srcml_cli.hpp:53 -/
def COMMAND_DISPLAY_LANGUAGE : CmdBits := 1#32 <<< 13
/-- src/client/srcml_cli.hpp:54 -/
def COMMAND_DISPLAY_URL : CmdBits := 1#32 <<< 14
/-- src/client/srcml_cli.hpp:55 -/
def COMMAND_DISPLAY_FILENAME : CmdBits := 1#32 <<< 15
/-- src/client/srcml_cli.hpp:56 -/
def COMMAND_DISPLAY_SRC_VERSION : CmdBits := 1#32 <<< 16
/-- src/client/srcml_cli.hpp:57 -/
def COMMAND_DISPLAY_TIMESTAMP : CmdBits := 1#32 <<< 17
/-- src/client/srcml_cli.hpp:58 -/
def COMMAND_DISPLAY_HASH : CmdBits := 1#32 <<< 18
/-- src/client/srcml_cli.hpp:59 -/
def COMMAND_DISPLAY_ENCODING : CmdBits := 1#32 <<< 19
/-- src/client/srcml_cli.hpp:61 -/
def COMMAND_NO_COLOR : CmdBits := 1#32 <<< 20
/-- src/client/srcml_cli.hpp:63 -/
def COMMAND_UPDATE : CmdBits := 1#32 <<< 21
/-- src/client/srcml_cli.hpp:65 -/
def COMMAND_NOARCHIVE : CmdBits := 1#32 <<< 22
/-- src/client/srcml_cli.hpp:67 -/
def DEBUG_MODE : CmdBits := 1#32 <<< 23
/-- src/client/srcml_cli.hpp:69 -/
def TIMING_MODE : CmdBits := 1#32 <<< 24
/-- src/client/srcml_cli.hpp:71 -/
def MARKUP_ARCHIVE : CmdBits := 1#32 <<< 25
/-- src/client/srcml_cli.hpp:73 -/
def MARKUP_HASH : CmdBits := 1#32 <<< 26
/-- src/client/srcml_cli.hpp:75 -/
def COMMAND_XML_RAW : CmdBits := 1#32 <<< 27
/-- src/client/srcml_cli.hpp:76 -/
def COMMAND_XML_FRAGMENT : CmdBits := 1#32 <<< 28
/-- src/client/srcml_cli.hpp:78 -/
def COMMAND_PARSER_TEST : CmdBits := 1#32 <<< 29
/-- src/client/srcml_cli.hpp:80 -/
def COMMAND_CAT_XML : CmdBits := 1#32 <<< 30
/-- src/client/srcml_cli.hpp:83-96 -/
def COMMAND_INSRCML : CmdBits :=
  COMMAND_LONGINFO ||| COMMAND_INFO ||| COMMAND_VERSION ||| COMMAND_LIST ||| COMMAND_UNITS ||| COMMAND_UNITS ||| COMMAND_DISPLAY_LANGUAGE ||| COMMAND_DISPLAY_URL ||| COMMAND_DISPLAY_FILENAME |||
    COMMAND_DISPLAY_SRC_VERSION ||| COMMAND_DISPLAY_ENCODING ||| COMMAND_DISPLAY_TIMESTAMP ||| COMMAND_DISPLAY_HASH
/-- `SRCML_OPTION_NO_XML_DECL` in `markup_options`, src/libsrcml/srcml.h:107. -/
def MARKUP_NO_XML_DECL : CmdBits := 1#32 <<< 1
/-- `SRCML_OPTION_POSITION` in `markup_options`, src/libsrcml/srcml.h:109. -/
def MARKUP_POSITION : CmdBits := 1#32 <<< 2
/-- `SRCML_OPTION_CPP` in `markup_options`, src/libsrcml/srcml.h:111. -/
def MARKUP_CPP : CmdBits := 1#32 <<< 3
/-- `SRCML_OPTION_CPP_TEXT_ELSE` in `markup_options`, src/libsrcml/srcml.h:113. -/
def MARKUP_CPP_TEXT_ELSE : CmdBits := 1#32 <<< 4
/-- `SRCML_OPTION_CPP_MARKUP_IF0` in `markup_options`, src/libsrcml/srcml.h:115. -/
def MARKUP_CPP_MARKUP_IF0 : CmdBits := 1#32 <<< 5

/-- Is one of the bits set, src/client/srcml_options.hpp:44-47, src/client/create_srcml.cpp:171-184? -/
def cmdOption (bits f : CmdBits) : Bool := decide (bits &&& f ≠ 0#32)

/-- The options without a value, src/client/srcml_cli.cpp:163-616. -/
inductive CliFlag where
  | version | verbose | quiet | archive | outputSrcml | outputSrcmlOuter | outputSrcmlInner | position | cpp | cppMarkupIf0 | cppNomarkupElse | noXmlDeclaration | list | info | fullInfo | showLanguage
  | showUrl | showFilename | showSrcVersion | showTimestamp | showHash | showEncoding | showUnitCount | hash | timestamp | outputSrc | dev | timing | cat | update | parserTest | noColor
  deriving DecidableEq, Repr

/-- The bits of `command` that an option sets, src/client/srcml_cli.cpp:163-616. -/
def CliFlag.command : CliFlag → CmdBits
  | .version => COMMAND_VERSION
  | .verbose => COMMAND_VERBOSE
  | .quiet => COMMAND_QUIET
  | .outputSrcml => COMMAND_XML
  | .outputSrcmlOuter => COMMAND_XML_FRAGMENT ||| COMMAND_XML
  | .outputSrcmlInner => COMMAND_XML_RAW ||| COMMAND_XML
  | .list => COMMAND_LIST
  | .info => COMMAND_INFO
  | .fullInfo => COMMAND_LONGINFO
  | .showLanguage => COMMAND_DISPLAY_LANGUAGE
  | .showUrl => COMMAND_DISPLAY_URL
  | .showFilename => COMMAND_DISPLAY_FILENAME
  | .showSrcVersion => COMMAND_DISPLAY_SRC_VERSION
  | .showTimestamp => COMMAND_DISPLAY_TIMESTAMP
  | .showHash => COMMAND_DISPLAY_HASH
  | .showEncoding => COMMAND_DISPLAY_ENCODING
  | .showUnitCount => COMMAND_UNITS
  | .timestamp => COMMAND_TIMESTAMP
  | .outputSrc => COMMAND_SRC
  | .dev => DEBUG_MODE
  | .timing => TIMING_MODE
  | .cat => COMMAND_CAT_XML
  | .update => COMMAND_UPDATE
  | .parserTest => COMMAND_PARSER_TEST ||| TIMING_MODE
  | .noColor => COMMAND_NO_COLOR
  | _ => 0#32

/-- The bits of `markup_options` that an option sets, src/client/srcml_cli.cpp:249-316, 400-402. -/
def CliFlag.markup : CliFlag → CmdBits
  | .archive => MARKUP_ARCHIVE
  | .position => MARKUP_POSITION
  | .cpp => MARKUP_CPP
  | .cppMarkupIf0 => MARKUP_CPP_MARKUP_IF0
  | .cppNomarkupElse => MARKUP_CPP_TEXT_ELSE
  | .noXmlDeclaration => MARKUP_NO_XML_DECL
  | .hash => MARKUP_HASH
  | _ => 0#32

/-- An option, or the name of an input, as the option parser has found it, src/client/srcml_cli.cpp:137-616. A list of them is in the order in which the parser calls the functions for them. `--jobs`,
`--xml-processing` and `--external` have no effect on what is modelled and are left out. -/
inductive CliOpt where
  | flag (f : CliFlag)
  | input (value : Str)
  | output (value : Str)
  | text (value : Str)
  | language (value : Str)
  | filesFrom (value : Str)
  | registerExt (value : Str)
  | srcEncoding (value : Str)
  | tabs (n : Nat)
  | xmlEncoding (value : Str)
  | xmlns (value : Str)
  | showPrefix (value : Str)
  | filename (value : Str)
  | url (value : Str)
  | srcVersion (value : Str)
  | unit (n : Int)
  | eol (value : Str)
  | toDir (value : Str)
  | trans (t : TransArg)
  | revision (n : Nat)
  | pretty (value : Str)
  deriving DecidableEq, Repr

/-- `srcml_request_t`, src/client/srcml_cli.hpp:115-166. -/
structure CliReq where
  inputs : List InputSrc := []
  stdindex : Option Nat := none
  command : CmdBits := 0
  markup : CmdBits := 0
  attLanguage : Option Str := none
  attFilename : Option Str := none
  attUrl : Option Str := none
  xmlEncoding : Option Str := some "UTF-8".toList
  attVersion : Option Str := none
  srcEncoding : Option Str := none
  eol : Option Nat := none
  output : Option InputSrc := none
  languageExt : List Str := []
  tabs : Nat := 8
  prefixQuery : Option Str := none
  namespaces : List (Str × Str) := []
  uris : List (Str × Str) := []
  trans : TransReq := {}
  unit : Int := 0
  pretty : Option Str := none
  revision : Option Nat := none
  deriving DecidableEq, Repr

/-- `m[k] = v` of a `std::map<std::string, std::string>`, src/client/srcml_cli.cpp:327-331: in the order of the keys. -/
def mapSet (k v : Str) : List (Str × Str) → List (Str × Str)
  | [] => [(k, v)]
  | x :: xs => if k = x.1 then (k, v) :: xs else if k < x.1 then (k, v) :: x :: xs else x :: mapSet k v xs

/-- `m.find(k)` of a `std::map`, src/client/srcml_cli.cpp:667-676. -/
def mapGet (k : Str) (m : List (Str × Str)) : Option Str := (m.find? (fun x => x.1 = k)).map (·.2)

/-- `tolower` in the C locale, src/client/srcml_cli.cpp:417. -/
def lowerAscii (c : Char) : Char := if 'A' ≤ c ∧ c ≤ 'Z' then Char.ofNat (c.toNat + 32) else c

/-- The function for `--eol`, src/client/srcml_cli.cpp:415-431; `none`: the program is left with a message. -/
def eolArg (value : Str) : Option Nat :=
  let v := value.map lowerAscii
  if v = "auto".toList then some EOL_AUTO
  else if v = "lf".toList ∨ v = "unix".toList then some EOL_LF
  else if v = "cr".toList then some EOL_CR
  else if v = "crlf".toList ∨ v = "windows".toList then some EOL_CRLF
  else none

/-- Prefix and uri of the value of `--xmlns`, src/client/srcml_cli.cpp:324-333. -/
def xmlnsValue (value : Str) : Str × Str :=
  match findFirst '=' value with
  | none => ([], value)
  | some p => (value.take p, value.drop (p + 1))

/-- The function for the name of an input, src/client/srcml_cli.cpp:138-161. -/
def CliReq.addInput (stat : Str → FileKind) (r : CliReq) (v : Str) : Run CliReq :=
  let r := if v = "-".toList ∨ v = "stdin://-".toList then { r with stdindex := some r.inputs.length } else r
  (inputSrc stat v).bind (fun i =>
    .val (if i.extension = ".xsl".toList then { r with trans := { r.trans with transformations := r.trans.transformations ++ [src_prefix_add_uri2 "xslt".toList i.filename] } }
      else if i.extension = ".rng".toList then { r with trans := { r.trans with transformations := r.trans.transformations ++ [src_prefix_add_uri2 "relaxng".toList i.filename] } }
      else { r with inputs := r.inputs ++ [i] }))

/-- The functions for the options, src/client/srcml_cli.cpp:137-616; `none`: the program is left with a message. `encodings`: the encodings that libxml2 knows. -/
def CliOpt.run (stat : Str → FileKind) (encodings : Str → Bool) (r : CliReq) : CliOpt → Run (Option CliReq)
  | .flag f => .val (some { r with command := r.command ||| f.command, markup := r.markup ||| f.markup })
  | .input v => (r.addInput stat v).bind (fun r => .val (some r))
  | .output v => (inputSrc stat v).bind (fun i => .val (some { r with
      output := some i
      command := if i.isdirectory = true ∨ (i.extension = [] ∧ i.filename.getLast? = some '/') then r.command ||| COMMAND_TO_DIRECTORY ||| COMMAND_NOARCHIVE else r.command }))
  | .text v => if v.head? = some '-' then .val none else
      (inputSrc stat (src_prefix_add_uri2 "text".toList v)).bind (fun i => .val (some { r with inputs := r.inputs ++ [i] }))
  | .language v => if v = [] ∨ srcml_check_language (some v) = 0 then .val none else .val (some { r with attLanguage := some v })
  | .filesFrom v => (inputSrc stat (src_prefix_add_uri2 "filelist".toList v)).bind (fun i => .val (some { r with inputs := r.inputs ++ [i] }))
  | .registerExt v => .val (some { r with languageExt := r.languageExt ++ [v] })
  | .srcEncoding v => .val (some { r with srcEncoding := some v })
  | .tabs n => if 1 ≤ n ∧ n ≤ 8 then .val (some { r with tabs := n, markup := r.markup ||| MARKUP_POSITION }) else .val none
  | .xmlEncoding v => if v = [] ∨ encodings v = false then .val none else .val (some { r with xmlEncoding := some v })
  | .xmlns v => .val (some { r with namespaces := mapSet (xmlnsValue v).1 (xmlnsValue v).2 r.namespaces, uris := mapSet (xmlnsValue v).2 (xmlnsValue v).1 r.uris })
  | .showPrefix v => .val (some { r with prefixQuery := some v })
  | .filename v => .val (some { r with attFilename := some v })
  | .url v => .val (some { r with attUrl := some v })
  | .srcVersion v => .val (some { r with attVersion := some v })
  | .unit n => .val (some { r with unit := n })
  | .eol v => .val ((eolArg v).map (fun e => { r with eol := some e }))
  | .toDir v => (inputSrc stat v).bind (fun i => .val (some { r with output := some i, command := r.command ||| COMMAND_TO_DIRECTORY ||| COMMAND_NOARCHIVE }))
  | .trans t => .val ((t.run r.trans).map (fun t => { r with trans := t }))
  | .revision n => .val (some { r with revision := some n })
  | .pretty v => .val (some { r with pretty := some v })

/-- The functions for the options, one after the other, src/client/srcml_cli.cpp:626-637. -/
def runOpts (stat : Str → FileKind) (encodings : Str → Bool) (r : CliReq) : List CliOpt → Run (Option CliReq)
  | [] => .val (some r)
  | o :: os => (o.run stat encodings r).bind (fun x => match x with
    | none => .val none
    | some r => runOpts stat encodings r os)

/-- Is it `--output`, src/client/srcml_cli.cpp:176-190? -/
def CliOpt.isOutput : CliOpt → Bool | .output _ => true | _ => false
/-- Is it `--to-dir`, src/client/srcml_cli.cpp:442-452? -/
def CliOpt.isToDir : CliOpt → Bool | .toDir _ => true | _ => false
/-- Is it `--text`, src/client/srcml_cli.cpp:198-216? -/
def CliOpt.isText : CliOpt → Bool | .text _ => true | _ => false

/-- Options that exclude each other, src/client/srcml_cli.cpp:618-624: the option parser refuses them together. -/
def excluded (opts : List CliOpt) : Bool :=
  let g (f : CliFlag) : Bool := decide (CliOpt.flag f ∈ opts)
  (g .outputSrc && g .outputSrcml) || (g .outputSrc && g .outputSrcmlInner) || (g .outputSrc && g .outputSrcmlOuter) ||
  (opts.any CliOpt.isOutput && opts.any CliOpt.isToDir) ||
  (g .outputSrcml && g .outputSrcmlInner) || (g .outputSrcml && g .outputSrcmlOuter) || (g .outputSrcmlOuter && g .outputSrcmlInner)

/-- The check of the namespaces, src/client/srcml_cli.cpp:662-682; `std`: those of the global archive. The iterator that is compared in line 676 is from another map: the comparison is not defined; in the
libraries of GCC and LLVM two such iterators differ, and so it is here. The element that `user_uris[std_uri]` then makes has no effect after the loop, as each uri is there once. -/
def namespacesAccepted (std : List Namespace) (namespaces uris : List (Str × Str)) : Bool :=
  std.all (fun n => match mapGet n.prefix_ namespaces with
    | none => true
    | some u => decide (u = n.uri) || decide ((mapGet n.uri uris).getD [] ≠ n.prefix_))

/-- A text without dots and slashes at the start, src/client/srcml_cli.cpp:655-658. -/
def dropDots (s : Str) : Str := s.dropWhile (fun c => c = '.' ∨ c = '/')

/-- The url of a single directory, src/client/srcml_cli.cpp:654-660. -/
def directoryUrl (inputs : List InputSrc) (url : Option Str) : Option Str :=
  match inputs with
  | [i] => if i.isdirectory then some (dropDots i.resource) else url
  | _ => url

/-- The destination: the standard output when there is none, src/client/srcml_cli.cpp:645-646. -/
def outputDest (stat : Str → FileKind) : Option InputSrc → Run InputSrc
  | some i => .val i
  | none => inputSrc stat "stdout://-".toList

/-- The end of `parseCLI11`, src/client/srcml_cli.cpp:639-684. -/
def finishOpts (stat : Str → FileKind) (r : CliReq) (text : Bool) : Run (Option CliReq) :=
  if text = true ∧ r.attLanguage = none ∧ r.attFilename = none then .val none else
  (outputDest stat r.output).bind (fun out =>
  ((if r.inputs = [] then (inputSrc stat "stdin://-".toList).bind (fun i => .val { r with inputs := [i], stdindex := some 0 }) else .val r) : Run CliReq).bind (fun r =>
  .val (if namespacesAccepted srcml_archive_create.namespaces r.namespaces r.uris then some { r with output := some out, attUrl := directoryUrl r.inputs r.attUrl } else none)))

/-- `parseCLI11`, src/client/srcml_cli.cpp:99-685, from what the option parser has found; `none`: the program is left with a message. -/
def parseOpts (stat : Str → FileKind) (encodings : Str → Bool) (opts : List CliOpt) : Run (Option CliReq) :=
  if excluded opts then .val none else
  (runOpts stat encodings {} opts).bind (fun x => match x with
    | none => .val none
    | some r => finishOpts stat r (opts.any CliOpt.isText))

/-- The inputs as `main` hands them on, src/client/srcml.cpp:113: the standard input is source code when there is a language. -/
def CliReq.mainInputs (r : CliReq) : List InputSrc :=
  match r.stdindex with
  | none => r.inputs
  | some k => r.inputs.modify k (fun i => { i with state := if r.attLanguage.isSome then .src else .srcml })

/-- The number of the unit of the inputs, src/client/srcml.cpp:81-83. -/
def CliReq.unitOf (r : CliReq) : Int := if r.inputs.length = 1 then r.unit else 0

/-- The bits of `markup_options` as `create_srcml` tests them, src/client/create_srcml.cpp:171-184. -/
def CliReq.markupBits (r : CliReq) : MarkupBits :=
  { archive := cmdOption r.markup MARKUP_ARCHIVE
    position := cmdOption r.markup MARKUP_POSITION
    cpp := cmdOption r.markup MARKUP_CPP
    markupIf0 := cmdOption r.markup MARKUP_CPP_MARKUP_IF0
    textElse := cmdOption r.markup MARKUP_CPP_TEXT_ELSE
    noXmlDecl := cmdOption r.markup MARKUP_NO_XML_DECL
    hash := cmdOption r.markup MARKUP_HASH }

/-- What the output archive is made from, src/client/create_srcml.cpp:131-260. -/
def CliReq.createReq (r : CliReq) : CreateReq :=
  { xmlEncoding := r.xmlEncoding, srcEncoding := r.srcEncoding, attUrl := r.attUrl, attVersion := r.attVersion, attLanguage := r.attLanguage, attFilename := r.attFilename, markup := r.markupBits,
    tabs := r.tabs, languageExt := r.languageExt, namespaces := r.namespaces }

/-- The bits of `command` as the handlers of the inputs and the writer test them, src/client/src_input_file.cpp:33-40, src/client/src_input_libarchive.cpp:222-242, src/client/srcml_write.cpp:48-215. -/
def CliReq.cmdOptions (r : CliReq) : CmdOptions :=
  { verbose := cmdOption r.command COMMAND_VERBOSE
    quiet := cmdOption r.command COMMAND_QUIET
    noarchive := cmdOption r.command COMMAND_NOARCHIVE
    toDirectory := cmdOption r.command COMMAND_TO_DIRECTORY
    timestamp := cmdOption r.command COMMAND_TIMESTAMP
    xmlFragment := cmdOption r.command COMMAND_XML_FRAGMENT
    xmlRaw := cmdOption r.command COMMAND_XML_RAW }

/-- What `srcml_display_metadata` tests, src/client/srcml_display_metadata.cpp:141-255. -/
def CliReq.showReq (r : CliReq) : ShowReq :=
  { encoding := cmdOption r.command COMMAND_DISPLAY_ENCODING
    url := cmdOption r.command COMMAND_DISPLAY_URL
    filename := cmdOption r.command COMMAND_DISPLAY_FILENAME
    language := cmdOption r.command COMMAND_DISPLAY_LANGUAGE
    version := cmdOption r.command COMMAND_DISPLAY_SRC_VERSION
    hash := cmdOption r.command COMMAND_DISPLAY_HASH
    timestamp := cmdOption r.command COMMAND_DISPLAY_TIMESTAMP
    prefixOf := r.prefixQuery
    units := cmdOption r.command COMMAND_UNITS
    info := cmdOption r.command COMMAND_INFO
    longinfo := cmdOption r.command COMMAND_LONGINFO
    list := cmdOption r.command COMMAND_LIST
    pretty := r.pretty
    unit := r.unit
    xml := cmdOption r.command COMMAND_XML }

/-- What the choice of the steps in `main` depends on, src/client/srcml.cpp:188-234. -/
def CliReq.request (r : CliReq) : Request :=
  { parserTest := cmdOption r.command COMMAND_PARSER_TEST
    catXml := cmdOption r.command COMMAND_CAT_XML
    xml := cmdOption r.command COMMAND_XML
    src := cmdOption r.command COMMAND_SRC
    inSrcml := cmdOption r.command COMMAND_INSRCML
    transformations := r.trans.transformations.length
    inputs := r.mainInputs
    output := r.output.getD {}
    xmlnsPrefixQuery := r.prefixQuery
    prettyFormat := r.pretty }

/-- `main`, src/client/srcml.cpp:58-164: the version is shown and nothing else is done (`none`), or the steps are run. -/
def CliReq.steps (r : CliReq) : Option (List ProcStep) :=
  if cmdOption r.command COMMAND_VERSION then none else some (pipeline r.request)

end Srcml
