import Verif.Model.Consume
import Verif.Model.InputText
/-
The step of the command that makes srcML: the output archive, the inputs one after the other, and the end.
-/
namespace Srcml

/-- The bits of `markup_options`, src/client/srcml_cli.hpp:121, src/client/srcml_cli.cpp:104, 249, 275-315, 401. -/
structure MarkupBits where
  archive : Bool := false
  position : Bool := false
  cpp : Bool := false
  markupIf0 : Bool := false
  textElse : Bool := false
  noXmlDecl : Bool := false
  hash : Bool := false
  deriving DecidableEq, Repr

/-- The parts of `srcml_request_t` that the output archive depends on, src/client/srcml_cli.hpp:115-152. `namespaces` is a map: in the order of the prefixes. -/
structure CreateReq where
  xmlEncoding : Option Str := none
  srcEncoding : Option Str := none
  attUrl : Option Str := none
  attVersion : Option Str := none
  attLanguage : Option Str := none
  attFilename : Option Str := none
  markup : MarkupBits := {}
  tabs : Nat := 8
  languageExt : List Str := []
  namespaces : List (Str × Str) := []
  deriving DecidableEq, Repr

/-- A name without dots and slashes in front, src/client/create_srcml.cpp:154-155: `substr` throws when nothing is left. -/
def urlOfInput (filename : Str) : Run Str :=
  match (src_prefix_resource filename).dropWhile (fun c => c = '.' ∨ c = '/') with
  | [] => .ub
  | s => .val s

/-- Extension and language of an argument of `--register-ext`, src/client/create_srcml.cpp:242-245. Without an equals sign both are the whole text. -/
def splitExt (ext : Str) : Str × Str :=
  match findFirst '=' ext with
  | some p => (ext.take p, ext.drop (p + 1))
  | none => (ext, ext)

/-- One unit is written when there is one input and it can only be one, src/client/create_srcml.cpp:205-207. -/
def oneUnit (req : CreateReq) (inputs : List InputSrc) : Bool :=
  match inputs with
  | [i] => i.protocol ≠ "filelist".toList && !req.markup.archive && !i.isdirectory && i.archives.isEmpty
  | _ => false

/-- A call that is made when a value is given, src/client/create_srcml.cpp:131-166. -/
def optCall (o : Option Str) (f : Option Str → SetCall) : List (Option SetCall) :=
  match o with
  | some s => [some (f (some s))]
  | none => []

/-- A call that is made when a bit is set, src/client/create_srcml.cpp:168-186. -/
def bitCall (b : Bool) (c : SetCall) : List (Option SetCall) := if b then [some c] else []

/-- The url of the output archive: the one asked for, else that of a single input that is a source archive, src/client/create_srcml.cpp:144-160. -/
def urlAsked (req : CreateReq) (inputs : List InputSrc) : Run (Option Str) :=
  match req.attUrl with
  | some u => .val (some (src_prefix_resource u))
  | none => match inputs with
    | [i] => if i.archives.isEmpty then .val none else (urlOfInput i.filename).bind (fun u => .val (some u))
    | _ => .val none

/-- The calls that make the output one unit or an archive, src/client/create_srcml.cpp:201-239; `none`: the program is left with a message. -/
def formCalls (req : CreateReq) (inputs : List InputSrc) : List (Option SetCall) :=
  if oneUnit req inputs then [some .enableSolitary, some (if req.markup.hash then .enableHash else .disableHash)]
  else (if req.attFilename.isSome then [none] else []) ++ [some .disableSolitary, some .enableHash]

/-- The calls for the output archive, src/client/create_srcml.cpp:131-260, in order; `none`: the program is left with a message. -/
def setupCalls (req : CreateReq) (inputs : List InputSrc) (url : Option Str) : List (Option SetCall) :=
  optCall req.xmlEncoding .setXmlEncoding ++ (optCall req.srcEncoding .setSrcEncoding ++ (optCall url .setUrl ++ (optCall req.attVersion .setVersion ++
    (bitCall req.markup.archive .disableSolitary ++ (bitCall req.markup.position (.enableOption OPTION_POSITION) ++ (bitCall req.markup.cpp (.enableOption OPTION_CPP) ++
    (bitCall req.markup.markupIf0 (.enableOption OPTION_CPP_MARKUP_IF0) ++ (bitCall req.markup.textElse (.enableOption OPTION_CPP_TEXT_ELSE) ++
    (bitCall req.markup.noXmlDecl (.enableOption OPTION_NO_XML_DECL) ++ (bitCall req.markup.hash .enableHash ++
    (some (.setLanguage req.attLanguage) :: some (.setTabstop req.tabs) :: (formCalls req inputs ++
    (req.languageExt.map (fun e => some (.registerExtension (some (splitExt e).1) (some (splitExt e).2))) ++
    req.namespaces.map (fun n => some (.registerNamespace (some n.1) (some n.2))))))))))))))))

/-- The calls one after the other, src/client/create_srcml.cpp:131-260: the program is left when one of them fails (`none`). -/
def runSetup (a : Archive) : List (Option SetCall) → Run (Option Archive)
  | [] => .val (some a)
  | none :: _ => .val none
  | some c :: cs => (c.run a).bind (fun (st, a) => if st ≠ .ok then .val none else runSetup a cs)

/-- The output archive, src/client/create_srcml.cpp:107-260. -/
def createArchive (req : CreateReq) (inputs : List InputSrc) : Run (Option Archive) :=
  (urlAsked req inputs).bind (fun url => runSetup srcml_archive_create (setupCalls req inputs url))

/-- Name and value of an argument of `--xslt-param`, src/client/create_srcml.cpp:283-294: quotes are put around a value that does not start with one. -/
def xsltParam (resource : Str) : Str × Str :=
  let p := splitExt resource
  (p.1, if p.2.head? = some '"' then p.2 else '"' :: p.2 ++ ['"'])

/-- What is done with an input, src/client/create_srcml.cpp:46-100. -/
inductive Handler where
  | srcml | text | filelist | filesystem | file | libarchive
  deriving DecidableEq, Repr

/-- The choice in `srcml_handler_dispatch`, src/client/create_srcml.cpp:52-100. -/
def handlerOf (i : InputSrc) : Handler :=
  if i.state = .srcml then .srcml
  else if i.protocol = "text".toList then .text
  else if i.protocol = "filelist".toList then .filelist
  else if i.protocol = "file".toList ∧ i.isdirectory = true then .filesystem
  else if i.protocol = "file".toList ∧ i.archives = [] ∧ i.compressions = [] then .file
  else .libarchive

/-- What a handler leaves: the requests, in order, the number it returns, whether it made the output a full archive, the other calls that it made on the output archive, and the number of warnings and errors
(src/client/create_srcml.cpp:46-100, src/client/SRCMLStatus.hpp:46-49). -/
structure Handled (D : Type) where
  requests : List (Work D) := []
  handled : Int := 1
  full : Bool := false
  calls : List SetCall := []
  errors : Nat := 0
  exited : Bool := false

/-- The handlers, which get the output archive, and the libcurl library: which inputs need it and which of them can be opened, src/client/create_srcml.cpp:52-100. -/
structure Handlers (D : Type) where
  run : Handler → Archive → InputSrc → Run (Handled D)
  curl : InputSrc → Bool := fun _ => false
  opened : InputSrc → Bool := fun _ => true

/-- `srcml_handler_dispatch`, src/client/create_srcml.cpp:46-100. An address that libcurl cannot open gives a message for srcML (in `input_curl` for the others). -/
def dispatchInput {D : Type} (h : Handlers D) (a : Archive) (i : InputSrc) : Run (Handled D) :=
  if (handlerOf i = .srcml ∨ handlerOf i = .libarchive) ∧ h.curl i = true ∧ i.protocol ≠ "file".toList ∧ h.opened i = false then .val { handled := -1, errors := 1 }
  else (h.run (handlerOf i) (if handlerOf i = .filelist then { a with options := a.options ||| OPTION_ARCHIVE } else a) i).bind (fun r =>
    .val (if handlerOf i = .filelist then { r with full := true } else r))

/-- The parts of the request that the inputs use, src/client/srcml_cli.hpp:115-136. -/
def CreateReq.cmd (req : CreateReq) (outputFilename : Str) : CmdRequest :=
  { attLanguage := req.attLanguage, attFilename := req.attFilename, attUrl := req.attUrl, attVersion := req.attVersion, outputFilename := outputFilename }

/-- The requests of `src_input_text`, src/client/src_input_text.cpp:54-226, with their fields (65-82): the name of the request is dereferenced when no language is asked for. -/
def textRequests (opts : CmdOptions) (req : CmdRequest) (reg : Registry) (resource : Str) : Run (List ParseReq × Bool) :=
  (src_input_text resource).bind (fun (us, more) =>
    let make (l : Str) : List ParseReq := us.map (fun u => {
      diskDir := if opts.noarchive then some req.outputFilename else none
      filename := req.attFilename, url := req.attUrl, version := req.attVersion, language := l, buffer := u })
    if req.attLanguage.getD [] ≠ [] then .val (make (req.attLanguage.getD []), more)
    else match req.attFilename with
      | none => .ub
      | some f => .val (make ((srcml_archive_check_extension reg (some f)).getD []), more))

/-- What `src_input_file` and the like give to the queue, src/client/create_srcml.cpp:46-100. -/
def InputRun.handled' {D : Type} (r : InputRun) : Handled D :=
  { requests := r.requests.map (fun q => { req := q }), handled := r.handled, full := !r.solitary, errors := r.warnings, exited := r.exited }

/-- The handlers for texts, local files, directories and archives, src/client/create_srcml.cpp:66-100; those for srcML and lists are those of `other`. `arch`: what libarchive makes of a file,
`tree`: what is in a directory. -/
def clientHandlers {D : Type} (opts : CmdOptions) (req : CmdRequest) (stat : Str → FileKind) (arch : Str → Option ArchIn) (cwd : Str) (tree : Str → FsTree) (other : Handlers D) : Handlers D :=
  { other with run := fun h a i =>
      let solitary := !isoption a.options OPTION_ARCHIVE
      match h with
      | .text => (textRequests opts req a.registeredLanguages i.resource).bind (fun (rs, more) =>
          .val { requests := rs.map (fun q => { req := q }), handled := rs.length, full := more })
      | .file => (src_input_file opts req a.registeredLanguages solitary i (arch i.resource)).bind (fun r => .val r.handled')
      | .filesystem => (src_input_filesystem opts req a.registeredLanguages stat arch solitary cwd i.resource (tree i.resource)).bind (fun r => .val r.handled')
      | .libarchive => (src_input_libarchive opts req a.registeredLanguages solitary i false [] (arch i.resource)).bind (fun r => .val r.handled')
      | h => other.run h a i }

/-- What the loop over the inputs leaves, src/client/create_srcml.cpp:324-339. -/
structure InputsRun (D : Type) where
  requests : List (Work D) := []
  status : Int := 0
  archive : Archive
  errors : Nat := 0
  always : Bool := false
  exited : Bool := false

/-- The loop over the inputs, src/client/create_srcml.cpp:324-339: it ends after an input that failed. -/
def handleInputs {D : Type} (h : Handlers D) (a : Archive) (status : Int) : List InputSrc → Run (InputsRun D)
  | [] => .val { status := status, archive := a }
  | i :: is =>
    (dispatchInput h a i).bind (fun r => (runCalls (if r.full then { a with options := a.options ||| OPTION_ARCHIVE } else a) r.calls).bind (fun a =>
      let list := decide (i.protocol = "filelist".toList)
      let status := if r.handled = 0 then 1 else status
      if r.exited then .val { requests := r.requests, archive := a, errors := r.errors, exited := true }
      else if r.handled = -1 then .val { requests := r.requests, status := -1, archive := a, errors := r.errors, always := list }
      else (handleInputs h a status is).bind (fun rest => .val { rest with requests := r.requests ++ rest.requests, errors := r.errors + rest.errors, always := list || rest.always })))

/-- `srcml_archive_free`, src/libsrcml/srcml_archive.cpp:108-133: the translator ends the document (src/parser/srcMLOutput.cpp:114-139), without the separator and without writing anything if nothing
was written. -/
def ArchiveIO.free (s : ArchiveIO) : ArchiveIO :=
  match s.translator with
  | none => { s with mode := .invalid }
  | some t => if s.attached then { s with translator := none, attached := false, kept := t.out.close.w.out, mode := .invalid } else { s with translator := none, mode := .invalid }

/-- Where the output goes, src/client/create_srcml.cpp:114-127: a descriptor or a file. -/
inductive Destination where
  | fd
  | file (opened : Bool)
  deriving DecidableEq, Repr

/-- Can the output be opened, src/client/create_srcml.cpp:116-124? -/
def Destination.opened : Destination → Bool
  | .fd => true
  | .file b => b

/-- What is left at the end: the output, whether all of it reached its destination (`cut`: what libxml2 had not yet written when the descriptor was closed is lost), the files of single units, and the
messages, src/client/create_srcml.cpp:341-364. -/
structure CommandEnd where
  output : Str := []
  cut : Bool := false
  files : List (Str × ArchiveIO) := []
  messages : List Str := []
  exited : Bool := false

/-- The end of `create_srcml`, src/client/create_srcml.cpp:341-364: the archive is closed if there was no warning or error and no input failed, or if there is a list of files. Then the descriptor is
closed, and after that the archive is freed. -/
def finishCommand (dest : Destination) (always : Bool) (status : Int) (errors : Nat) (o : OutState) : Run CommandEnd :=
  if (if errors > 0 then -1 else status) ≠ -1 ∨ always = true then
    o.main.close.bind (fun s => .val { output := s.kept, files := o.files, messages := o.messages })
  else .val { output := o.main.free.kept, cut := decide (dest = .fd), files := o.files, messages := o.messages }

/-- `create_srcml`, src/client/create_srcml.cpp:103-365, for requests that are written in order (C39); without the parser test and `--cat-xml`. The transformations are in `env`. Every message of the
writer is a warning or an error (src/client/srcml_write.cpp:57, 207, 236-240). `none` for the archive of the units: it is the output archive.
All inputs are handled before the first unit is written. In the program the writer may be faster; this makes a difference only if a later input changes the output archive, which a srcML document does (see
`C80_finding_late_namespace`). -/
def create_srcml {D : Type} (opts : CmdOptions) (req : CreateReq) (env : ParseEnv D) (num : NumberText D) (zero : D) (opened : Str → Bool) (h : Handlers D) (thread : ThreadState) (dest : Destination)
    (inputs : List InputSrc) : Run CommandEnd :=
  (createArchive req inputs).bind (fun a => match a with
    | none => .val { exited := true }
    | some a =>
      (handleInputs h a 0 inputs).bind (fun r =>
        if r.exited then .val { exited := true }
        else
          (consumeAll env r.requests).bind (fun ws =>
            if ws.any (·.exits) then .val { exited := true }
            else
            let main : ArchiveIO := { settings := r.archive, thread := thread }
            let main := if opts.noarchive then main else (main.openWrite true (.other dest.opened)).2
            (writeAll opts num zero opened none { main := main } ws).bind (fun o =>
              finishCommand dest r.always r.status (r.errors + o.messages.length) o))))

end Srcml
