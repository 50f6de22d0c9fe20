import Verif.Model.Language
/-
The configuration of an archive: options, namespaces, macros, the remaining set-up functions,
cloning, and the transformations attached to an archive.

Option words are 64-bit vectors (`OPTION_TYPE` is unsigned long long and `size_t` is taken to have
64 bits). Memory is modelled where sharing matters: archives and transformations live in a `World`
and are referred to by address, because `srcml_archive_clone` copies `std::shared_ptr`s.
-/
namespace Srcml

/-! ### Options -/

/-- `OPTION_TYPE`, src/libsrcml/srcml_types.hpp:69-79. -/
abbrev Opts := BitVec 64

/-- src/libsrcml/srcml.h:107 -/
def OPTION_NO_XML_DECL : Opts := 1#64 <<< 1
/-- src/libsrcml/srcml.h:109 -/
def OPTION_POSITION : Opts := 1#64 <<< 2
/-- src/libsrcml/srcml.h:111 -/
def OPTION_CPP : Opts := 1#64 <<< 3
/-- src/libsrcml/srcml.h:113 -/
def OPTION_CPP_TEXT_ELSE : Opts := 1#64 <<< 4
/-- src/libsrcml/srcml.h:115 -/
def OPTION_CPP_MARKUP_IF0 : Opts := 1#64 <<< 5
/-- src/libsrcml/srcml.h:117 -/
def OPTION_STORE_ENCODING : Opts := 1#64 <<< 6
/-- src/libsrcml/srcml_types.hpp:40 -/
def OPTION_NAMESPACE_DECL : Opts := 1#64 <<< 8
/-- src/libsrcml/srcml_types.hpp:46 -/
def OPTION_DEBUG : Opts := 1#64 <<< 11
/-- src/libsrcml/srcml_types.hpp:50 -/
def OPTION_CPP_DECLARED : Opts := 1#64 <<< 13
/-- src/libsrcml/srcml_types.hpp:52 -/
def OPTION_ARCHIVE : Opts := 1#64 <<< 14
/-- src/libsrcml/srcml_types.hpp:54 -/
def OPTION_HASH : Opts := 1#64 <<< 15

/-- `SRCML_OPTION_DEFAULT_INTERNAL`, src/libsrcml/srcml_types.hpp:57. -/
def OPTION_DEFAULT_INTERNAL : Opts := OPTION_ARCHIVE ||| OPTION_HASH ||| OPTION_NAMESPACE_DECL

/-- `options % (1<<7)`, the public part of an option word, src/libsrcml/srcml_archive.cpp:292,386,408,657. -/
def publicPart (o : Opts) : Opts := o % (1#64 <<< 7)

/-- `if (options & SRCML_OPTION_CPP) archive->options |= SRCML_OPTION_CPP_DECLARED`,
src/libsrcml/srcml_archive.cpp:288-290 and 382-384. -/
def markCppDeclared (o arg : Opts) : Opts :=
  if arg &&& OPTION_CPP ≠ 0 then o ||| OPTION_CPP_DECLARED else o

/-- `srcml_archive_set_options`, src/libsrcml/srcml_archive.cpp:282-297: the mark set first is
overwritten by the assignment. -/
def setOptionsWord (o arg : Opts) : Opts :=
  let _marked := markCppDeclared o arg
  publicPart arg

/-- `srcml_archive_enable_option`, src/libsrcml/srcml_archive.cpp:376-391. -/
def enableOptionWord (o arg : Opts) : Opts := markCppDeclared o arg ||| publicPart arg

/-- `srcml_archive_disable_option`, src/libsrcml/srcml_archive.cpp:403-413. -/
def disableOptionWord (o arg : Opts) : Opts := o &&& ~~~(publicPart arg)

/-! ### Namespaces -/

/-- `Namespace`, src/libsrcml/srcmlns.hpp:46-51. The flags are the NS_* bits of lines 38-44. -/
structure Namespace where
  prefix_ : Str
  uri : Str
  flags : Nat
  deriving DecidableEq, Repr

/-- src/libsrcml/srcmlns.hpp:39 -/
def NS_REQUIRED : Nat := 1
/-- src/libsrcml/srcmlns.hpp:40 -/
def NS_ROOT : Nat := 2
/-- src/libsrcml/srcmlns.hpp:41 -/
def NS_USED : Nat := 4
/-- src/libsrcml/srcmlns.hpp:42 -/
def NS_REGISTERED : Nat := 8
/-- src/libsrcml/srcmlns.hpp:43 -/
def NS_STANDARD : Nat := 16

/-- src/libsrcml/srcmlns.hpp:88 -/
def SRC_NS_URI : Str := "http://www.srcML.org/srcML/src".toList
/-- src/libsrcml/srcmlns.hpp:93 -/
def CPP_NS_URI : Str := "http://www.srcML.org/srcML/cpp".toList
/-- src/libsrcml/srcmlns.hpp:98 -/
def ERROR_NS_URI : Str := "http://www.srcML.org/srcML/error".toList
/-- src/libsrcml/srcmlns.hpp:103 -/
def POSITION_NS_URI : Str := "http://www.srcML.org/srcML/position".toList
/-- src/libsrcml/srcmlns.hpp:108 -/
def OPENMP_NS_URI : Str := "http://www.srcML.org/srcML/openmp".toList
/-- src/libsrcml/srcmlns.hpp:113 -/
def DIFF_NS_URI : Str := "http://www.srcML.org/srcDiff".toList

/-- `default_namespaces`, src/libsrcml/srcmlns.hpp:118-124. -/
def defaultNamespaces : List Namespace :=
  [⟨[], SRC_NS_URI, NS_STANDARD ||| NS_REQUIRED⟩,
   ⟨"cpp".toList, CPP_NS_URI, NS_STANDARD⟩,
   ⟨"err".toList, ERROR_NS_URI, NS_STANDARD ||| NS_ROOT⟩,
   ⟨"pos".toList, POSITION_NS_URI, NS_STANDARD ||| NS_ROOT⟩,
   ⟨"omp".toList, OPENMP_NS_URI, NS_STANDARD⟩]

/-- `starting_namespaces`, src/libsrcml/srcmlns.hpp:126-128. -/
def startingNamespaces : List Namespace := [⟨[], SRC_NS_URI, NS_STANDARD ||| NS_REQUIRED⟩]

/-- `namespaces.get<nstags::uri>().find(uri)`, src/libsrcml/srcmlns.hpp:61-78. The index is
`hashed_non_unique`; `C21_uris_unique` shows that at most one entry has the uri, so taking the first
is no restriction. -/
def findUri (ns : List Namespace) (uri : Str) : Option Namespace := ns.find? (fun n => n.uri = uri)

/-- `view.modify(it, ...)` for the iterator that `find(uri)` returned: the first entry with the uri is
replaced in place, src/libsrcml/srcml_archive.cpp:475, src/libsrcml/srcmlns.cpp:43. -/
def modifyUri (ns : List Namespace) (uri : Str) (f : Namespace → Namespace) : List Namespace :=
  match ns with
  | [] => []
  | n :: rest => if n.uri = uri then f n :: rest else n :: modifyUri rest uri f

/-- The namespace table part of `srcml_archive_register_namespace`,
src/libsrcml/srcml_archive.cpp:470-479. -/
def registerNs (ns : List Namespace) (pre uri : Str) : List Namespace :=
  match findUri ns uri with
  | some _ => modifyUri ns uri (fun n => { n with prefix_ := pre })
  | none => ns ++ [⟨pre, uri, NS_REGISTERED⟩]

/-- The option part of `srcml_archive_register_namespace`, src/libsrcml/srcml_archive.cpp:481-490. -/
def registerNsOptions (o : Opts) (uri : Str) : Opts :=
  if uri = CPP_NS_URI then (o ||| OPTION_CPP) ||| OPTION_CPP_DECLARED
  else if uri = ERROR_NS_URI then o ||| OPTION_DEBUG
  else if uri = POSITION_NS_URI then o ||| OPTION_POSITION
  else o

/-- One round of the loop of `operator+=`, src/libsrcml/srcmlns.cpp:33-50. -/
def mergeOne (namespaces : List Namespace) (ns : Namespace) : List Namespace :=
  match findUri namespaces ns.uri with
  | some it =>
    let update := match findUri defaultNamespaces ns.uri with
      | none => true
      | some d => decide (it.prefix_ = d.prefix_)
    if update then
      modifyUri namespaces ns.uri (fun t => { t with prefix_ := ns.prefix_, flags := t.flags ||| ns.flags })
    else namespaces
  | none => namespaces ++ [⟨ns.prefix_, ns.uri, ns.flags⟩]

/-- `operator+=(Namespaces&, const Namespaces&)`, src/libsrcml/srcmlns.cpp:29-54. -/
def mergeNamespaces (namespaces otherns : List Namespace) : List Namespace :=
  otherns.foldl mergeOne namespaces

/-- `issrcdiff`, src/libsrcml/srcmlns.cpp:106-109. -/
def issrcdiff (namespaces : List Namespace) : Bool := (findUri namespaces DIFF_NS_URI).isSome

/-- `srcml_uri_normalize`, src/libsrcml/srcmlns.cpp:98-104. -/
def srcmlUriNormalize (uri : Str) : Str :=
  let sdml := "http://www.sdml.info/".toList
  if uri.take sdml.length = sdml then "http://www.srcML.org/".toList ++ uri.drop sdml.length else uri

/-- The suffix computed by each of the two loops of `is_srcml_namespace`,
src/libsrcml/srcmlns.cpp:71-85. -/
def uriSuffix (uri : Str) : Str :=
  let p0 := "http://www.srcML.org/".toList
  let p1 := "http://www.sdml.info/".toList
  if uri.take p0.length = p0 then uri.drop p0.length
  else if uri.take p1.length = p1 then uri.drop p1.length
  else uri

/-- `is_srcml_namespace`, src/libsrcml/srcmlns.cpp:66-88. -/
def isSrcmlNamespace (uri srcmlUri : Str) : Bool :=
  if uri = srcmlUri then true else decide (uriSuffix uri = uriSuffix srcmlUri)

/-! ### The archive -/

/-- `SRCML_ARCHIVE_TYPE`, src/libsrcml/srcml_types.hpp:101. -/
inductive ArchiveType where
  | invalid | rw | read | write
  deriving DecidableEq, Repr

/-- Addresses of objects in the model's memory. For pointers to archives and their transformations, src/libsrcml/srcml_types.hpp:108-171. -/
abbrev Addr := Nat

/-- `srcml_archive`, src/libsrcml/srcml_types.hpp:108-171. Pointers to objects that only the I/O code
uses are opaque addresses; `attributes` is the flat name/value vector. -/
structure Archive where
  type : ArchiveType := .invalid
  encoding : Option Str := none
  srcEncoding : Option Str := none
  revision : Option Str := some "1.0.0".toList
  language : Option Str := none
  url : Option Str := none
  version : Option Str := none
  attributes : List Str := []
  options : Opts := OPTION_DEFAULT_INTERNAL
  tabstop : Nat := 8
  namespaces : List Namespace := startingNamespaces
  processingInstruction : Option (Str × Str) := none
  registeredLanguages : Registry := Registry.create
  userMacroList : List Str := []
  translator : Option Addr := none
  reader : Option Addr := none
  transformations : List Addr := []
  revisionNumber : Option Nat := none
  outputBuffer : Option Addr := none
  xbuffer : Option Addr := none
  buffer : Option Addr := none
  size : Option Addr := none
  rawwrites : Bool := false
  errorString : Str := []
  errorNumber : Nat := 0
  deriving DecidableEq, Repr

/-- `srcml_archive_create`, src/libsrcml/srcml_archive.cpp:62-74 (allocation failure not modelled). -/
def srcml_archive_create : Archive := { registeredLanguages := Registry.create.registerStandard }

/-- `srcml_archive_clone` on a non-null archive, src/libsrcml/srcml_archive.cpp:144-167:
memberwise assignment (the vector of shared pointers is copied, the transformations are not), then
the I/O members and the error are reset. -/
def cloneOf (a : Archive) : Archive :=
  { a with
    type := .invalid, translator := none, reader := none, outputBuffer := none, xbuffer := none,
    buffer := none, size := none, rawwrites := false, errorString := [], errorNumber := 0 }

/-- The public set-up calls on an archive; `none` is a null pointer argument. src/libsrcml/srcml_archive.cpp:184-574. -/
inductive SetCall where
  | setSrcEncoding (s : Option Str)
  | setXmlEncoding (s : Option Str)
  | setLanguage (s : Option Str)
  | setUrl (s : Option Str)
  | setVersion (s : Option Str)
  | setOptions (o : Opts)
  | enableOption (o : Opts)
  | disableOption (o : Opts)
  | enableSolitary
  | disableSolitary
  | enableHash
  | disableHash
  | setTabstop (n : Nat)
  | registerExtension (ext lang : Option Str)
  | registerNamespace (pre uri : Option Str)
  | setProcessingInstruction (target data : Option Str)
  | registerMacro (token type : Option Str)
  | setSrcdiffRevision (n : Nat)
  deriving DecidableEq, Repr

/-- Position of the first even index holding the token, the loop of `srcml_archive_register_macro`,
src/libsrcml/srcml_archive.cpp:540-542 (`size / 2` rounds, `.at` in range). -/
def macroSlot (token : Str) : List Str → Option Nat
  | t :: _ :: rest => if t = token then some 0 else (macroSlot token rest).map (· + 2)
  | _ => none

/-- `srcml_archive_register_macro` after the argument check, src/libsrcml/srcml_archive.cpp:538-553. -/
def macroRegister (l : List Str) (token type : Str) : List Str :=
  match macroSlot token l with
  | some i => l.set (i + 1) type
  | none => l ++ [token] ++ [type]

/-- The set-up functions on a non-null archive, src/libsrcml/srcml_archive.cpp:184-574. A processing
instruction with a null target or data constructs a std::string from a null pointer (line 510):
undefined behaviour. `enable_solitary_unit` clears the archive bit (line 335). -/
def SetCall.run (a : Archive) : SetCall → Run (Status × Archive)
  | .setSrcEncoding s => .val (.ok, { a with srcEncoding := s })
  | .setXmlEncoding s => .val (.ok, { a with encoding := s })
  | .setLanguage s => .val (.ok, { a with language := s })
  | .setUrl s => .val (.ok, { a with url := s })
  | .setVersion s => .val (.ok, { a with version := s })
  | .setOptions o => .val (.ok, { a with options := setOptionsWord a.options o })
  | .enableOption o => .val (.ok, { a with options := enableOptionWord a.options o })
  | .disableOption o => .val (.ok, { a with options := disableOptionWord a.options o })
  | .enableSolitary => .val (.ok, { a with options := a.options &&& ~~~OPTION_ARCHIVE })
  | .disableSolitary => .val (.ok, { a with options := a.options ||| OPTION_ARCHIVE })
  | .enableHash => .val (.ok, { a with options := a.options ||| OPTION_HASH })
  | .disableHash => .val (.ok, { a with options := a.options &&& ~~~OPTION_HASH })
  | .setTabstop n => .val (.ok, { a with tabstop := n })
  | .registerExtension ext lang =>
    match srcml_archive_register_file_extension a.registeredLanguages ext lang with
    | (st, r) => .val (st, { a with registeredLanguages := r })
  | .registerNamespace (some p) (some u) =>
    .val (.ok, { a with namespaces := registerNs a.namespaces p u,
                        options := registerNsOptions a.options u })
  | .registerNamespace _ _ => .val (.invalidArgument, a)
  | .setProcessingInstruction (some t) (some d) =>
    .val (.ok, { a with processingInstruction := some (t, d) })
  | .setProcessingInstruction _ _ => .ub
  | .registerMacro (some t) (some ty) =>
    .val (.ok, { a with userMacroList := macroRegister a.userMacroList t ty })
  | .registerMacro _ _ => .val (.invalidArgument, a)
  | .setSrcdiffRevision n =>
    if n ≠ 0 ∧ n ≠ 1 then .val (.invalidArgument, a)
    else .val (.ok, { a with revisionNumber := some n })

/-- The set-up functions with the null check of the archive: lines 186, 205, ..., 567 of
src/libsrcml/srcml_archive.cpp. src/libsrcml/srcml_archive.cpp:184-574. -/
def SetCall.runPtr (a : Option Archive) (c : SetCall) : Run (Status × Option Archive) :=
  match a with
  | none => .val (.invalidArgument, none)
  | some a =>
    match c.run a with
    | .val (st, a') => .val (st, some a')
    | .ub => .ub

/-- A history of set-up calls. src/libsrcml/srcml_archive.cpp:184-574. -/
def runCalls (a : Archive) : List SetCall → Run Archive
  | [] => .val a
  | c :: cs =>
    match c.run a with
    | .val (_, a') => runCalls a' cs
    | .ub => .ub

/-! Accessors, src/libsrcml/srcml_archive.cpp:588-868 -/

/-- `srcml_archive_get_options`, src/libsrcml/srcml_archive.cpp:655-658. -/
def srcml_archive_get_options (a : Archive) : Opts := publicPart a.options

/-- `srcml_archive_is_solitary_unit`, src/libsrcml/srcml_archive.cpp:302-304 (no null check). -/
def srcml_archive_is_solitary_unit : Option Archive → Run Bool
  | none => .ub
  | some a => .val (decide (a.options &&& OPTION_ARCHIVE = 0))

/-- `srcml_archive_has_hash`, src/libsrcml/srcml_archive.cpp:309-312 (no null check). -/
def srcml_archive_has_hash : Option Archive → Run Bool
  | none => .ub
  | some a => .val (decide (a.options &&& OPTION_HASH ≠ 0))

/-- `srcml_archive_get_namespace_size`, src/libsrcml/srcml_archive.cpp:677-680. -/
def srcml_archive_get_namespace_size (a : Archive) : Nat := a.namespaces.length

/-- `srcml_archive_get_namespace_prefix`, src/libsrcml/srcml_archive.cpp:690-699: the bound check lets
`pos = size` through, and `operator[]` is unchecked. -/
def srcml_archive_get_namespace_prefix (a : Archive) (pos : Nat) : Run (Option Str) :=
  if pos > a.namespaces.length then .val none
  else match a.namespaces[pos]? with
    | some n => .val (some n.prefix_)
    | none => .ub

/-- `srcml_archive_get_namespace_uri`, src/libsrcml/srcml_archive.cpp:728-737. -/
def srcml_archive_get_namespace_uri (a : Archive) (pos : Nat) : Run (Option Str) :=
  if pos ≥ a.namespaces.length then .val none
  else match a.namespaces[pos]? with
    | some n => .val (some n.uri)
    | none => .ub

/-- `srcml_archive_get_prefix_from_uri`, src/libsrcml/srcml_archive.cpp:709-718. -/
def srcml_archive_get_prefix_from_uri (a : Archive) : Option Str → Option Str
  | none => none
  | some uri => (findUri a.namespaces uri).map (·.prefix_)

/-- A choice among the entries with equal prefix: `find` on the `hashed_non_unique` prefix index
returns some entry with that key. src/libsrcml/srcml_archive.cpp:753. -/
structure Pick where
  pick : List Namespace → Option Namespace
  sound : ∀ l n, pick l = some n → n ∈ l
  total : ∀ l, l ≠ [] → (pick l).isSome

/-- `srcml_archive_get_uri_from_prefix`, src/libsrcml/srcml_archive.cpp:747-756. -/
def srcml_archive_get_uri_from_prefix (pk : Pick) (a : Archive) : Option Str → Option Str
  | none => none
  | some pre => (pk.pick (a.namespaces.filter (fun n => n.prefix_ = pre))).map (·.uri)

/-- `srcml_archive_get_macro_list_size`, src/libsrcml/srcml_archive.cpp:786-789. -/
def srcml_archive_get_macro_list_size (a : Archive) : Nat := a.userMacroList.length / 2

/-- `srcml_archive_get_macro_token`, src/libsrcml/srcml_archive.cpp:799-808; `pos * 2` is computed in
64 bits. -/
def srcml_archive_get_macro_token (a : Archive) (pos : BitVec 64) : Run (Option Str) :=
  if (pos * 2#64).toNat ≥ a.userMacroList.length then .val none
  else match a.userMacroList[(pos * 2#64).toNat]? with
    | some s => .val (some s)
    | none => .ub

/-- `srcml_archive_get_macro_type`, src/libsrcml/srcml_archive.cpp:843-852. -/
def srcml_archive_get_macro_type (a : Archive) (pos : BitVec 64) : Run (Option Str) :=
  if (pos * 2#64 + 1#64).toNat ≥ a.userMacroList.length then .val none
  else match a.userMacroList[(pos * 2#64 + 1#64).toNat]? with
    | some s => .val (some s)
    | none => .ub

/-- The loop of `srcml_archive_get_macro_token_type` from an even index on,
src/libsrcml/srcml_archive.cpp:825-830: its condition never becomes false, it ends by finding the
token or by the exception of `.at`, which is swallowed. `l` is the rest of the vector. -/
def macroTokenType (token : Str) : List Str → Option Str
  | t :: rest => if t = token then rest.head? else macroTokenType token rest.tail
  | [] => none
termination_by l => l.length
decreasing_by simp; omega

/-- `srcml_archive_get_macro_token_type`, src/libsrcml/srcml_archive.cpp:818-833: the loop is entered
only if the list has at least one pair. -/
def srcml_archive_get_macro_token_type (a : Archive) : Option Str → Option Str
  | none => none
  | some token => if a.userMacroList.length / 2 = 0 then none else macroTokenType token a.userMacroList

/-- `srcml_archive_get_srcdiff_revision`, src/libsrcml/srcml_archive.cpp:862-868;
SRCDIFF_REVISION_INVALID is 2 (src/libsrcml/srcml.h:1628). -/
def srcml_archive_get_srcdiff_revision (a : Archive) : Nat := a.revisionNumber.getD 2

/-! ### Transformations attached to archives -/

/-- A `Transformation` object, src/libsrcml/Transformation.hpp:52-68: an XPath with its optional
element and attribute, an XSLT program or a RelaxNG schema, and the parameter vector. -/
inductive TransformKind where
  | xpath (xpath : Str) (element : Str × Str × Str) (attr : Str × Str × Str × Str)
  | xslt (doc : Str)
  | relaxng (doc : Str)
  deriving DecidableEq, Repr

/-- src/libsrcml/Transformation.hpp:52-68 -/
structure Transformation where
  kind : TransformKind
  params : List Str := []
  deriving DecidableEq, Repr

/-- Memory: the archives and the transformations that exist, by address. src/libsrcml/srcml_types.hpp:108-171. -/
structure World where
  archives : List Archive := []
  transforms : List Transformation := []
  deriving DecidableEq, Repr

/-- `archive->transformations.push_back(new ...)`, src/libsrcml/srcml_transform.cpp:86,194,305. -/
def World.pushTransform (w : World) (i : Addr) (t : Transformation) : World :=
  match w.archives[i]? with
  | none => w
  | some a =>
    { archives := w.archives.set i { a with transformations := a.transformations ++ [w.transforms.length] }
      transforms := w.transforms ++ [t] }

/-- `srcml_append_transform_xpath`, src/libsrcml/srcml_transform.cpp:102-108; null element and
attribute arguments are stored as empty strings (src/libsrcml/xpathTransformation.cpp:46-66). -/
def World.appendXPath (w : World) (i : Addr) (xpath : Option Str) : Status × World :=
  match xpath with
  | none => (.invalidArgument, w)
  | some x => (.ok, w.pushTransform i ⟨.xpath x ([], [], []) ([], [], [], []), []⟩)

/-- `srcml_append_transform_xpath_attribute`, src/libsrcml/srcml_transform.cpp:126-150. -/
def World.appendXPathAttribute (w : World) (i : Addr) (xpath pre uri name value : Option Str) :
    Status × World :=
  match xpath, pre, uri, name, value with
  | some x, some p, some u, some n, some v =>
    match w.archives[i]? with
    | none => (.ok, w)
    | some a =>
      match a.transformations.getLast?.bind (fun t => (w.transforms[t]?).map (fun o => (t, o))) with
      | some (t, ⟨.xpath x' e ([], [], [], []), ps⟩) =>
        if x' = x then (.ok, { w with transforms := w.transforms.set t ⟨.xpath x' e (p, u, n, v), ps⟩ })
        else (.ok, w.pushTransform i ⟨.xpath x ([], [], []) (p, u, n, v), []⟩)
      | _ => (.ok, w.pushTransform i ⟨.xpath x ([], [], []) (p, u, n, v), []⟩)
  | _, _, _, _, _ => (.invalidArgument, w)

/-- `srcml_append_transform_xpath_element`, src/libsrcml/srcml_transform.cpp:167-176. -/
def World.appendXPathElement (w : World) (i : Addr) (xpath pre uri element : Option Str) :
    Status × World :=
  match xpath, pre, uri, element with
  | some x, some p, some u, some e =>
    (.ok, w.pushTransform i ⟨.xpath x (p, u, e) ([], [], [], []), []⟩)
  | _, _, _, _ => (.invalidArgument, w)

/-- `srcml_append_transform_xslt_*` and `_relaxng_*`, src/libsrcml/srcml_transform.cpp:189-398: `doc`
is the parsed document, `none` when the argument is null or the document cannot be read. -/
def World.appendDoc (w : World) (i : Addr) (xslt : Bool) (doc : Option Str) : Status × World :=
  match doc with
  | none => (.invalidArgument, w)
  | some d => (.ok, w.pushTransform i ⟨if xslt then .xslt d else .relaxng d, []⟩)

/-- `srcml_append_transform_param` / `_stringparam` on a non-null archive,
src/libsrcml/srcml_transform.cpp:410-449. -/
def World.appendParam (w : World) (i : Addr) (quoted : Bool) (name value : Option Str) :
    Status × World :=
  match name, value with
  | some n, some v =>
    match w.archives[i]? with
    | none => (.invalidArgument, w)
    | some a =>
      match a.transformations.getLast? with
      | none => (.noTransformation, w)
      | some t =>
        (.ok, { w with transforms := w.transforms.modify t (fun o =>
          { o with params := o.params ++ [n] ++ [if quoted then '"' :: v ++ ['"'] else v] }) })
  | _, _ => (.invalidArgument, w)

/-- `srcml_clear_transforms`, src/libsrcml/srcml_transform.cpp:459-468. -/
def World.clearTransforms (w : World) (i : Addr) : Status × World :=
  match w.archives[i]? with
  | none => (.invalidArgument, w)
  | some a => (.ok, { w with archives := w.archives.set i { a with transformations := [] } })

/-- `srcml_archive_clone`, src/libsrcml/srcml_archive.cpp:144-167: the new archive's address, if any. -/
def World.clone (w : World) (i : Option Addr) : World × Option Addr :=
  match i.bind (fun i => w.archives[i]?) with
  | none => (w, none)
  | some a => ({ w with archives := w.archives ++ [cloneOf a] }, some w.archives.length)

/-- A set-up call on the archive at an address; `none` when undefined. src/libsrcml/srcml_archive.cpp:184-574. -/
def World.setup (w : World) (i : Addr) (c : SetCall) : Run (Status × World) :=
  match w.archives[i]? with
  | none => .val (.invalidArgument, w)
  | some a =>
    match c.run a with
    | .val (st, a') => .val (st, { w with archives := w.archives.set i a' })
    | .ub => .ub

/-- The transformations an archive will apply, in order: what its pointers point to. src/libsrcml/srcml_types.hpp:108-171. -/
def World.transformsOf (w : World) (i : Addr) : List Transformation :=
  match w.archives[i]? with
  | none => []
  | some a => a.transformations.filterMap (fun t => w.transforms[t]?)

end Srcml
