import Verif.Model.UnitApi
import Verif.Model.ReadAttrs
/-
Transformations: the history of append, parameter and clear calls on an archive, their application to a unit, and the
accessors of the result.
-/
namespace Srcml

/-- The calls that change the transformations of an archive, src/libsrcml/srcml_transform.cpp:102-468; `none` is a
null argument (for documents also one that cannot be read). -/
inductive TCall where
  | xpath (xpath : Option Str)
  | xpathAttribute (xpath pre uri name value : Option Str)
  | xpathElement (xpath pre uri element : Option Str)
  | doc (xslt : Bool) (doc : Option Str)
  | param (quoted : Bool) (name value : Option Str)
  | clear
  deriving DecidableEq, Repr

/-- One call on the archive at an address: the functions of src/libsrcml/srcml_transform.cpp:102-468, as modelled
one by one in Model/Archive.lean. -/
def TCall.run (w : World) (i : Addr) : TCall → Status × World
  | .xpath x => w.appendXPath i x
  | .xpathAttribute x p u n v => w.appendXPathAttribute i x p u n v
  | .xpathElement x p u e => w.appendXPathElement i x p u e
  | .doc xslt d => w.appendDoc i xslt d
  | .param q n v => w.appendParam i q n v
  | .clear => w.clearTransforms i

/-- A history of calls on one archive: the statuses and the memory afterwards. src/libsrcml/srcml_transform.cpp:102-468. -/
def runTCalls (w : World) (i : Addr) : List TCall → List Status × World
  | [] => ([], w)
  | c :: cs => ((c.run w i).1 :: (runTCalls (c.run w i).2 i cs).1, (runTCalls (c.run w i).2 i cs).2)

/-! ### Application -/

/-- `SRCML_RESULT_NONE`, src/libsrcml/srcml.h:1186. -/
def RESULT_NONE : Nat := 0
/-- `SRCML_RESULT_UNITS`, src/libsrcml/srcml.h:1187. -/
def RESULT_UNITS : Nat := 1
/-- `SRCML_RESULT_BOOLEAN`, src/libsrcml/srcml.h:1188. -/
def RESULT_BOOLEAN : Nat := 2
/-- `SRCML_RESULT_NUMBER`, src/libsrcml/srcml.h:1189. -/
def RESULT_NUMBER : Nat := 3
/-- `SRCML_RESULT_STRING`, src/libsrcml/srcml.h:1190. -/
def RESULT_STRING : Nat := 4

/-- A node of the XML library, as far as the results are concerned: comments, texts and attributes are written by
hand, everything else is dumped; the flags say whether names of the cpp and omp namespaces occur in it
(src/libsrcml/srcml_transform.cpp:644-702). An attribute with an empty value has no child node (`none`). -/
inductive NodeView where
  | comment (content : Str)
  | text (content : Str)
  | attribute (name : Str) (value : Option Str)
  | element (dump : Str) (usesCpp usesOmp : Bool)
  deriving DecidableEq, Repr

/-- `TransformationResult`, src/libsrcml/Transformation.hpp:35-45, for nodes of type `N` and numbers of type `D`.
The document is not modelled: nodes are values, and setting the root of a document does not change other nodes. -/
structure TResult (N D : Type) where
  nodeType : Nat := RESULT_NONE
  nodeset : Option (List N) := none
  number : D
  bool : Bool := false
  string : Str := []
  unitWrapped : Bool := false

/-- `xmlXPathNodeSetMerge`: the nodes of the second set that are not in the first are appended (libxml2; used in
src/libsrcml/srcml_transform.cpp:556). -/
def mergeNodes {N : Type} [DecidableEq N] (l r : List N) : List N := l ++ r.filter (fun n => n ∉ l)

/-- The inner loop of `srcml_unit_apply_transforms`, src/libsrcml/srcml_transform.cpp:547-557: one transformation on
the results of the previous one; a missing node set ends the loop. -/
def applyNodes {N D : Type} [DecidableEq N] (f : N → TResult N D) (full : List N) (last : TResult N D) :
    List N → List N × TResult N D
  | [] => (full, last)
  | n :: ns =>
    match (f n).nodeset with
    | none => (full, f n)
    | some l => applyNodes f (mergeNodes full l) (f n) ns

/-- The outer loop, src/libsrcml/srcml_transform.cpp:538-575; the flag says that it was left because there were no
results. -/
def applyAll {N D : Type} [DecidableEq N] (full : List N) (last : TResult N D) :
    List (N → TResult N D) → List N × TResult N D × Bool
  | [] => (full, last, false)
  | f :: fs =>
    if (applyNodes f [] last full).1 = [] then ([], (applyNodes f [] last full).2, true)
    else applyAll (applyNodes f [] last full).1 (applyNodes f [] last full).2 fs

/-- `srcml_transform_result`, src/libsrcml/srcml_transform.cpp:50-61. -/
structure TransformResult (D : Type) where
  type : Nat := RESULT_NONE
  units : List UnitData := []
  bool : Option Int := none
  number : Option D := none
  string : Option Str := none

/-- Clearing the mark of use of a namespace, src/libsrcml/srcml_transform.cpp:633-642. -/
def clearUsed (ns : List Namespace) (uri : Str) : List Namespace :=
  modifyUri ns uri (fun n => { n with flags := n.flags - (n.flags &&& NS_USED) })

/-- Marking a namespace that is used in a result, src/libsrcml/srcml_transform.cpp:682-700. -/
def markResultUsed (ns : List Namespace) (pre uri : Str) : List Namespace :=
  match findUri ns uri with
  | some _ => modifyUri ns uri (fun n => { n with flags := n.flags ||| NS_USED })
  | none => ns ++ [⟨pre, uri, NS_USED ||| NS_STANDARD⟩]

/-- The text of a result node, src/libsrcml/srcml_transform.cpp:644-680; `none`: the null pointer `children` of an
attribute with an empty value is dereferenced (line 662). -/
def NodeView.srcml : NodeView → Option Str
  | .comment c => some ("<!--".toList ++ c ++ "-->".toList)
  | .text c => some c
  | .attribute n (some v) => some (n ++ "=\"".toList ++ v ++ "\"".toList)
  | .attribute _ none => none
  | .element d _ _ => some d

/-- The namespaces of a result unit, src/libsrcml/srcml_transform.cpp:629-642 and 682-700. -/
def resultNamespaces (ns : Option (List Namespace)) (v : NodeView) : List Namespace :=
  let ns := clearUsed (clearUsed (ns.getD startingNamespaces) CPP_NS_URI) OPENMP_NS_URI
  match v with
  | .element _ cpp omp =>
    let ns := if cpp then markResultUsed ns "cpp".toList CPP_NS_URI else ns
    if omp then markResultUsed ns "omp".toList OPENMP_NS_URI else ns
  | _ => ns

/-- The start tag of a wrapped result, made an empty element, src/libsrcml/srcml_transform.cpp:730-735: undefined
(`back()` of an empty string) if there is nothing before the first `>`. -/
def resultStartTag (srcml : Str) : Option Str :=
  let t := match findFirst '>' srcml with
    | some p => srcml.take p
    | none => srcml
  match t.getLast? with
  | none => none
  | some c => some ((if c = '/' then t else t ++ ['/']) ++ ['>'])

/-- A unit for a result node, src/libsrcml/srcml_transform.cpp:620-755; `attrsOf` is the XML library reading the
attributes of a start tag. -/
def resultUnit (attrsOf : Str → List (Str × Str)) (u : UnitData) (wrapped : Bool) (i : Nat) (v : NodeView) :
    Run UnitData :=
  match srcml_unit_clone (some u), v.srcml with
  | some c, some text =>
    let n : UnitData := { c with
      readBody := true, readHeader := true
      attributes := if wrapped then c.attributes else c.attributes ++ ["item".toList, (toString (i + 1)).toList]
      hash := if wrapped then c.hash else none
      namespaces := some (resultNamespaces c.namespaces v)
      srcml := text
      contentBegin := if wrapped then ((findFirst '>' text).map (· + 1)).getD 0 else 0
      contentEnd := if wrapped then ((findLast '<' text).map (· + 1)).getD 0 else text.length + 1
      insertBegin := 0, insertEnd := 0 }
    if wrapped then
      match resultStartTag text with
      | none => .ub
      | some tag => .val (unit_update_attributes n (attrsOf tag))
    else .val n
  | _, _ => .ub

/-- The loop that makes the units, src/libsrcml/srcml_transform.cpp:618-755. -/
def resultUnits (attrsOf : Str → List (Str × Str)) (u : UnitData) (wrapped : Bool) (i : Nat) :
    List NodeView → Run (List UnitData)
  | [] => .val []
  | v :: vs =>
    match resultUnit attrsOf u wrapped i v with
    | .ub => .ub
    | .val x =>
      match resultUnits attrsOf u wrapped (i + 1) vs with
      | .ub => .ub
      | .val xs => .val (x :: xs)

/-- `srcml_unit_apply_transforms` on a non-null archive and unit, src/libsrcml/srcml_transform.cpp:507-763. `fs` are the
transformations of the archive as functions of the current root, `parse` reads the srcML of the unit, `want` says that
the address of a result was given; the second component is what was stored there (`none`: nothing). Without it, an
empty intermediate result dereferences null (line 571). -/
def applyTransforms {N D : Type} [DecidableEq N] (zero : D) (parse : Str → Option N) (view : N → NodeView)
    (attrsOf : Str → List (Str × Str)) (fs : List (N → TResult N D)) (u : UnitData) (want : Bool) :
    Run (Status × Option (TransformResult D)) :=
  if fs.isEmpty then .val (.ok, none)
  else
    let blank : TransformResult D := { bool := some 0 }
    match parse u.srcml with
    | none => .val (.error, if want then some blank else none)
    | some root =>
      let (full, last, emptied) := applyAll [root] ({ number := zero } : TResult N D) fs
      if emptied ∧ want = false then .ub
      else
        let full := if last.nodeType ≠ RESULT_UNITS then [] else full
        let r := { blank with type := last.nodeType }
        if last.nodeType = RESULT_STRING then
          .val (if want then (.ok, some { r with string := some last.string }) else (.error, none))
        else if last.nodeType = RESULT_BOOLEAN then
          .val (if want then (.ok, some { r with bool := some (if last.bool then 1 else 0) }) else (.error, none))
        else if last.nodeType = RESULT_NUMBER then
          .val (if want then (.ok, some { r with number := some last.number }) else (.error, none))
        else if want = false then .val (.ok, none)
        else
          match resultUnits attrsOf u last.unitWrapped 0 (full.map view) with
          | .ub => .ub
          | .val us => .val (.ok, some { r with units := us })

/-! ### Accessors of the result -/

/-- `srcml_transform_get_type`, src/libsrcml/srcml_transform.cpp:785-788. None of the accessors checks for null. -/
def srcml_transform_get_type {D : Type} : Option (TransformResult D) → Run Nat
  | none => .ub
  | some r => .val r.type

/-- `srcml_transform_get_unit_size`, src/libsrcml/srcml_transform.cpp:794-801. -/
def srcml_transform_get_unit_size {D : Type} : Option (TransformResult D) → Run Nat
  | none => .ub
  | some r => .val (if r.type ≠ RESULT_UNITS then 0 else r.units.length)

/-- `srcml_transform_get_unit`, src/libsrcml/srcml_transform.cpp:808-818: a negative index is not refused. -/
def srcml_transform_get_unit {D : Type} (index : Int) : Option (TransformResult D) → Run (Option UnitData)
  | none => .ub
  | some r =>
    if r.type ≠ RESULT_UNITS then .val none
    else if index ≥ r.units.length then .val none
    else if index < 0 then .ub
    else .val r.units[index.toNat]?

/-- `srcml_transform_get_string`, src/libsrcml/srcml_transform.cpp:824-834. -/
def srcml_transform_get_string {D : Type} : Option (TransformResult D) → Run (Option Str)
  | none => .ub
  | some r => .val (if r.type ≠ RESULT_STRING then none else r.string)

/-- `srcml_transform_get_number`, src/libsrcml/srcml_transform.cpp:840-850. -/
def srcml_transform_get_number {D : Type} (zero : D) : Option (TransformResult D) → Run D
  | none => .ub
  | some r => .val (if r.type ≠ RESULT_NUMBER then zero else r.number.getD zero)

/-- `srcml_transform_get_bool`, src/libsrcml/srcml_transform.cpp:856-866. -/
def srcml_transform_get_bool {D : Type} : Option (TransformResult D) → Run Int
  | none => .ub
  | some r => .val (if r.type ≠ RESULT_BOOLEAN then -1 else r.bool.getD (-1))

end Srcml
