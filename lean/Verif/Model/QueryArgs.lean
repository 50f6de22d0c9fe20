import Verif.Model.InputName
import Verif.Model.Create
import Verif.Model.Transform
/-
Queries and transformations on the command line.
-/
namespace Srcml

/-- An option for a query or a transformation and its value, src/client/srcml_cli.cpp:455-570. A list of them is in the order in which CLI11 calls the functions for them (CLI11 is not in /repo; it may
differ from the order on the command line). An input file with the extension `.xsl` or `.rng` is as an option (148-158). -/
inductive TransArg where
  | xpath (value : Str)
  | attribute (value : Str)
  | element (value : Str)
  | xslt (value : Str)
  | xsltParam (value : Str)
  | relaxng (value : Str)
  deriving DecidableEq, Repr

/-- An element: prefix and name, src/client/srcml_cli.hpp:109-112. -/
abbrev MarkElement := Str × Str
/-- An attribute: prefix, name and value, src/client/srcml_cli.hpp:103-107. -/
abbrev MarkAttribute := Str × Str × Str

/-- The members `transformations` and `xpath_query_support` of the request, src/client/srcml_cli.hpp:155-156. -/
structure TransReq where
  transformations : List Str := []
  support : List (Option MarkElement × Option MarkAttribute) := []
  deriving DecidableEq, Repr

/-- The value of an attribute, src/client/srcml_cli.cpp:507-519: a quote at the start and one at the end are left out. -/
def markValue (value : Str) (equals : Nat) : Str :=
  let start := equals + 1
  let start := if value[start]? = some '\'' ∨ value[start]? = some '"' then start + 1 else start
  let size := value.length - start
  let size := if value.getLast? = some '\'' ∨ value.getLast? = some '"' then size - 1 else size
  (value.drop start).take size

/-- The function for `--attribute`, src/client/srcml_cli.cpp:470-522; `none`: the program is left with a message. When the colon is behind the equals sign the size of the name is negative, and so
the name is all of the rest. When there is nothing behind a quote, the size in `markValue` wraps around, and there is nothing either. -/
def attributeArg (last : Option MarkElement) (value : Str) : Option MarkAttribute :=
  match findFirst '=' value with
  | none => none
  | some equals =>
    match findFirst ':' value with
    | some colon => some (value.take colon, if equals > colon then (value.drop (colon + 1)).take (equals - colon - 1) else value.drop (colon + 1), markValue value equals)
    | none => last.map (fun e => (e.1, value.take equals, markValue value equals))

/-- The function for `--element`, src/client/srcml_cli.cpp:529-544. -/
def elementArg (value : Str) : Option MarkElement :=
  (findFirst ':' value).map (fun colon => (value.take colon, value.drop (colon + 1)))

/-- The functions for the options, src/client/srcml_cli.cpp:460-570; `none`: the program is left with a message. -/
def TransArg.run (r : TransReq) : TransArg → Option TransReq
  | .xpath v => some { transformations := r.transformations ++ [src_prefix_add_uri2 "xpath".toList v], support := r.support ++ [(none, none)] }
  | .attribute v => match r.support.getLast? with
    | none => none
    | some (e, _) => (attributeArg e v).map (fun a => { r with support := r.support.dropLast ++ [(e, some a)] })
  | .element v => match r.support.getLast? with
    | none => none
    | some (_, a) => (elementArg v).map (fun e => { r with support := r.support.dropLast ++ [(some e, a)] })
  | .xslt v => some { r with transformations := r.transformations ++ [src_prefix_add_uri2 "xslt".toList v] }
  | .xsltParam v => some { r with transformations := r.transformations ++ [src_prefix_add_uri2 "xslt-param".toList v] }
  | .relaxng v => some { r with transformations := r.transformations ++ [src_prefix_add_uri2 "relaxng".toList v] }

/-- The functions for the options, one after the other, src/client/srcml_cli.cpp:460-570. -/
def transArgs (r : TransReq) : List TransArg → Option TransReq
  | [] => some r
  | x :: xs => (x.run r).bind (fun r => transArgs r xs)

/-- The uri for a prefix, src/client/transform_srcml.cpp:36-55, 61-73: that of the archive, else that of `--xmlns`. The input archive and the output archive are the same (src/client/create_srcml.cpp:271). -/
def markUri (pk : Pick) (a : Archive) (xmlns : List (Str × Str)) (p : Str) : Option Str :=
  match srcml_archive_get_uri_from_prefix pk a (some p) with
  | some u => some u
  | none => (xmlns.find? (fun x => x.1 = p)).map (·.2)

/-- A call that must succeed, src/client/create_srcml.cpp:270-302; `none`: the program is left. -/
def tryCall (w : World) (i : Addr) (c : TCall) : Option World := if (c.run w i).1 = .ok then some (c.run w i).2 else none

/-- `apply_xpath`, src/client/transform_srcml.cpp:30-118; `none`: it failed. -/
def apply_xpath (pk : Pick) (xmlns : List (Str × Str)) (w : World) (i : Addr) (q : Str) (s : Option MarkElement × Option MarkAttribute) : Run (Option World) :=
  match w.archives[i]? with
  | none => .ub
  | some arch =>
    match s with
    | (some e, none) => match markUri pk arch xmlns e.1 with
      | none => .val none
      | some u => .val (tryCall w i (.xpathElement (some q) (some e.1) (some u) (some e.2)))
    | (none, some a) => match markUri pk arch xmlns a.1 with
      | none => .val none
      | some u => .val (tryCall w i (.xpathAttribute (some q) (some a.1) (some u) (some a.2.1) (some a.2.2)))
    | (some e, some a) => match markUri pk arch xmlns e.1, markUri pk arch xmlns a.1 with
      | some u, some v => .val ((tryCall w i (.xpathElement (some q) (some e.1) (some u) (some e.2))).bind (fun w =>
          tryCall w i (.xpathAttribute (some q) (some a.1) (some v) (some a.2.1) (some a.2.2))))
      | _, _ => .val none
    | (none, none) => (w.setup i .disableSolitary).bind (fun r => .val (tryCall r.2 i (.xpath (some q))))

/-- The loop over the transformations, src/client/create_srcml.cpp:262-303; `k`: the number of queries before. `docs`: the documents that can be read, as a stylesheet (`true`) or as a schema. The status
for a parameter is not looked at. -/
def applyTransformations (pk : Pick) (xmlns : List (Str × Str)) (docs : Bool → Str → Option Str) (support : List (Option MarkElement × Option MarkAttribute)) (w : World) (i : Addr) (k : Nat) :
    List Str → Run (Option World)
  | [] => .val (some w)
  | t :: ts =>
    let p := src_prefix_split_uri t
    if p.1 = "xpath".toList then
      match support[k]? with
      | none => .ub
      | some s => (apply_xpath pk xmlns w i p.2 s).bind (fun r => match r with
        | none => .val none
        | some w => applyTransformations pk xmlns docs support w i (k + 1) ts)
    else if p.1 = "xslt".toList then
      match tryCall w i (.doc true (docs true p.2)) with
      | none => .val none
      | some w => applyTransformations pk xmlns docs support w i k ts
    else if p.1 = "xslt-param".toList then
      let x := xsltParam p.2
      applyTransformations pk xmlns docs support (TCall.run w i (.param false (some x.1) (some x.2))).2 i k ts
    else if p.1 = "relaxng".toList then
      match tryCall w i (.doc false (docs false p.2)) with
      | none => .val none
      | some w => applyTransformations pk xmlns docs support w i k ts
    else applyTransformations pk xmlns docs support w i k ts

end Srcml
