import Verif.Model.Output
import Verif.Spec.Xml
/-
Specification of the output: which XML events a stream of tokens stands for. It uses the table of
elements as data, and none of the output functions of the model.
-/
namespace Srcml.Spec

/-- The settings that show in the elements: the prefix of each standard namespace, and whether positions
are written. -/
structure Env where
  pre : Prefixes → Str
  position : Bool

/-- Qualified name of an element. -/
def elementName (env : Env) (e : Element) : Str :=
  if env.pre e.pre = [] then e.name else env.pre e.pre ++ ':' :: e.name

/-- Decimal representation. -/
def number (n : Nat) : Str := Nat.toDigits 10 n

/-- Name of a position attribute. -/
def posName (env : Env) (name : Str) : Str := if env.pre .POS = [] then name else env.pre .POS ++ ':' :: name

/-- Does the end position not come before the start position? -/
def validRange (t : Tok) : Prop :=
  t.line < t.endline ∨ (t.line = t.endline ∧ t.column ≤ t.endcolumn)

instance (t : Tok) : Decidable (validRange t) := inferInstanceAs (Decidable (_ ∨ _))

/-- Attributes of an element that the table gives; a missing value is the text of the token. -/
def tableAttrs (e : Element) (text : Str) : List (Str × Str) :=
  (match e.attrName with
    | some n => [(n, e.attrValue.getD text)]
    | none => []) ++
  (match e.attr2Name, e.attr2Value with
    | some n, some v => [(n, v)]
    | _, _ => [])

/-- Position attributes: start and end of the element, as `line:column`. -/
def positionAttrs (env : Env) (t : Tok) : List (Str × Str) :=
  if validRange t then
    [(posName env "start".toList, number t.line ++ ':' :: number t.column),
     (posName env "end".toList, number t.endline ++ ':' :: number t.endcolumn)]
  else []

/-- Attributes of the element a token opens: those of the table, and the positions of a (non-empty)
element if wanted. -/
def elementAttrs (env : Env) (e : Element) (t : Tok) : List (Str × Str) :=
  tableAttrs e t.text ++ if env.position ∧ t.category = .start then positionAttrs env t else []

/-- The element of a token type, if it is one with a name. -/
def elementOf (t : TokType) : Option Element := (processTable.find? (fun e => e.1 = t)).map (·.2)

/-- The events of a stream of tokens and the elements open afterwards, given those open before. `none`: an
end token without an open element. -/
def tokenEvents (env : Env) : List Str → List Tok → Option (List Ev × List Str)
  | st, [] => some ([], st)
  | st, t :: ts =>
    if t.type = chars! "SUNIT" then tokenEvents env st ts
    else match elementOf t.type with
      | none => (tokenEvents env st ts).map (fun r => (t.text.map .ch ++ r.1, r.2))
      | some e =>
        if e.name = [] then tokenEvents env st ts
        else match t.category with
          | .start =>
            (tokenEvents env (elementName env e :: st) ts).map
              (fun r => (.op (elementName env e) (elementAttrs env e t) :: r.1, r.2))
          | .empty =>
            (tokenEvents env st ts).map
              (fun r => (.op (elementName env e) (elementAttrs env e t) :: .cl (elementName env e) :: r.1, r.2))
          | _ =>
            match st with
            | [] => none
            | n :: st => (tokenEvents env st ts).map (fun r => (.cl n :: r.1, r.2))

/-- The text of a stream of tokens: the texts of the tokens that are not elements. -/
def tokenText (ts : List Tok) : Str :=
  (ts.filter (fun t => t.type ≠ chars! "SUNIT" ∧ (elementOf t.type).isNone)).flatMap (·.text)

/-- A stream of tokens in which every element is closed, in the reverse order of opening. -/
inductive Balanced : List Tok → Prop
  | nil : Balanced []
  | text (t : Tok) (ts : List Tok) (h : (elementOf t.type).isNone ∨ t.type = chars! "SUNIT") :
      Balanced ts → Balanced (t :: ts)
  | empty (t : Tok) (ts : List Tok) (h : t.category = .empty) : Balanced ts → Balanced (t :: ts)
  | element (s e : Tok) (inner ts : List Tok) (hs : s.category = .start) (he : e.category = .end_)
      (h : s.type = e.type) : Balanced inner → Balanced ts → Balanced (s :: inner ++ e :: ts)

/-- A stream of tokens carries a source text: the texts of its text tokens, and for each control character
an empty element token with the character's code in hexadecimal; element tokens carry nothing. -/
inductive Carries : List Tok → Str → Prop
  | nil : Carries [] []
  | text (t : Tok) (ts : List Tok) (s : Str) (h : t.type ≠ chars! "SUNIT") (h2 : elementOf t.type = none) :
      Carries ts s → Carries (t :: ts) (t.text ++ s)
  | control (t : Tok) (ts : List Tok) (s : Str) (c : Char) (h : t.type = chars! "CONTROL_CHAR")
      (hc : t.category = .empty) (hn : c.toNat < 32)
      (ht : t.text = "0x".toList ++ [Nat.digitChar (c.toNat / 16), Nat.digitChar (c.toNat % 16)]) :
      Carries ts s → Carries (t :: ts) (c :: s)
  | markup (t : Tok) (ts : List Tok) (s : Str) (h : t.type = chars! "SUNIT" ∨
      ((elementOf t.type).isSome ∧ t.type ≠ chars! "CONTROL_CHAR")) :
      Carries ts s → Carries (t :: ts) s

/-- Is an attribute name that of a namespace declaration? -/
def isNsDecl (name : Str) : Bool := name = "xmlns".toList || "xmlns:".toList.isPrefixOf name

/-- The name without its prefix. -/
def localName (name : Str) : Str :=
  if ':' ∈ name then (name.dropWhile (· ≠ ':')).drop 1 else name

/-- The attributes a namespace-aware reader reports: no declarations, local names. -/
def plainAttrs (as : List (Str × Str)) : List (Str × Str) :=
  (as.filter (fun a => !isNsDecl a.1)).map (fun a => (localName a.1, a.2))

/-- The namespaces that a start tag declares. -/
def declaredUris (as : List (Str × Str)) : List Str := (as.filter (fun a => isNsDecl a.1)).map (·.2)

end Srcml.Spec
