import Verif.Model.QueryArgs
/-
What queries and transformations on the command line mean (C82).
-/
namespace Srcml.Spec

/-- A step of the transformation: a query with the element and the attribute that mark its results, a stylesheet, a parameter of a stylesheet, or a schema. -/
inductive Step where
  | query (q : Str) (element : Option (Str × Str)) (attr : Option (Str × Str × Str))
  | stylesheet (file : Str)
  | param (text : Str)
  | schema (file : Str)
  deriving DecidableEq, Repr

/-- Is the step a query? -/
def Step.isQuery : Step → Bool
  | .query _ _ _ => true
  | _ => false

/-- `t` is the value `v`, in quotes or without any. -/
inductive InQuotes (v : Str) : Str → Prop where
  | double : InQuotes v ("\"".toList ++ v ++ "\"".toList)
  | single : InQuotes v ("'".toList ++ v ++ "'".toList)
  | bare : v.head? ≠ some '"' → v.head? ≠ some '\'' → v.getLast? ≠ some '"' → v.getLast? ≠ some '\'' → InQuotes v v

/-- `t` is the attribute with a prefix, a name and a value: `PRE:NAME="VALUE"`, or `NAME="VALUE"` if `pre` is the prefix of the element. -/
inductive AttributeText (pre : Option Str) : Str → Str × Str × Str → Prop where
  | full {p n v t : Str} : ':' ∉ p → '=' ∉ p → '=' ∉ n → InQuotes v t → AttributeText pre (p ++ ":".toList ++ n ++ "=".toList ++ t) (p, n, v)
  | short {p n v t : Str} : pre = some p → ':' ∉ n → '=' ∉ n → ':' ∉ t → InQuotes v t → AttributeText pre (n ++ "=".toList ++ t) (p, n, v)

/-- The steps that the options ask for, in order: an element and an attribute mark the results of the query before them. -/
inductive Steps : List TransArg → List Step → Prop where
  | nil : Steps [] []
  | xpath {args : List TransArg} {ss : List Step} {q : Str} : Steps args ss → Steps (args ++ [.xpath q]) (ss ++ [.query q none none])
  | element {args : List TransArg} {ss rest : List Step} {q p n : Str} {e : Option (Str × Str)} {a : Option (Str × Str × Str)} :
      Steps args (ss ++ .query q e a :: rest) → (∀ s ∈ rest, s.isQuery = false) → ':' ∉ p → Steps (args ++ [.element (p ++ ":".toList ++ n)]) (ss ++ .query q (some (p, n)) a :: rest)
  | attr {args : List TransArg} {ss rest : List Step} {q t : Str} {e : Option (Str × Str)} {a : Option (Str × Str × Str)} {x : Str × Str × Str} :
      Steps args (ss ++ .query q e a :: rest) → (∀ s ∈ rest, s.isQuery = false) → AttributeText (e.map (·.1)) t x → Steps (args ++ [.attribute t]) (ss ++ .query q e (some x) :: rest)
  | xslt {args : List TransArg} {ss : List Step} {f : Str} : Steps args ss → Steps (args ++ [.xslt f]) (ss ++ [.stylesheet f])
  | param {args : List TransArg} {ss : List Step} {t : Str} : Steps args ss → Steps (args ++ [.xsltParam t]) (ss ++ [.param t])
  | relaxng {args : List TransArg} {ss : List Step} {f : Str} : Steps args ss → Steps (args ++ [.relaxng f]) (ss ++ [.schema f])

/-- `t` is `NAME=VALUE`, the value in quotes or not; a parameter has its value in quotes. -/
inductive ParamText : Str → Str → Str → Prop where
  | quoted {n v : Str} : '=' ∉ n → ParamText (n ++ "=\"".toList ++ v) n ("\"".toList ++ v)
  | bare {n v : Str} : '=' ∉ n → v.head? ≠ some '"' → ParamText (n ++ "=".toList ++ v) n ("\"".toList ++ v ++ "\"".toList)

/-- The last transformation is the same query, and it has no attribute. -/
def SameQuery (ts : List Transformation) (q : Str) : Prop := ∃ e ps, ts.getLast? = some ⟨.xpath q e ([], [], [], []), ps⟩

/-- From the transformations `ts` of an archive, the steps lead to the transformations `out`: a query is a transformation with the element and the attribute, with the uri of each prefix; a parameter
belongs to the transformation before it. -/
inductive Made (uri : Str → Option Str) (docs : Bool → Str → Option Str) : List Transformation → List Step → List Transformation → Prop where
  | nil {ts : List Transformation} : Made uri docs ts [] ts
  | query {ts out : List Transformation} {ss : List Step} {q : Str} :
      Made uri docs (ts ++ [⟨.xpath q ([], [], []) ([], [], [], []), []⟩]) ss out → Made uri docs ts (.query q none none :: ss) out
  | element {ts out : List Transformation} {ss : List Step} {q p n u : Str} : uri p = some u →
      Made uri docs (ts ++ [⟨.xpath q (p, u, n) ([], [], [], []), []⟩]) ss out → Made uri docs ts (.query q (some (p, n)) none :: ss) out
  | attr {ts out : List Transformation} {ss : List Step} {q p n v u : Str} : uri p = some u → ¬ SameQuery ts q →
      Made uri docs (ts ++ [⟨.xpath q ([], [], []) (p, u, n, v), []⟩]) ss out → Made uri docs ts (.query q none (some (p, n, v)) :: ss) out
  | both {ts out : List Transformation} {ss : List Step} {q p n u p' n' v' u' : Str} : uri p = some u → uri p' = some u' →
      Made uri docs (ts ++ [⟨.xpath q (p, u, n) (p', u', n', v'), []⟩]) ss out → Made uri docs ts (.query q (some (p, n)) (some (p', n', v')) :: ss) out
  | stylesheet {ts out : List Transformation} {ss : List Step} {f d : Str} : docs true f = some d → Made uri docs (ts ++ [⟨.xslt d, []⟩]) ss out → Made uri docs ts (.stylesheet f :: ss) out
  | schema {ts out : List Transformation} {ss : List Step} {f d : Str} : docs false f = some d → Made uri docs (ts ++ [⟨.relaxng d, []⟩]) ss out → Made uri docs ts (.schema f :: ss) out
  | param {ts out : List Transformation} {t : Transformation} {ss : List Step} {text n v : Str} : ParamText text n v →
      Made uri docs (ts ++ [{ t with params := t.params ++ [n, v] }]) ss out → Made uri docs (ts ++ [t]) (.param text :: ss) out

end Srcml.Spec
