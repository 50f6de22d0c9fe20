import Verif.Model.SrcSax
import Verif.Spec.Reader
/-
What libxml2 delivers for a document, according to the reader of Spec/Xml.lean.
-/
namespace Srcml.Spec

/-- The reader with the text of the token that it is in. -/
structure Drive where
  r : RState := {}
  acc : Str := []
  deriving DecidableEq, Repr

/-- One character, with what is delivered for it. -/
def Drive.step (d : Drive) (c : Char) : Option (Drive × List Feed) :=
  match d.r.step c with
  | none => none
  | some r' =>
    let acc := d.acc ++ [c]
    match d.r.pos with
    | .content =>
      if c = '<' ∨ c = '&' then some (⟨r', acc⟩, [])
      else if d.r.stack = [] then some (⟨r', []⟩, [.blank [c]])
      else some (⟨r', []⟩, [.text [c] true])
    | .contentRef name => if c = ';' then some (⟨r', []⟩, [.ref acc ((entity name).getD ' ')]) else some (⟨r', acc⟩, [])
    | .openName n => if c = '>' then some (⟨r', []⟩, [.startTag d.acc n []]) else some (⟨r', acc⟩, [])
    | .afterTag n as => if c = '>' then some (⟨r', []⟩, [.startTag d.acc n as]) else some (⟨r', acc⟩, [])
    | .slash n as => some (⟨r', []⟩, [.emptyTag d.acc.dropLast n as])
    | .closeName n => if c = '>' then some (⟨r', []⟩, [.endTag acc n]) else some (⟨r', acc⟩, [])
    | .piEnd => if c = '>' then some (⟨r', []⟩, [.pi acc]) else some (⟨r', acc⟩, [])
    | _ => some (⟨r', acc⟩, [])

/-- A piece of the document. -/
def Drive.run (d : Drive) : Str → Option (Drive × List Feed)
  | [] => some (d, [])
  | c :: cs =>
    match d.step c with
    | none => none
    | some (d, fs) =>
      match d.run cs with
      | none => none
      | some (d, gs) => some (d, fs ++ gs)

/-- The document after its XML declaration and the white space after it; libxml2 calls `startDocument` there. -/
def afterDecl (doc : Str) : Str :=
  if "<?xml ".toList.isPrefixOf doc then
    ((doc.dropWhile (· ≠ '>')).drop 1).dropWhile (fun c => c = ' ' ∨ c = '\n' ∨ c = '\t')
  else doc

/-- Text character by character. -/
def splitText (fs : List Feed) : List Feed :=
  fs.flatMap (fun f => match f with
    | .text s _ => s.map (fun c => .text [c] true)
    | f => [f])

/-- Is the piece a tag? -/
def isTag : Feed → Bool
  | .startTag .. | .emptyTag .. | .endTag .. => true
  | _ => false

/-- `fs` is something that libxml2 may deliver for the document: the tokens of the document, with its text cut into pieces in any
way, each of them read before or after its callback; but white space directly before a tag is read before its callback. -/
structure Delivers (doc : Str) (fs : List Feed) : Prop where
  tokens : ∃ d, ({} : Drive).run (afterDecl doc) = some (d, splitText fs) ∧ d.r.pos = .content ∧ d.r.stack = []
  nonempty : ∀ b, .text [] b ∉ fs
  white : ∀ pre s b t suf, fs = pre ++ .text s b :: t :: suf → isTag t = true → (∀ c ∈ s, c = ' ' ∨ c = '\n') → b = true

/-- The source text that an event stands for: a character, or that of an `escape` element. -/
def evSource : Ev → Str
  | .ch c => [c]
  | .op name attrs =>
    if localName name = "escape".toList then
      match attrs.filter (fun a => !isNsDecl a.1) with
      | a :: _ => [lowByte (strtol0 a.2)]
      | [] => []
    else []
  | .cl _ => []

/-- The source text of a sequence of events. -/
def sourceOf (evs : List Ev) : Str := evs.flatMap evSource

/-- Every `escape` element says which character it stands for. -/
def EscapesOk (evs : List Ev) : Prop :=
  ∀ name attrs, Ev.op name attrs ∈ evs → localName name = "escape".toList → attrs.filter (fun a => !isNsDecl a.1) ≠ []

/-- The calls that a log has, as the protocol between the two threads sees them. -/
def saxCall : Upper → Option SaxCall
  | .startUnit _ => some .startUnit
  | .endUnit _ => some .endUnit
  | .endRoot => some .endRoot
  | _ => none

/-- The units in a log: the attributes of the start tag, and what was collected. -/
def unitsOf : List Upper → List (List (Str × Str) × Option Collected)
  | .startUnit attrs :: .endUnit c :: rest => (attrs, c) :: unitsOf rest
  | _ :: rest => unitsOf rest
  | [] => []

/-- What a finished call of the user gives, when the protocol says that it got the header of one unit and the contents of one unit: the
unit made of them. -/
def gets (log : List Upper) : Option (Option Nat × Option Nat) → Option UnitData
  | some (some i, some k) =>
    match (unitsOf log)[i]?, (unitsOf log)[k]? with
    | some (attrs, _), some (_, some c) => some (readUnitData attrs c)
    | _, _ => none
  | _ => none

/-- The user who reads a document of which the parser makes the calls `log` can make every sequence of calls, and gets back from all of them. -/
def AnyCalls (log : List Upper) : Prop :=
  ∀ (fin : Finish) (cs : List ReadCall), ∃ r : Reader, Reach { todo := log.filterMap saxCall, finish := fin } Reader.Step r ∧ r.user = .idle ∧ r.log.map (·.1) = cs

end Srcml.Spec
