import Verif.Model.ReadRoot
import Verif.Props.OutputTags
import Verif.Proofs.ParsedWrite
import Verif.Proofs.SrcSaxArchive
import Verif.Spec.ReadRoot
/-
The settings of an archive that are read from the start tag of the root.
-/
set_option linter.unusedSimpArgs false
namespace Srcml
open Spec

/-! ### Numbers -/

theorem digitValue_dec (n : Nat) (h : n < 10) : digitValue (Char.ofNat (48 + n)) = some n := by
  have : ∀ k, k < 10 → digitValue (Char.ofNat (48 + k)) = some k := by decide
  exact this n h

theorem isSpace_dec (n : Nat) (h : n < 10) : isSpaceC (Char.ofNat (48 + n)) = false ∧ Char.ofNat (48 + n) ≠ '-' ∧ Char.ofNat (48 + n) ≠ '+' := by
  have : ∀ k, k < 10 → isSpaceC (Char.ofNat (48 + k)) = false ∧ Char.ofNat (48 + k) ≠ '-' ∧ Char.ofNat (48 + k) ≠ '+' := by decide
  exact this n h

theorem readDigits_dec_append (a b : Str) (ha : ∀ c ∈ a, ∃ d, digitValue c = some d ∧ d < 10) (acc : Nat) :
    readDigits 10 acc (a ++ b) = readDigits 10 (readDigits 10 acc a) b := by
  induction a generalizing acc with
  | nil => rfl
  | cons c cs ih =>
    obtain ⟨d, h1, h2⟩ := ha c (by simp)
    simp only [List.cons_append, readDigits, h1, h2, if_true]
    exact ih (fun x hx => ha x (by simp [hx])) _

theorem decDigits_digits (n : Nat) : (∀ c ∈ decDigits n, ∃ d, d < 10 ∧ c = Char.ofNat (48 + d)) ∧ decDigits n ≠ [] := by
  induction n using Nat.strongRecOn with
  | ind n ih =>
    rw [decDigits]
    split
    · rename_i h
      exact ⟨fun c hc => ⟨n, h, by simpa using hc⟩, by simp⟩
    · refine ⟨?_, by simp⟩
      intro c hc
      simp only [List.mem_append, List.mem_singleton] at hc
      rcases hc with hc | rfl
      · exact (ih (n / 10) (by omega)).1 c hc
      · exact ⟨n % 10, by omega, rfl⟩

theorem readDigits_decDigits (n : Nat) : readDigits 10 0 (decDigits n) = n := by
  induction n using Nat.strongRecOn with
  | ind n ih =>
    rw [decDigits]
    split
    · rename_i h
      simp only [readDigits, digitValue_dec n h, h, if_true]
      omega
    · rw [readDigits_dec_append _ _ (by
        intro c hc
        obtain ⟨d, h1, rfl⟩ := (decDigits_digits (n / 10)).1 c hc
        exact ⟨d, digitValue_dec d h1, h1⟩), ih (n / 10) (by omega)]
      have : n % 10 < 10 := by omega
      simp only [readDigits, digitValue_dec _ this, this, if_true]
      omega

theorem atoi_decDigits {n : Nat} (h : n < 2 ^ 31) : atoi (decDigits n) = .val (n : Int) := by
  unfold atoi
  have hd := readDigits_decDigits n
  obtain ⟨h1, h2⟩ := decDigits_digits n
  cases he : decDigits n with
  | nil => exact absurd he h2
  | cons c cs =>
    rw [he] at hd h1
    obtain ⟨d, h3, rfl⟩ := h1 c (by simp)
    obtain ⟨g1, g2, g3⟩ := isSpace_dec d h3
    rw [List.dropWhile_cons]
    simp only [g1]
    split
    · rename_i rest heq
      simp only [Bool.false_eq_true, if_false, List.cons.injEq] at heq
      exact absurd heq.1 g2
    · rename_i rest heq
      simp only [Bool.false_eq_true, if_false, List.cons.injEq] at heq
      exact absurd heq.1 g3
    · simp only [Bool.false_eq_true, if_false, hd]
      rw [if_pos]
      constructor <;> omega

/-! ### Options -/

theorem isoption_bit (o : Opts) {k : Nat} (hk : k < 64) : (if isoption o (1#64 <<< k) then 1#64 <<< k else 0) = o &&& 1#64 <<< k := by
  have key : ∀ i, i < 64 → (o &&& 1#64 <<< k).getLsbD i = (decide (i = k) && o.getLsbD k) := by
    intro i hi
    rw [BitVec.getLsbD_and, BitVec.getLsbD_shiftLeft, BitVec.getLsbD_one]
    by_cases h : i = k
    · subst h; simp [hi]
    · rcases Nat.lt_or_gt_of_ne h with h' | h'
      · simp [h, h', hi]
      · simp only [hi, h, decide_false, Bool.false_and, decide_true, Bool.true_and]
        rw [show decide (i - k = 0) = false from decide_eq_false (by omega)]
        simp
  unfold isoption
  by_cases hb : o.getLsbD k = true
  · have hn : o &&& 1#64 <<< k ≠ 0 := by
      intro e
      have := congrArg (·.getLsbD k) e
      simp only [key k hk, hb] at this
      simp at this
    rw [if_pos (by simpa using hn)]
    apply BitVec.eq_of_getLsbD_eq
    intro i hi
    rw [key i hi, hb, BitVec.getLsbD_shiftLeft, BitVec.getLsbD_one]
    by_cases h : i = k
    · subst h; simp [hi]
    · rcases Nat.lt_or_gt_of_ne h with h' | h'
      · simp [h, h', hi]
      · simp only [hi, h, decide_false, Bool.false_and, decide_true, Bool.true_and]
        rw [show decide (i - k = 0) = false from decide_eq_false (by omega)]
        simp
  · have hz : o &&& 1#64 <<< k = 0 := by
      apply BitVec.eq_of_getLsbD_eq
      intro i hi
      rw [key i hi]
      simp [hb]
    rw [if_neg (by simp [hz]), hz]

theorem and_or (x y z : Opts) : x &&& (y ||| z) = (x &&& y) ||| (x &&& z) := by
  apply BitVec.eq_of_getLsbD_eq
  intro i _
  simp [Bool.and_or_distrib_left]

/-- The text of the options, with the three tests as arguments. -/
def optionText (b1 b2 b3 : Bool) : Str :=
  ([(b1, "CPP_TEXT_ELSE".toList), (b2, "CPP_MARKUP_IF0".toList), (b3, "LINE".toList)] : List (Bool × Str)).foldl
    (fun s p => if p.1 then (if s = [] then p.2 else s ++ ',' :: p.2) else s) []

/-- The names in it. -/
def optionNames (b1 b2 b3 : Bool) : List Str :=
  (if b1 then ["CPP_TEXT_ELSE".toList] else []) ++ (if b2 then ["CPP_MARKUP_IF0".toList] else []) ++ (if b3 then ["LINE".toList] else [])

theorem optionText_names : ∀ b1 b2 b3, (if optionText b1 b2 b3 = [] then [] else commaNames (optionText b1 b2 b3)) = optionNames b1 b2 b3 := by decide +kernel

theorem foldOptions (o r : Opts) : (if soptions o = [] then r else (commaNames (soptions o)).foldl readOption r) =
    r ||| (o &&& (OPTION_CPP_TEXT_ELSE ||| OPTION_CPP_MARKUP_IF0 ||| OPTION_LINE)) := by
  have e1 := isoption_bit o (k := 4) (by decide)
  have e2 := isoption_bit o (k := 5) (by decide)
  have e3 := isoption_bit o (k := 10) (by decide)
  rw [show (1#64 <<< 4) = OPTION_CPP_TEXT_ELSE from rfl] at e1
  rw [show (1#64 <<< 5) = OPTION_CPP_MARKUP_IF0 from rfl] at e2
  rw [show (1#64 <<< 10) = OPTION_LINE from rfl] at e3
  rw [and_or, and_or, ← e1, ← e2, ← e3]
  have es : soptions o = optionText (isoption o OPTION_CPP_TEXT_ELSE) (isoption o OPTION_CPP_MARKUP_IF0) (isoption o OPTION_LINE) := rfl
  rw [es]
  generalize isoption o OPTION_CPP_TEXT_ELSE = b1
  generalize isoption o OPTION_CPP_MARKUP_IF0 = b2
  generalize isoption o OPTION_LINE = b3
  have h := optionText_names b1 b2 b3
  have hf : (if optionText b1 b2 b3 = [] then r else (commaNames (optionText b1 b2 b3)).foldl readOption r) = (optionNames b1 b2 b3).foldl readOption r := by
    rw [← h]
    split <;> rfl
  rw [hf]
  unfold optionNames
  rw [List.foldl_append, List.foldl_append]
  have r1 : ∀ o, readOption o "CPP_TEXT_ELSE".toList = o ||| OPTION_CPP_TEXT_ELSE := by
    intro o; unfold readOption; rw [if_neg (by decide), if_neg (by decide), if_pos (by decide)]
  have r2 : ∀ o, readOption o "CPP_MARKUP_IF0".toList = o ||| OPTION_CPP_MARKUP_IF0 := by
    intro o; unfold readOption; rw [if_neg (by decide), if_neg (by decide), if_neg (by decide), if_pos (by decide)]
  have r3 : ∀ o, readOption o "LINE".toList = o ||| OPTION_LINE := by
    intro o; unfold readOption; rw [if_neg (by decide), if_neg (by decide), if_neg (by decide), if_neg (by decide), if_pos (by decide)]
  have f : ∀ (b : Bool) (n : Str) (x : Opts) (r : Opts), (∀ o, readOption o n = o ||| x) → (if b then [n] else []).foldl readOption r = r ||| (if b then x else 0) := by
    intro b n x r hx
    cases b
    · exact BitVec.or_zero.symm
    · exact hx r
  rw [f b1 _ _ _ r1, f b2 _ _ _ r2, f b3 _ _ _ r3, BitVec.or_assoc, BitVec.or_assoc, BitVec.or_assoc]

/-! ### Attributes -/

theorem rootAttributes_append (l m : List (Str × Str)) (a : Archive) :
    rootAttributes a (l ++ m) = (rootAttributes a l).bind (fun a => rootAttributes a m) := by
  induction l generalizing a with
  | nil => rfl
  | cons p l ih =>
    simp only [List.cons_append, rootAttributes]
    cases rootAttribute a p with
    | ub => rfl
    | val b => exact ih b

theorem present_cons (n : Str) (v : Option Str) (l : List (Str × Option Str)) :
    present ((n, v) :: l) = v.toList.map (fun v => (n, v)) ++ present l := by
  cases v <;> rfl

theorem rootAttributes_present (n : Str) (v : Option Str) (l : List (Str × Option Str)) (a b : Archive)
    (hn : v = none → b = a) (hs : ∀ x, v = some x → rootAttribute a (n, x) = .val b) :
    rootAttributes a (present ((n, v) :: l)) = rootAttributes b (present l) := by
  cases v with
  | none => rw [hn rfl]; rfl
  | some x => rw [present_cons]; simp only [Option.toList, List.map_cons, List.map_nil, List.cons_append, List.nil_append, rootAttributes, hs x rfl]; rfl

theorem root_skip {n : Str} (h : n = "timestamp".toList ∨ n = "language".toList ∨ n = "filename".toList ∨ n = "hash".toList) (a : Archive) (v : Str) :
    rootAttribute a (n, v) = .val a := by
  unfold rootAttribute; rw [if_pos h]

theorem root_revision (a : Archive) (v : Str) : rootAttribute a ("revision".toList, v) = .val { a with revision := some v } := by
  have h : ¬ ("revision".toList = "timestamp".toList ∨ "revision".toList = "language".toList ∨ "revision".toList = "filename".toList ∨ "revision".toList = "hash".toList) := by decide +kernel
  have e : ∀ n, ¬ (n = "timestamp".toList ∨ n = "language".toList ∨ n = "filename".toList ∨ n = "hash".toList) → n = "revision".toList → rootAttribute a (n, v) = .val { a with revision := some v } := by
    intro n h1 h2
    unfold rootAttribute
    rw [if_neg h1, if_pos h2]
  exact e _ h rfl

theorem root_url (a : Archive) (v : Str) : rootAttribute a ("url".toList, v) = .val { a with url := some v } := by
  unfold rootAttribute; dsimp only; rw [if_neg (by decide), if_neg (by decide), if_pos (by decide)]

theorem root_version (a : Archive) (v : Str) : rootAttribute a ("version".toList, v) = .val { a with version := some v } := by
  unfold rootAttribute; dsimp only; rw [if_neg (by decide), if_neg (by decide), if_neg (by decide), if_pos (by decide)]

theorem root_tabs (a : Archive) {n : Nat} (h : n < 2 ^ 31) : rootAttribute a ("tabs".toList, decDigits n) = .val { a with tabstop := n } := by
  unfold rootAttribute
  dsimp only
  rw [if_neg (by decide), if_neg (by decide), if_neg (by decide), if_neg (by decide), if_pos (by decide)]
  rw [atoi_decDigits h]
  have : ((n : Int) % 2 ^ 64).toNat = n := by omega
  show Run.val _ = _
  rw [this]

theorem root_options (a : Archive) (v : Str) : rootAttribute a ("options".toList, v) = .val { a with options := (commaNames v).foldl readOption a.options } := by
  unfold rootAttribute
  dsimp only
  rw [if_neg (by decide), if_neg (by decide), if_neg (by decide), if_neg (by decide), if_neg (by decide), if_pos (by decide)]

theorem root_user {n : Str} (h : n ∉ fixedNames ∨ n = "src-encoding".toList) (ht : n ≠ "tabs".toList) (a : Archive) (v : Str) :
    rootAttribute a (n, v) = .val { a with attributes := a.attributes ++ [n, v] } := by
  have g : n ≠ "timestamp".toList ∧ n ≠ "language".toList ∧ n ≠ "filename".toList ∧ n ≠ "hash".toList ∧ n ≠ "revision".toList ∧ n ≠ "url".toList ∧
      n ≠ "version".toList ∧ n ≠ "options".toList := by
    rcases h with h | rfl
    · refine ⟨?_, ?_, ?_, ?_, ?_, ?_, ?_, ?_⟩ <;> rintro rfl <;> exact h (by decide)
    · decide
  unfold rootAttribute
  rw [if_neg (by simp only [g, or_self, not_false_eq_true]), if_neg g.2.2.2.2.1, if_neg g.2.2.2.2.2.1, if_neg g.2.2.2.2.2.2.1, if_neg ht, if_neg g.2.2.2.2.2.2.2]

theorem root_users (l : List (Str × Str)) (a : Archive) (h : ∀ p ∈ l, p.1 ∉ fixedNames ∧ p.1 ≠ "tabs".toList) :
    rootAttributes a l = .val { a with attributes := a.attributes ++ l.flatMap (fun p => [p.1, p.2]) } := by
  induction l generalizing a with
  | nil => simp [rootAttributes]
  | cons p l ih =>
    have := root_user (.inl (h p (by simp)).1) (h p (by simp)).2 a p.2
    simp only [rootAttributes]
    rw [show rootAttribute a p = _ from this]
    show rootAttributes _ l = _
    rw [ih _ (fun q hq => h q (by simp [hq]))]
    simp

/-- The settings that are read from the attributes of a start tag that was written with `o`. -/
def readSettings (o : Out) (m : UnitMeta) (r : Archive) : Archive :=
  { r with
    revision := m.revision.or r.revision
    url := m.url.or r.url
    version := m.version.or r.version
    tabstop := if isoption o.options OPTION_POSITION then o.tabsize else r.tabstop
    attributes := r.attributes ++ readAttributes o m
    options := if o.depth = 0 then r.options ||| (o.options &&& (OPTION_CPP_TEXT_ELSE ||| OPTION_CPP_MARKUP_IF0 ||| OPTION_LINE)) else r.options }

theorem read_settings {o : Out} {m : UnitMeta} (hp : CleanPrefixes o.namespaces) (hm : CleanMeta m)
    (hc : ∀ a ∈ attrPairs m.attributes, ':' ∉ a.1) (heven : m.attributes.length % 2 = 0) (ht : isoption o.options OPTION_POSITION = true → o.tabsize < 2 ^ 31) (r : Archive) :
    rootAttributes r (plainAttrs (o.tagAttrs m)) = .val (readSettings o m r) := by
  unfold Out.tagAttrs
  rw [plainAttrs_append, plainAttrs_ns, List.nil_append, plain_unitAttrs hp hm hc, unitAttrs_renamed hm, List.cons_append]
  rw [rootAttributes_present (b := { r with revision := m.revision.or r.revision }) _ _ _ _ (by intro e; rw [e]; rfl) (by intro x e; rw [e, root_revision]; rfl), List.cons_append]
  rw [rootAttributes_present _ _ _ _ _ (fun _ => rfl) (fun x _ => root_skip (by decide) _ x), List.cons_append]
  rw [rootAttributes_present (b := { r with revision := m.revision.or r.revision, url := m.url.or r.url }) _ _ _ _ (by intro e; rw [e]; rfl) (by intro x e; rw [e, root_url]; rfl), List.cons_append]
  rw [rootAttributes_present _ _ _ _ _ (fun _ => rfl) (fun x _ => root_skip (by decide) _ x), List.cons_append]
  rw [rootAttributes_present (b := { r with revision := m.revision.or r.revision, url := m.url.or r.url, version := m.version.or r.version }) _ _ _ _
    (by intro e; rw [e]; rfl) (by intro x e; rw [e, root_version]; rfl), List.cons_append]
  rw [rootAttributes_present (b := { r with revision := m.revision.or r.revision, url := m.url.or r.url, version := m.version.or r.version, tabstop := if isoption o.options OPTION_POSITION then o.tabsize else r.tabstop }) _ _ _ _
    (by intro e; split at e <;> simp_all) (by
      intro x e
      split at e
      · rename_i h
        simp only [Option.some.injEq] at e
        rw [← e, root_tabs _ (ht h), if_pos h]
      · cases e), List.cons_append]
  rw [rootAttributes_present _ _ _ _ _ (fun _ => rfl) (fun x _ => root_skip (by decide) _ x), List.cons_append]
  rw [rootAttributes_present _ _ _ _ _ (fun _ => rfl) (fun x _ => root_skip (by decide) _ x), List.cons_append]
  rw [rootAttributes_present (b := { r with revision := m.revision.or r.revision, url := m.url.or r.url, version := m.version.or r.version, tabstop := if isoption o.options OPTION_POSITION then o.tabsize else r.tabstop, attributes := r.attributes ++ (if isoption o.options OPTION_STORE_ENCODING then ["src-encoding".toList, defaultEncoding m.encoding] else []) }) _ _ _ _
    (by intro e; split at e <;> simp_all) (by
      intro x e
      split at e
      · rename_i h
        simp only [Option.some.injEq] at e
        rw [← e, root_user (.inr rfl) (by decide), if_pos h]
      · cases e), List.cons_append]
  rw [rootAttributes_present (b := { r with revision := m.revision.or r.revision, url := m.url.or r.url, version := m.version.or r.version, tabstop := if isoption o.options OPTION_POSITION then o.tabsize else r.tabstop, attributes := r.attributes ++ (if isoption o.options OPTION_STORE_ENCODING then ["src-encoding".toList, defaultEncoding m.encoding] else []), options := if o.depth = 0 then r.options ||| (o.options &&& (OPTION_CPP_TEXT_ELSE ||| OPTION_CPP_MARKUP_IF0 ||| OPTION_LINE)) else r.options }) _ _ _ _
    (by
      intro e
      have hf := foldOptions o.options r.options
      by_cases hd : o.depth = 0
      · by_cases hs : soptions o.options = []
        · rw [if_pos hs] at hf
          rw [if_pos hd, ← hf]
        · rw [if_pos ⟨hd, hs⟩] at e; cases e
      · rw [if_neg hd]) (by
      intro x e
      have hf := foldOptions o.options r.options
      split at e
      · rename_i h
        simp only [Option.some.injEq] at e
        rw [← e, root_options, if_pos h.1, ← hf, if_neg h.2]
      · cases e), List.nil_append]
  rw [root_users]
  · rw [attrPairs_flat _ heven]
    unfold readSettings readAttributes
    simp only [List.append_assoc]
  · intro p hp'
    have := hm.userNames _ (mem_present.mp hp')
    refine ⟨this.2.1, ?_⟩
    intro e; exact this.2.2.2 (by rw [e]; decide)

/-! ### Namespaces -/

theorem xmlnsPrefix_nsAttr {n : Namespace} (h : ':' ∉ n.prefix_) : xmlnsPrefix (nsAttr n).1 = n.prefix_ := by
  unfold nsAttr xmlnsPrefix
  by_cases hp : n.prefix_ = []
  · rw [hp]; rfl
  · have e : xmlnsName (nullIfEmpty n.prefix_) = "xmlns:".toList ++ n.prefix_ := by
      simp [nullIfEmpty, hp, xmlnsName]
    rw [e]
    have hne : "xmlns:".toList ++ n.prefix_ ≠ "xmlns".toList := by
      intro h'
      have := congrArg List.length h'
      simp only [List.length_append, show "xmlns:".toList.length = 6 from rfl, show "xmlns".toList.length = 5 from rfl] at this
      omega
    rw [if_neg hne]
    unfold localName
    rw [if_pos (by simp)]
    rfl

/-- The namespaces that are registered one after the other. -/
def registerAll (ns : List Namespace) (l : List Namespace) : List Namespace := l.foldl (fun ns n => registerNs ns n.prefix_ n.uri) ns

/-- The options that the registered namespaces set. -/
def registerAllOptions (o : Opts) (l : List Namespace) : Opts := l.foldl (fun o n => registerNsOptions o n.uri) o

theorem foldl_rootNamespace (l : List Namespace) (a : Archive) (h : ∀ n ∈ l, ':' ∉ n.prefix_) (hu : ∀ n ∈ l, srcmlUriNormalize n.uri = n.uri) :
    (l.map nsAttr).foldl rootNamespace a = { a with namespaces := registerAll a.namespaces l, options := registerAllOptions a.options l } := by
  induction l generalizing a with
  | nil => rfl
  | cons n l ih =>
    simp only [List.map_cons, List.foldl_cons]
    rw [ih _ (fun x hx => h x (by simp [hx])) (fun x hx => hu x (by simp [hx]))]
    unfold rootNamespace
    rw [xmlnsPrefix_nsAttr (h n (by simp)), show (nsAttr n).2 = n.uri from rfl, hu n (by simp)]
    rfl

theorem prefixAt_registerAll (l : List Namespace) (hn : (l.map (·.uri)).Nodup) (ns : List Namespace) (u : Str) :
    prefixAt (registerAll ns l) u = (prefixAt l u).or (prefixAt ns u) := by
  induction l generalizing ns with
  | nil => rfl
  | cons n l ih =>
    simp only [List.map_cons, List.nodup_cons] at hn
    have e : registerAll ns (n :: l) = registerAll (registerNs ns n.prefix_ n.uri) l := rfl
    rw [e, ih hn.2]
    have e2 : prefixAt (registerNs ns n.prefix_ n.uri) u = if u = n.uri then some n.prefix_ else prefixAt ns u := registerNs_prefix ns n.prefix_ n.uri u
    rw [e2]
    by_cases hu : u = n.uri
    · subst hu
      rw [if_pos rfl, prefixAt_none.mpr hn.1]
      unfold prefixAt findUri
      simp
    · rw [if_neg hu]
      congr 1
      unfold prefixAt findUri
      rw [List.find?_cons_of_neg (by simpa using fun e => hu e.symm)]

theorem registerAllOptions_mem (l : List Namespace) (o : Opts) (hc : CPP_NS_URI ∉ l.map (·.uri)) :
    registerAllOptions o l = o ||| (if ERROR_NS_URI ∈ l.map (·.uri) then OPTION_DEBUG else 0) ||| (if POSITION_NS_URI ∈ l.map (·.uri) then OPTION_POSITION else 0) := by
  induction l generalizing o with
  | nil => simp [registerAllOptions]
  | cons n l ih =>
    simp only [List.map_cons, List.mem_cons, not_or] at hc
    have e : registerAllOptions o (n :: l) = registerAllOptions (registerNsOptions o n.uri) l := rfl
    rw [e, ih _ hc.2]
    unfold registerNsOptions
    rw [if_neg (fun e => hc.1 e.symm)]
    have hpe : POSITION_NS_URI ≠ ERROR_NS_URI := by decide +kernel
    have or3 : ∀ a b c : Opts, a ||| b ||| c = a ||| c ||| b := fun a b c => by rw [BitVec.or_assoc, BitVec.or_comm b c, BitVec.or_assoc]
    by_cases h1 : n.uri = ERROR_NS_URI
    · simp only [h1, if_true, List.map_cons, List.mem_cons, true_or, hpe, false_or]
      split
      · simp [BitVec.or_assoc]
      · simp
    · by_cases h2 : n.uri = POSITION_NS_URI
      · rw [if_neg h1, if_pos h2]
        simp only [h2, if_true, List.map_cons, List.mem_cons, true_or, Ne.symm hpe, false_or]
        rw [or3 o OPTION_POSITION, BitVec.or_assoc _ OPTION_POSITION]
        congr 1
        by_cases h : POSITION_NS_URI ∈ l.map (·.uri)
        · rw [if_pos h]; exact BitVec.or_self
        · rw [if_neg h]; exact BitVec.or_zero
      · rw [if_neg h1, if_neg h2]
        simp only [List.map_cons, List.mem_cons, Ne.symm (show n.uri ≠ ERROR_NS_URI from h1), Ne.symm (show n.uri ≠ POSITION_NS_URI from h2), false_or]

theorem registerAll_nodup {ns : List Namespace} (l : List Namespace) (h : (ns.map (·.uri)).Nodup) : ((registerAll ns l).map (·.uri)).Nodup := by
  induction l generalizing ns with
  | nil => exact h
  | cons n l ih =>
    refine ih (ns := registerNs ns n.prefix_ n.uri) ?_
    rw [registerNs_uris]
    split
    · exact h
    · rename_i hn
      rw [List.nodup_append]
      refine ⟨h, by simp, ?_⟩
      intro x hx y hy
      simp only [List.mem_singleton] at hy
      rintro rfl
      exact hn (hy ▸ hx)

theorem namespaceOptions_cons (u : Str) (us : List Str) (o : Opts) : registerNsOptions o u ||| namespaceOptions us = o ||| namespaceOptions (u :: us) := by
  have h1 : ERROR_NS_URI ≠ CPP_NS_URI := by decide +kernel
  have h2 : POSITION_NS_URI ≠ CPP_NS_URI := by decide +kernel
  have h3 : POSITION_NS_URI ≠ ERROR_NS_URI := by decide +kernel
  unfold registerNsOptions namespaceOptions
  simp only [List.mem_cons]
  by_cases e1 : u = CPP_NS_URI
  · subst e1
    rw [if_pos rfl, BitVec.or_assoc, BitVec.or_assoc]
    congr 1
    simp only [h1, h2, true_or, if_true, false_or]
    split <;> split <;> split <;> decide
  · rw [if_neg e1]
    by_cases e2 : u = ERROR_NS_URI
    · subst e2
      rw [if_pos rfl, BitVec.or_assoc]
      congr 1
      simp only [h1.symm, h3, true_or, if_true, false_or]
      split <;> split <;> split <;> decide
    · rw [if_neg e2]
      by_cases e3 : u = POSITION_NS_URI
      · subst e3
        rw [if_pos rfl, BitVec.or_assoc]
        congr 1
        simp only [h2.symm, h3.symm, true_or, if_true, false_or]
        split <;> split <;> split <;> decide
      · rw [if_neg e3]
        simp only [show ¬ CPP_NS_URI = u from fun e => e1 e.symm, show ¬ ERROR_NS_URI = u from fun e => e2 e.symm, show ¬ POSITION_NS_URI = u from fun e => e3 e.symm, false_or]

/-- The options after all namespaces are registered. -/
theorem registerAllOptions_eq (l : List Namespace) (o : Opts) : registerAllOptions o l = o ||| namespaceOptions (l.map (·.uri)) := by
  induction l generalizing o with
  | nil => exact (BitVec.or_zero (x := o)).symm
  | cons n l ih =>
    have e : registerAllOptions o (n :: l) = registerAllOptions (registerNsOptions o n.uri) l := rfl
    rw [e, ih, List.map_cons, namespaceOptions_cons]

/-! ### The root -/

/-- The archive after the start of the root that was written with `o`. -/
def rootRead (isArchive : Bool) (o : Out) (m : UnitMeta) (r : Archive) : Archive :=
  let x := readSettings o m (if isArchive then r else { r with options := r.options &&& ~~~OPTION_ARCHIVE })
  { x with namespaces := registerAll r.namespaces o.marked.declared, options := registerAllOptions x.options o.marked.declared }

theorem filter_tagAttrs {o : Out} {m : UnitMeta} (hp : CleanPrefixes o.namespaces) (hm : CleanMeta m) :
    (o.tagAttrs m).filter (fun p => isNsDecl p.1) = o.tagNs := by
  unfold Out.tagAttrs
  have h1 : o.tagNs.filter (fun a => isNsDecl a.1) = o.tagNs := by
    rw [List.filter_eq_self]
    intro a ha
    unfold Out.tagNs at ha
    split at ha
    · obtain ⟨n, _, rfl⟩ := List.mem_map.mp ha
      exact isNsDecl_xmlnsName _
    · simp at ha
  have h2 := declaredUris_tagAttrs hp hm
  unfold declaredUris Out.tagAttrs at h2
  rw [List.filter_append, h1, List.map_append] at h2
  have h3 : (List.map (·.2) ((present (unitAttrs o m)).filter (fun a => isNsDecl a.1))) = [] := List.self_eq_append_right.mp h2.symm
  rw [List.filter_append, h1, List.map_eq_nil_iff.mp h3, List.append_nil]

theorem read_root {o : Out} {m : UnitMeta} (hp : CleanPrefixes o.namespaces) (hm : CleanMeta m)
    (hc : ∀ a ∈ attrPairs m.attributes, ':' ∉ a.1) (heven : m.attributes.length % 2 = 0) (ht : isoption o.options OPTION_POSITION = true → o.tabsize < 2 ^ 31)
    (hD : isoption o.options OPTION_NAMESPACE_DECL = true) (hu : ∀ n ∈ o.namespaces, srcmlUriNormalize n.uri = n.uri) (isArchive : Bool) (r : Archive) :
    readRoot isArchive r (o.tagAttrs m) = .val (rootRead isArchive o m r) := by
  have hmem : ∀ n ∈ o.marked.declared, ∃ n' ∈ o.namespaces, n'.prefix_ = n.prefix_ := by
    intro n hn
    have h1 : n ∈ markByOptions o.marked.namespaces o.marked.options := (List.mem_filter.mp hn).1
    have h2 : n.prefix_ ∈ (markByOptions o.marked.namespaces o.marked.options).map (·.prefix_) := List.mem_map_of_mem h1
    rw [markByOptions_prefixes] at h2
    rw [show o.marked.namespaces = markUsed o.namespaces .SRC from rfl, markUsed_prefixes] at h2
    obtain ⟨n', h3, h4⟩ := List.mem_map.mp h2
    exact ⟨n', h3, h4⟩
  have hmem' : ∀ n ∈ o.marked.declared, ∃ n' ∈ o.namespaces, n'.uri = n.uri := by
    intro n hn
    have h1 : n ∈ markByOptions o.marked.namespaces o.marked.options := (List.mem_filter.mp hn).1
    have h2 : n.uri ∈ (markByOptions o.marked.namespaces o.marked.options).map (·.uri) := List.mem_map_of_mem h1
    rw [markByOptions_uris] at h2
    rw [show o.marked.namespaces = markUsed o.namespaces .SRC from rfl, markUsed_uris] at h2
    obtain ⟨n', h3, h4⟩ := List.mem_map.mp h2
    exact ⟨n', h3, h4⟩
  unfold readRoot
  dsimp only
  rw [read_settings hp hm hc heven ht, filter_tagAttrs hp hm]
  show Run.val _ = _
  unfold Out.tagNs
  rw [if_pos hD, foldl_rootNamespace]
  · unfold rootRead
    cases isArchive <;> rfl
  · intro n hn
    obtain ⟨n', h1, h2⟩ := hmem n hn
    rw [← h2]; exact hp.ncname n' h1
  · intro n hn
    obtain ⟨n', h1, h2⟩ := hmem' n hn
    rw [← h2]; exact hu n' h1

/-! ### The prefixes -/

/-- The prefix in the table of the root: the registered one, or the default. -/
theorem rootOut_prefix {a : Archive} (hn : (a.namespaces.map (·.uri)).Nodup) (u : Str) :
    prefixAt (rootOut a).namespaces u = (prefixAt a.namespaces u).or (prefixAt defaultNamespaces u) := by
  show prefixAt (mergeNamespaces defaultNamespaces a.namespaces) u = _
  cases ha : prefixAt a.namespaces u with
  | none => rw [prefixAt_merge_not ha]; rfl
  | some p => rw [prefixAt_merge hn ha (.inr (.inr rfl))]; rfl

theorem find_filter {l : List Namespace} {p : Namespace → Bool} {u : Str} (h : u ∈ (l.filter p).map (·.uri)) (hn : (l.map (·.uri)).Nodup) :
    findUri (l.filter p) u = findUri l u := by
  obtain ⟨n, h1, rfl⟩ := List.mem_map.mp h
  have h2 := (List.mem_filter.mp h1).1
  rw [findUri_of_mem hn h2]
  exact findUri_of_mem (List.Sublist.nodup ((List.filter_sublist).map _) hn) h1

/-- The prefix with which a namespace is declared. -/
theorem declared_prefix {o : Out} (hT : TableOk o.namespaces) {u : Str} (h : u ∈ o.marked.declared.map (·.uri)) :
    prefixAt o.marked.declared u = prefixAt o.namespaces u := by
  have hn : ((markByOptions o.marked.namespaces o.marked.options).map (·.uri)).Nodup := by
    rw [markByOptions_uris]; exact (markUsed_ok hT .SRC).nodup
  have h1 : prefixAt o.marked.declared u = prefixAt (markByOptions o.marked.namespaces o.marked.options) u := by
    unfold prefixAt
    unfold Out.declared at h ⊢
    rw [find_filter h hn]
  rw [h1]
  refine prefixAt_congr hT.nodup ?_ ?_ u
  · rw [markByOptions_uris]; exact markUsed_uris _ _
  · rw [markByOptions_prefixes]; exact markUsed_prefixes _ _

/-! ### Macros -/

theorem plainAttrs_macro (t ty : Str) : plainAttrs [("token".toList, t), ("type".toList, ty)] = [("token".toList, t), ("type".toList, ty)] := by
  have h1 : isNsDecl "token".toList = false := by decide
  have h2 : isNsDecl "type".toList = false := by decide
  have h3 : localName "token".toList = "token".toList := by decide
  have h4 : localName "type".toList = "type".toList := by decide
  unfold plainAttrs
  rw [List.filter_cons, List.filter_cons, List.filter_nil]
  simp only [h1, h2, Bool.not_false, if_true, List.map_cons, List.map_nil, h3, h4]

theorem read_macro (r : Archive) {t ty : Str} (h1 : t ≠ []) (h2 : ty ≠ []) :
    readMacro r [("token".toList, t), ("type".toList, ty)] = { r with userMacroList := r.userMacroList ++ [t, ty] } := by
  have hne : "token".toList ≠ "type".toList := by decide
  have e1 : macroValue [("token".toList, t), ("type".toList, ty)] "token".toList = t := by
    unfold macroValue
    rw [plainAttrs_macro, List.filter_cons_of_pos (by simp), List.filter_cons_of_neg (by simpa using hne.symm)]; simp
  have e2 : macroValue [("token".toList, t), ("type".toList, ty)] "type".toList = ty := by
    unfold macroValue
    rw [plainAttrs_macro, List.filter_cons_of_neg (by simpa using hne), List.filter_cons_of_pos (by simp)]; simp
  unfold readMacro
  rw [e1, e2, if_pos ⟨h1, h2⟩]

theorem readUppers_append (i : Bool) (l m : List Upper) (r : Archive) : readUppers i r (l ++ m) = (readUppers i r l).bind (fun r => readUppers i r m) := by
  induction l generalizing r with
  | nil => rfl
  | cons c l ih =>
    simp only [List.cons_append, readUppers]
    cases readUpper i r c with
    | ub => rfl
    | val b => exact ih b

theorem read_macros (i : Bool) : ∀ (l : List Str) (r : Archive), l.length % 2 = 0 → (∀ x ∈ l, x ≠ []) →
    readUppers i r (metaCalls l) = .val { r with userMacroList := r.userMacroList ++ l }
  | [], r, _, _ => by simp [metaCalls, readUppers]
  | [x], r, h, _ => by simp at h
  | t :: ty :: rest, r, h, hn => by
    have ih := read_macros i rest { r with userMacroList := r.userMacroList ++ [t, ty] } (by simp only [List.length_cons] at h; omega) (fun x hx => hn x (by simp [hx]))
    have e : readUppers i r (metaCalls (t :: ty :: rest)) = readUppers i (readMacro r [("token".toList, t), ("type".toList, ty)]) (metaCalls rest) := rfl
    rw [e, read_macro r (hn t (by simp)) (hn ty (by simp)), ih]
    simp

theorem metaCalls_unit (l : List Str) : ∀ c ∈ metaCalls l, c.isUnit = false := by
  fun_induction metaCalls l with
  | case1 t ty rest ih =>
    intro c hc
    simp only [List.mem_cons] at hc
    rcases hc with rfl | hc
    · rfl
    · exact ih c hc
  | case2 => simp

/-- The calls before the first unit. -/
theorem archiveCalls_head (root : List (Str × Str)) (l : List Str) (wants : List Bool) {us : List UnitText} (h : us ≠ []) :
    (archiveCalls root l wants us).takeWhile (fun c => !c.isUnit) = metaCalls l ++ [.startRoot root] := by
  unfold archiveCalls
  rw [List.append_assoc, List.takeWhile_append_of_pos (by intro c hc; rw [metaCalls_unit l c hc]; rfl)]
  cases us with
  | nil => exact absurd rfl h
  | cons u us =>
    unfold unitCalls
    rfl

/-! ### The XML declaration -/

theorem takeWhile_before {p : Char → Bool} (a b : Str) (c : Char) (ha : ∀ x ∈ a, p x = true) (hc : p c = false) : (a ++ c :: b).takeWhile p = a := by
  rw [List.takeWhile_append_of_pos ha, List.takeWhile_cons, hc]; simp

theorem declaredEncoding_prolog {o : Out} (hp : PlainProlog o) (hq : '"' ∉ o.xmlEncoding) (c : Char) (rest : Str) (hc : c ≠ '?') :
    declaredEncoding (prologText o ++ '<' :: c :: rest) = if isoption o.options OPTION_NO_XML_DECL then none else some o.xmlEncoding := by
  by_cases hx : isoption o.options OPTION_NO_XML_DECL = true
  · rw [if_pos hx]
    have hs : "<?xml ".toList.isPrefixOf (prologText o ++ '<' :: c :: rest) = false := by
      unfold prologText
      rw [if_pos hx, List.nil_append]
      cases he : o.processingInstruction with
      | none =>
        have : ¬ '?' = c := fun e => hc e.symm
        rw [show "<?xml ".toList = ['<', '?', 'x', 'm', 'l', ' '] from rfl]
        simp [this, List.isPrefixOf_cons_cons]
      | some td =>
        obtain ⟨t, d⟩ := td
        have h1 := pi_target (hp.target t d he) (d ++ "?>\n".toList ++ '<' :: c :: rest)
        show "<?xml ".toList.isPrefixOf ('<' :: '?' :: (t ++ ' ' :: d ++ "?>\n".toList ++ '<' :: c :: rest)) = false
        rw [show "<?xml ".toList = '<' :: '?' :: "xml ".toList from rfl, List.isPrefixOf_cons_cons, List.isPrefixOf_cons_cons]
        rw [show t ++ ' ' :: d ++ "?>\n".toList ++ '<' :: c :: rest = t ++ ' ' :: (d ++ "?>\n".toList ++ '<' :: c :: rest) by simp, h1]
        rfl
    unfold declaredEncoding
    rw [hs]
    rfl
  · rw [if_neg hx]
    obtain ⟨pi, hpi⟩ : ∃ pi, prologText o = "<?xml version=\"1.0\" encoding=\"".toList ++ o.xmlEncoding ++ "\" standalone=\"yes\"?>\n".toList ++ pi := by
      unfold prologText
      rw [if_neg hx]
      exact ⟨_, rfl⟩
    rw [hpi]
    have e : "<?xml version=\"1.0\" encoding=\"".toList ++ o.xmlEncoding ++ "\" standalone=\"yes\"?>\n".toList ++ pi ++ '<' :: c :: rest =
        ("<?xml version=\"1.0\" ".toList ++ ("encoding=\"".toList ++ (o.xmlEncoding ++ "\" standalone=\"yes\"?".toList))) ++ '>' :: ('\n' :: pi ++ '<' :: c :: rest) := by
      rw [show "<?xml version=\"1.0\" encoding=\"".toList = "<?xml version=\"1.0\" ".toList ++ "encoding=\"".toList from by decide,
        show "\" standalone=\"yes\"?>\n".toList = "\" standalone=\"yes\"?".toList ++ ['>', '\n'] from by decide]
      simp only [List.append_assoc, List.cons_append, List.nil_append]
    rw [e]
    have hd := hp.declaration
    generalize hen : o.xmlEncoding = enc at hd hq
    unfold declaredEncoding
    rw [if_pos (by
      rw [show "<?xml version=\"1.0\" ".toList = "<?xml ".toList ++ "version=\"1.0\" ".toList from by decide, List.append_assoc, List.append_assoc]
      exact List.isPrefixOf_iff_prefix.mpr ⟨_, rfl⟩)]
    rw [takeWhile_before _ _ '>' (by
      intro x hx
      have h1 : ∀ x ∈ "<?xml version=\"1.0\" ".toList, x ≠ '>' := by decide
      have h2 : ∀ x ∈ "encoding=\"".toList, x ≠ '>' := by decide
      have h3 : ∀ x ∈ "\" standalone=\"yes\"?".toList, x ≠ '>' := by decide
      simp only [List.mem_append] at hx
      simp only [decide_eq_true_eq]
      rcases hx with hx | hx | hx | hx
      · exact h1 x hx
      · exact h2 x hx
      · rintro rfl; exact hd hx
      · exact h3 x hx) (by decide)]
    have ha : ∀ s : Str, afterFirst "encoding=\"".toList ("<?xml version=\"1.0\" ".toList ++ ("encoding=\"".toList ++ s)) = some s := by
      intro s
      rfl
    rw [ha]
    simp only [Option.map_some, Option.some.injEq]
    exact takeWhile_before enc _ '"' (by intro x hx; simp only [decide_eq_true_eq]; rintro rfl; exact hq hx) (by decide)

end Srcml
