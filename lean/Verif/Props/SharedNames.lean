import Verif.Spec.SharedNames
import Verif.Props.SrcSax
/-
C94: documents that are read in one process.
-/
set_option linter.unusedSimpArgs false
namespace Srcml
open Spec

/-! ### Alone -/

theorem startElementIn_own (s : Sax2) (name : Str) (attrs : List (Str × Str)) (next : Char) : s.startElementIn true name attrs next = s.startElement name attrs next := by
  unfold Sax2.startElementIn Sax2.startElement
  simp only [true_and]
  split
  · split
    · generalize attrs.filter (fun a => !isNsDecl a.1) = l
      cases l <;> rfl
    · rfl
  · rfl

theorem startTagIn_own (s : Sax2) (name : Str) (attrs : List (Str × Str)) (next : Char) : s.startTagIn true name attrs next = s.startTag name attrs next := by
  unfold Sax2.startTagIn Sax2.startTag Sax2.firstStartElementIn Sax2.firstStartElement
  simp only [true_and, startElementIn_own]
  rfl

theorem endElementIn_own (s : Sax2) (name : Str) : s.endElementIn true name = s.endElement name := by
  unfold Sax2.endElementIn Sax2.endElement
  simp only [true_and]

theorem feedIn_own (s : Sax2) (f : Feed) : s.feedIn true f = s.feed f := by
  cases f <;> simp only [Sax2.feedIn, Sax2.feed, startTagIn_own, endElementIn_own]
  rfl

theorem lastStarted_cons (e : DocEvent) (es : List DocEvent) : lastStarted (e :: es) = (lastStarted es).or (match e with | .start j => some j | .piece _ _ => none) := by
  unfold lastStarted
  cases e with
  | start j => rw [List.filterMap_cons]; simp only []; rw [List.getLast?_cons]; cases h : (List.filterMap _ es).getLast? <;> simp
  | piece j f => rw [List.filterMap_cons]; simp

theorem alone_any (k : Nat) : ∀ (es : List DocEvent) (d r : OpenDocs), (∀ pre f post, es = pre ++ .piece k f :: post → (lastStarted pre).or d.names = some k) → d.run es = .val r → (d.docs k).feeds (piecesOf k es) = .val (r.docs k) := by
  intro es
  induction es with
  | nil => intro d r _ h; cases h; rfl
  | cons e es ih =>
    intro d r hu h
    unfold OpenDocs.run at h
    cases e with
    | start j =>
      simp only [OpenDocs.step] at h
      exact ih { d with names := some j } r (by
        intro pre f post he
        have := hu (.start j :: pre) f post (by rw [he]; rfl)
        rw [lastStarted_cons] at this
        dsimp only at this ⊢
        cases hl : lastStarted pre with
        | none => rw [hl] at this; simpa using this
        | some x => rw [hl] at this; simpa using this) h
    | piece j f =>
      simp only [OpenDocs.step] at h
      cases hf : (d.docs j).feedIn (decide (d.names = some j)) f with
      | ub => rw [hf] at h; cases h
      | val s =>
        rw [hf] at h
        simp only [] at h
        have hi := ih _ r (by
          intro pre g post he
          have := hu (.piece j f :: pre) g post (by rw [he]; rfl)
          rw [lastStarted_cons] at this
          simpa using this) h
        by_cases hj : j = k
        · subst hj
          have hn : d.names = some j := by simpa [lastStarted] using hu [] f es rfl
          rw [hn, decide_eq_true rfl, feedIn_own] at hf
          have : piecesOf j (.piece j f :: es) = f :: piecesOf j es := by unfold piecesOf; rw [List.filterMap_cons]; simp
          rw [this, Sax2.feeds, hf]
          simpa using hi
        · have : piecesOf k (.piece j f :: es) = piecesOf k es := by unfold piecesOf; rw [List.filterMap_cons]; simp [hj]
          rw [this]
          have hkj : ¬ k = j := fun e => hj e.symm
          simpa [hkj] using hi

/-- **C94.** Whatever other documents are read in the process, and however their pieces come in between: a document that is not disturbed, that is no other one is started from its start to its end, is read as if it was alone. -/
theorem C94_alone (k : Nat) (es : List DocEvent) (docs : Nat → Sax2) (r : OpenDocs) (hu : Undisturbed k es) (h : ({ docs := docs } : OpenDocs).run es = .val r) : (docs k).feeds (piecesOf k es) = .val (r.docs k) :=
  alone_any k es _ r (by intro pre f post he; rw [hu pre f post he]; rfl) h

/-! ### One after the other -/

theorem events_append (d : OpenDocs) : ∀ (a b : List DocEvent), d.run (a ++ b) = match d.run a with | .ub => .ub | .val e => e.run b := by
  intro a
  induction a generalizing d with
  | nil => intro b; rfl
  | cons e a ih =>
    intro b
    rw [List.cons_append, OpenDocs.run, OpenDocs.run]
    cases d.step e with
    | ub => rfl
    | val d' => exact ih d' b

theorem run_pieces (k : Nat) : ∀ (fs : List Feed) (d : OpenDocs) (h : Sax2), d.names = some k → (d.docs k).feeds fs = .val h → d.run (fs.map (DocEvent.piece k)) = .val { d with docs := fun j => if j = k then h else d.docs j } := by
  intro fs
  induction fs with
  | nil =>
    intro d h _ hf
    cases hf
    show Run.val d = _
    congr 1
    cases d
    congr 1
    funext j
    dsimp only
    split
    · next e => rw [e]
    · rfl
  | cons f fs ih =>
    intro d h hn hf
    rw [Sax2.feeds] at hf
    cases hx : (d.docs k).feed f with
    | ub => rw [hx] at hf; cases hf
    | val s =>
      rw [hx] at hf
      rw [List.map_cons, OpenDocs.run, OpenDocs.step, hn, decide_eq_true rfl, feedIn_own, hx]
      dsimp only
      rw [ih _ h (by rfl) (by simpa using hf)]
      congr 2
      funext j
      dsimp only
      split <;> rfl

/-- **C94.** Documents that are read one after the other, any number of them: each is read as if it was alone. -/
theorem C94_in_turn (docs : Nat → Sax2) : ∀ (ds : List (Nat × List Feed)), (ds.map (·.1)).Nodup → ∀ (alone : Nat → Sax2), (∀ d ∈ ds, (docs d.1).feeds d.2 = .val (alone d.1)) →
    ∃ r, ({ docs := docs } : OpenDocs).run (inTurn ds) = .val r ∧ ∀ d ∈ ds, r.docs d.1 = alone d.1 := by
  have key : ∀ (ds : List (Nat × List Feed)) (o : OpenDocs), (ds.map (·.1)).Nodup → ∀ (alone : Nat → Sax2), (∀ d ∈ ds, (o.docs d.1).feeds d.2 = .val (alone d.1)) →
      ∃ r, o.run (inTurn ds) = .val r ∧ (∀ d ∈ ds, r.docs d.1 = alone d.1) ∧ ∀ j, j ∉ ds.map (·.1) → r.docs j = o.docs j := by
    intro ds
    induction ds with
    | nil => intro o _ alone _; exact ⟨o, rfl, (by intro d hd; cases hd), fun _ _ => rfl⟩
    | cons x ds ih =>
      intro o hnd alone hf
      rw [List.map_cons, List.nodup_cons] at hnd
      obtain ⟨hx, hnd⟩ := hnd
      have h1 := run_pieces x.1 x.2 { o with names := some x.1 } (alone x.1) rfl (hf x (List.mem_cons_self ..))
      have hne : ∀ d ∈ ds, d.1 ≠ x.1 := fun d hd e => hx (by rw [← e]; exact List.mem_map_of_mem hd)
      obtain ⟨r, r1, r2, r3⟩ := ih { docs := fun j => if j = x.1 then alone x.1 else o.docs j, names := some x.1 } hnd alone (by
        intro d hd
        dsimp only
        rw [if_neg (hne d hd)]
        exact hf d (List.mem_cons_of_mem _ hd))
      refine ⟨r, ?_, ?_, ?_⟩
      · show o.run ((DocEvent.start x.1 :: x.2.map (DocEvent.piece x.1)) ++ inTurn ds) = _
        rw [events_append, OpenDocs.run, OpenDocs.step]
        dsimp only
        rw [h1]
        exact r1
      · intro d hd
        rcases List.mem_cons.mp hd with rfl | hd
        · rw [r3 _ hx]; simp
        · exact r2 d hd
      · intro j hj
        rw [List.map_cons, List.mem_cons, not_or] at hj
        rw [r3 j hj.2]
        simp [hj.1]
  intro ds hnd alone hf
  obtain ⟨r, r1, r2, _⟩ := key ds { docs := docs } hnd alone hf
  exact ⟨r, r1, r2⟩

/-- **C94**, with C25: an archive of units that the library made, read among any other documents. If it is not disturbed, the user gets exactly its units, in their order, and then the end, in every interleaving of the two threads of its reader. -/
theorem C94_reads (a : Archive) (th : ThreadState) (ms : List MadeUnit) (hA : isoption a.options OPTION_ARCHIVE = true) (hne : ms ≠ []) (ha : CarriedArchive a) (hm : ∀ m ∈ ms, m.Carried a) :
    ∃ s doc, (newIO a th).calls (.openWrite true .memory :: ms.map (fun m => .writeUnit m.ua (some m.u) none) ++ [.close]) = .val s ∧ s.delivered = some doc ∧
      ∀ (k : Nat) (es : List DocEvent) (docs : Nat → Sax2) (wants : List Bool) (last : OpenDocs), docs k = { wants := wants } → Undisturbed k es → Delivers doc (piecesOf k es) → ({ docs := docs } : OpenDocs).run es = .val last →
        AnyCalls (last.docs k).log ∧ ∀ (fin : Finish) (r : Reader), Reach { todo := (last.docs k).log.filterMap saxCall, finish := fin } Reader.Step r →
          (∀ i (hi : i < r.log.length), (wants[i]?).getD false = decide ((r.log[i]).1 = .read)) →
          ∀ i (hi : i < r.log.length), (∀ hn : i < ms.length, (r.log[i]).1 = .read → ∃ v, gets (last.docs k).log (r.log[i]).2 = some v ∧ SameUnit a ms[i] v) ∧ (ms.length ≤ i → (r.log[i]).2 = none) := by
  obtain ⟨s, doc, h1, h2, h3⟩ := C25_made_units a th ms hA hne ha hm
  refine ⟨s, doc, h1, h2, ?_⟩
  intro k es docs wants last hk hu hd hr
  obtain ⟨h, g1, g2⟩ := h3 _ wants hd
  have := C94_alone k es docs last hu hr
  rw [hk, g1] at this
  cases this
  exact g2

/-! ### Disturbed -/

/-- Is the call an end? -/
def endCall : Upper → Bool
  | .endUnit _ | .endRoot => true
  | _ => false

/-- The log has grown, without an end. -/
def NoEnds (a b : List Upper) : Prop := ∃ m, b = a ++ m ∧ ∀ u ∈ m, endCall u = false

theorem NoEnds.refl (a : List Upper) : NoEnds a a := ⟨[], by simp, by simp⟩
theorem NoEnds.trans {a b c : List Upper} (h : NoEnds a b) (g : NoEnds b c) : NoEnds a c := by
  obtain ⟨m, rfl, hm⟩ := h
  obtain ⟨n, rfl, hn⟩ := g
  refine ⟨m ++ n, by simp, ?_⟩
  intro u hu
  rcases List.mem_append.mp hu with h | h
  · exact hm u h
  · exact hn u h
theorem NoEnds.one (a : List Upper) {u : Upper} (h : endCall u = false) : NoEnds a (a ++ [u]) := ⟨[u], rfl, by intro v hv; cases List.mem_singleton.mp hv; exact h⟩

theorem upperStartUnit_noEnds (s : Sax2) (attrs : List (Str × Str)) : NoEnds s.log (s.upperStartUnit attrs).log := by
  unfold Sax2.upperStartUnit
  exact .one _ rfl

theorem ite_val {c : Prop} [Decidable c] {a b t : Sax2} (h : (if c then Run.val a else Run.val b) = Run.val t) : t = a ∨ t = b := by
  split at h <;> (cases h; simp)

theorem startUnit_noEnds {s t : Sax2} {name : Str} {attrs : List (Str × Str)} {next : Char} {up : Bool} (h : s.startUnit name attrs next up = .val t) : NoEnds s.log t.log := by
  unfold Sax2.startUnit at h
  by_cases hx : ("xmlns".toList, CPP_NS_URI) ∈ attrs
  · rw [if_pos hx] at h; cases h
  · rw [if_neg hx] at h
    cases up with
    | false => rcases ite_val h with rfl | rfl <;> exact .refl _
    | true => rcases ite_val h with rfl | rfl <;> exact upperStartUnit_noEnds _ _

theorem startRoot_noEnds {s t : Sax2} {name : Str} {attrs : List (Str × Str)} {next : Char} (h : s.startRoot name attrs next = .val t) : NoEnds s.log t.log := by
  unfold Sax2.startRoot at h
  dsimp only at h
  split at h
  · cases h
  · next s' hs =>
    have h1 := startUnit_noEnds hs
    cases h
    dsimp only
    refine .trans (b := s'.log) (.trans ?_ h1) ?_
    · split
      · exact .one _ rfl
      · exact .refl _
    · split
      · exact upperStartUnit_noEnds _ _
      · exact .refl _

theorem reparse_noEnds (s : Sax2) : NoEnds s.log s.reparseRoot.log := by
  unfold Sax2.reparseRoot
  dsimp only
  split
  · exact .one _ rfl
  · exact .trans (.one _ rfl) (upperStartUnit_noEnds _ _)

theorem element_noEnds {s t : Sax2} {name : Str} {attrs : List (Str × Str)} {next : Char} (h : s.startElementIn false name attrs next = .val t) : NoEnds s.log t.log := by
  unfold Sax2.startElementIn at h
  simp only [Bool.false_eq_true, false_and, if_false] at h
  split at h <;> (cases h; exact .refl _)

theorem tag_noEnds {s t : Sax2} {name : Str} {attrs : List (Str × Str)} {next : Char} (h : s.startTagIn false name attrs next = .val t) : NoEnds s.log t.log := by
  unfold Sax2.startTagIn at h
  dsimp only at h
  split at h
  · cases h
  · next s' hs =>
    cases h
    dsimp only
    split at hs
    · exact startRoot_noEnds hs
    · unfold Sax2.firstStartElementIn at hs
      simp only [Bool.false_eq_true, false_and, if_false, decide_false] at hs
      split at hs
      · have h1 := startUnit_noEnds hs
        exact .trans (reparse_noEnds { s with isArchive := false, start := .element }) h1
      · have h1 := element_noEnds hs
        exact .trans (reparse_noEnds { s with isArchive := false, start := .element }) h1
    · exact element_noEnds hs
    · exact startUnit_noEnds hs
    · cases hs; exact .refl _

theorem end_noEnds (s : Sax2) (name : Str) : (s.endElementIn false name).log = s.log := by
  unfold Sax2.endElementIn
  simp only [Bool.false_eq_true, false_and, if_false]
  split <;> rfl

theorem chars_noEnds {s t : Sax2} {ch ahead : Str} (h : s.characters ch ahead = .val t) : t.log = s.log := by
  unfold Sax2.characters Sax2.charactersUnit at h
  grind

theorem feed_noEnds {s t : Sax2} {f : Feed} (h : s.feedIn false f = .val t) : NoEnds s.log t.log := by
  cases f with
  | startTag text name attrs => exact tag_noEnds (s := { s with pend := s.pend ++ text }) h
  | emptyTag text name attrs =>
    simp only [Sax2.feedIn] at h
    split at h
    · cases h
    · next s' hs =>
      cases h
      rw [end_noEnds]
      have h1 := tag_noEnds hs
      exact h1
  | endTag text name => simp only [Sax2.feedIn, Run.val.injEq] at h; subst h; rw [end_noEnds]; exact .refl _
  | text ch after =>
    simp only [Sax2.feedIn, Sax2.feed] at h
    split at h <;> (rw [chars_noEnds h]; exact .refl _)
  | ref text c => simp only [Sax2.feedIn, Sax2.feed] at h; rw [chars_noEnds h]; exact .refl _
  | pi text => simp only [Sax2.feedIn, Sax2.feed] at h; split at h <;> (cases h; exact .refl _)
  | comment text value => simp only [Sax2.feedIn, Sax2.feed] at h; split at h <;> try split at h
                          all_goals (cases h; exact .refl _)
  | cdata text value => simp only [Sax2.feedIn, Sax2.feed] at h; split at h <;> (cases h; exact .refl _)
  | blank ch => simp only [Sax2.feedIn, Sax2.feed] at h; cases h; exact .refl _

theorem units_noEnds : ∀ (a m : List Upper), (∀ u ∈ m, endCall u = false) → unitsOf (a ++ m) = unitsOf a := by
  have nil : ∀ m : List Upper, (∀ u ∈ m, endCall u = false) → unitsOf m = [] := by
    intro m
    fun_induction unitsOf m with
    | case1 attrs c rest ih => intro h; have := h (.endUnit c) (by simp); cases this
    | case2 u rest hu ih => intro h; exact ih (fun v hv => h v (List.mem_cons_of_mem _ hv))
    | case3 => intro _; rfl
  intro a m hm
  fun_induction unitsOf a with
  | case1 attrs c rest ih => rw [List.cons_append, List.cons_append, unitsOf, ih]
  | case2 u rest hu ih =>
    rw [List.cons_append, ← ih]
    rw [unitsOf]
    intro attrs c rest' e1 e2
    cases rest with
    | nil =>
      rw [List.nil_append] at e2
      rw [e2] at hm
      have := hm (.endUnit c) (by simp)
      cases this
    | cons v rest =>
      rw [List.cons_append] at e2
      cases e2
      exact hu _ _ _ e1 rfl
  | case3 => rw [List.nil_append, nil m hm]

/-- Another document is started before this one has come to its end: no unit of this one is ever handed out any more (what a call of the user gives is a unit that had come to its end before), and its end is not seen, whatever comes. -/
theorem C94_finding_lost (k j : Nat) (hj : j ≠ k) (before after : List DocEvent) (hs : .start k ∉ after) (docs : Nat → Sax2) (mid last : OpenDocs) (h1 : ({ docs := docs } : OpenDocs).run before = .val mid)
    (h2 : mid.run (.start j :: after) = .val last) :
    unitsOf (last.docs k).log = unitsOf (mid.docs k).log ∧ (∀ call, gets (last.docs k).log call = gets (mid.docs k).log call) ∧ (.endRoot ∉ (mid.docs k).log → .endRoot ∉ (last.docs k).log) := by
  have key : ∀ (es : List DocEvent) (d : OpenDocs), .start k ∉ es → d.names ≠ some k → ∀ r, d.run es = .val r → NoEnds (d.docs k).log (r.docs k).log := by
    intro es
    induction es with
    | nil => intro d _ _ r h; cases h; exact .refl _
    | cons e es ih =>
      intro d hs hn r h
      rw [List.mem_cons, not_or] at hs
      rw [OpenDocs.run] at h
      cases e with
      | start i =>
        simp only [OpenDocs.step] at h
        refine ih { d with names := some i } hs.2 ?_ r h
        intro e
        cases e
        exact hs.1 rfl
      | piece i f =>
        simp only [OpenDocs.step] at h
        cases hf : (d.docs i).feedIn (decide (d.names = some i)) f with
        | ub => rw [hf] at h; cases h
        | val s =>
          rw [hf] at h
          have hi := ih { d with docs := fun j => if j = i then s else d.docs j } hs.2 hn r h
          dsimp only at hi
          by_cases hik : i = k
          · subst hik
            rw [decide_eq_false hn] at hf
            rw [if_pos rfl] at hi
            exact .trans (feed_noEnds hf) hi
          · rw [if_neg (fun e => hik e.symm)] at hi
            exact hi
  rw [OpenDocs.run, OpenDocs.step] at h2
  obtain ⟨m, hm, hm2⟩ := key after { mid with names := some j } hs (by intro e; cases e; exact hj rfl) last h2
  dsimp only at hm
  rw [hm]
  refine ⟨units_noEnds _ _ hm2, by intro call; unfold gets; rw [units_noEnds _ _ hm2], ?_⟩
  intro hn hc
  rcases List.mem_append.mp hc with h | h
  · exact hn h
  · have := hm2 _ h
    cases this

/-- The number of units that are handed out for each of the first two documents. -/
def unitCounts (es : List DocEvent) : Option (Nat × Nat) :=
  match ({ docs := fun _ => { wants := [true, true] } } : OpenDocs).run es with
  | .val r => some ((unitsOf (r.docs 0).log).length, (unitsOf (r.docs 1).log).length)
  | .ub => none

/-- An archive of two units. -/
def twoUnits : List Feed := pieces "<unit k=\"\"><unit>a</unit><unit>b</unit></unit>".toList

/-- Two archives of two units. The second one is opened after the first unit of the first one was read: the first archive has no second unit. One after the other, both have two. -/
theorem C94_finding_two_archives :
    unitCounts (.start 0 :: (twoUnits.take 4).map (.piece 0) ++ .start 1 :: twoUnits.map (.piece 1) ++ (twoUnits.drop 4).map (.piece 0)) = some (1, 2) ∧
    unitCounts (inTurn [(0, twoUnits), (1, twoUnits)]) = some (2, 2) := by
  constructor <;> decide +kernel

/-- In the run above the second document is not disturbed: what C94_alone asks for, with pieces of another document after its start. -/
example (f g : Feed) : Undisturbed 1 [.start 0, .piece 0 f, .start 1, .piece 1 g, .piece 0 f, .piece 1 f] := by
  intro pre h post e
  match pre, e with
  | [], e => cases e
  | [_], e => simp at e
  | [_, _], e => simp at e
  | [_, _, _], e => simp only [List.cons_append, List.nil_append, List.cons.injEq] at e; obtain ⟨rfl, rfl, rfl, _⟩ := e; rfl
  | [_, _, _, _], e => simp at e
  | [_, _, _, _, _], e => simp only [List.cons_append, List.nil_append, List.cons.injEq] at e; obtain ⟨rfl, rfl, rfl, rfl, rfl, _⟩ := e; rfl
  | _ :: _ :: _ :: _ :: _ :: _ :: pre, e => cases pre <;> simp at e

end Srcml
