import Verif.Props.SourceBytes
import Verif.Props.SrcSaxSolo
import Verif.Spec.ParseCalls
/-
Facts for C73: what the parse functions read, and which elements the tokens of the parser become.
-/
set_option linter.unusedSimpArgs false
namespace Srcml
open Spec CharBuffer

theorem drain_eq {io : Iconv} {b b' : CharBuffer} {got : Bytes} (h : Drains io b got b') : b.drain io = .val (got, b') := by
  unfold CharBuffer.drain
  have hx : ∃ p : Bytes × CharBuffer, Drains io b p.1 p.2 := ⟨(got, b'), h⟩
  rw [dif_pos hx]
  have hc := Classical.choose_spec hx
  obtain ⟨h1, h2⟩ := Drains.unique hc h
  congr 1
  exact Prod.ext h1 h2

theorem deliver_ne (c : UInt8) (b : CharBuffer) : (b.deliver c).1 ≠ 13 := by
  unfold CharBuffer.deliver
  simp only []
  by_cases h : (c == CR) = true
  · rw [if_pos h]; decide
  · rw [if_neg h]
    intro e
    exact h (by rw [e]; rfl)

theorem getChar_ne {io : Iconv} {b b' : CharBuffer} {c : UInt8} (h : b.getChar io = .val (some c, b')) : c ≠ 13 := by
  unfold CharBuffer.getChar at h
  cases hf : b.fetch io with
  | ub => rw [hf] at h; cases h
  | val r =>
    obtain ⟨r, b1⟩ := r
    rw [hf] at h
    cases r with
    | none => cases h
    | some x =>
      simp only [] at h
      split at h
      · cases hg : CharBuffer.fetch io { b1 with lastcr := false } with
        | ub => rw [hg] at h; cases h
        | val r2 =>
          obtain ⟨r2, b2⟩ := r2
          rw [hg] at h
          cases r2 with
          | none => cases h
          | some y =>
            simp only [Run.val.injEq, Prod.mk.injEq, Option.some.injEq] at h
            rw [← h.1]
            exact deliver_ne _ _
      · simp only [Run.val.injEq, Prod.mk.injEq, Option.some.injEq] at h
        rw [← h.1]
        exact deliver_ne _ _

/-- The lexer never gets a carriage return. -/
theorem drains_no_return {io : Iconv} {b b' : CharBuffer} {got : Bytes} (h : Drains io b got b') : (13 : UInt8) ∉ got := by
  induction h with
  | eof _ => simp
  | more h1 _ ih =>
    intro hm
    rcases List.mem_cons.1 hm with e | e
    · exact getChar_ne h1 e.symm
    · exact ih e

theorem bytesText_plain {got : Bytes} (h13 : (13 : UInt8) ∉ got) (hdel : (127 : UInt8) ∉ got) :
    ∀ ch ∈ bytesText got, ch.toNat < 256 ∧ ch.toNat ≠ 13 ∧ ch.toNat ≠ 127 := by
  intro ch hch
  obtain ⟨x, hx, e⟩ := bytesText_mem hch
  have h1 : x.toNat < 256 := UInt8.toNat_lt x
  refine ⟨by omega, ?_, ?_⟩
  · intro h
    have : x = 13 := UInt8.toNat_inj.1 (by rw [← e, h]; rfl)
    exact h13 (this ▸ hx)
  · intro h
    have : x = 127 := UInt8.toNat_inj.1 (by rw [← e, h]; rfl)
    exact hdel (this ▸ hx)

/-! ### The hash -/

/-- Without anything left to read, the bytes hashed stay as they are. -/
def SameHashed (b b' : CharBuffer) : Prop := b'.hashed = b.hashed ∧ b'.hashneeded = b.hashneeded ∧ b'.source = []

theorem fetch_idle {io : Iconv} {b b' : CharBuffer} {r : Option UInt8} (hs : b.source = []) (h : b.fetch io = .val (r, b')) : SameHashed b b' := by
  unfold CharBuffer.fetch at h
  simp only [] at h
  have key : ∀ b1 : CharBuffer, b1 = (if b.insize = 0 ∨ b.pos ≥ b.insize then { (b.readChars io).2 with insize := (b.readChars io).1 } else b) → SameHashed b b1 := by
    intro b1 e
    split at e
    · rename_i hc
      unfold CharBuffer.readChars at e
      rw [if_pos hc, hs] at e
      subst e
      exact ⟨rfl, rfl, rfl⟩
    · subst e; exact ⟨rfl, rfl, hs⟩
  have k := key _ rfl
  generalize (if b.insize = 0 ∨ b.pos ≥ b.insize then { (b.readChars io).2 with insize := (b.readChars io).1 } else b) = b1 at h k
  split at h
  · cases h; exact k
  · split at h
    · cases h
    · cases h; exact k

theorem getChar_idle {io : Iconv} {b b' : CharBuffer} {r : Option UInt8} (hs : b.source = []) (h : b.getChar io = .val (r, b')) : SameHashed b b' := by
  unfold CharBuffer.getChar at h
  cases hf : b.fetch io with
  | ub => rw [hf] at h; cases h
  | val p =>
    obtain ⟨r1, b1⟩ := p
    have k := fetch_idle hs hf
    rw [hf] at h
    cases r1 with
    | none => cases h; exact k
    | some x =>
      simp only [] at h
      split at h
      · cases hg : CharBuffer.fetch io { b1 with lastcr := false } with
        | ub => rw [hg] at h; cases h
        | val p2 =>
          obtain ⟨r2, b2⟩ := p2
          have k2 := fetch_idle (b := { b1 with lastcr := false }) k.2.2 hg
          rw [hg] at h
          cases r2 with
          | none => cases h; exact ⟨k2.1.trans k.1, k2.2.1.trans k.2.1, k2.2.2⟩
          | some y => cases h; exact ⟨k2.1.trans k.1, k2.2.1.trans k.2.1, k2.2.2⟩
      · cases h; exact k

theorem drains_idle {io : Iconv} {b b' : CharBuffer} {got : Bytes} (h : Drains io b got b') : b.source = [] → SameHashed b b' := by
  induction h with
  | eof h => intro hs; exact getChar_idle hs h
  | more h _ ih =>
    intro hs
    have k := getChar_idle hs h
    have k2 := ih k.2.2
    exact ⟨k2.1.trans k.1, k2.2.1.trans k.2.1, k2.2.2⟩

theorem ofMemory_source (io : Iconv) (enc : Option Str) (hn : Bool) (buffer : Bytes) :
    (ofMemory io enc hn buffer).source = [] ∧ (ofMemory io enc hn buffer).hashneeded = hn := by
  unfold ofMemory
  simp only [readChars]
  split
  · exact ⟨rfl, rfl⟩
  · have := process_hashed io { CharBuffer.base enc hn with raw := buffer, insize := buffer.length }
    exact ⟨this.2.1, this.2.2⟩

/-- The hash that a source in memory gets. -/
theorem memory_hash {sha1 : Bytes → Bytes} {io : Iconv} {enc : Option Str} {hn : Bool} {buffer got : Bytes} {b' : CharBuffer}
    (h : Drains io (ofMemory io enc hn buffer) got b') : b'.hashOnClose sha1 = if hn then some (hexAscii (sha1 buffer)) else none := by
  obtain ⟨h1, h2⟩ := ofMemory_source io enc hn buffer
  obtain ⟨k1, k2, _⟩ := drains_idle h h1
  unfold CharBuffer.hashOnClose
  rw [k2, h2, k1]
  cases hn with
  | false => rfl
  | true => rw [C02_hash_memory]

theorem hexAscii_valid (md : Bytes) : ValidValue (hexAscii md) := by
  intro c hc
  unfold hexAscii at hc
  obtain ⟨b, _, hb⟩ := List.mem_flatMap.1 hc
  have key : ∀ n < 256, xmlChar (hexchar.getD (n / 16) '0') = true ∧ xmlChar (hexchar.getD (n % 16) '0') = true := by decide +kernel
  obtain ⟨k1, k2⟩ := key b.toNat (UInt8.toNat_lt b)
  simp only [List.mem_cons, List.not_mem_nil, or_false] at hb
  rcases hb with rfl | rfl
  · exact .inl k1
  · exact .inl k2

/-! ### The elements of the tokens -/

theorem table_plain : ∀ e ∈ processTable, e.2.name ≠ "unit".toList ∧ e.2.name ≠ "macro-list".toList := by decide +kernel

theorem elementOf_mem {t : TokType} {e : Element} (h : elementOf t = some e) : ∃ k, (k, e) ∈ processTable := by
  unfold elementOf at h
  cases hf : processTable.find? (fun e => e.1 = t) with
  | none => rw [hf] at h; cases h
  | some p =>
    rw [hf] at h
    cases h
    exact ⟨p.1, List.mem_of_find?_eq_some hf⟩

theorem localName_element {env : Env} (hc : ∀ p, ':' ∉ env.pre p) {e : Element} (hn : ':' ∉ e.name) : localName (elementName env e) = e.name := by
  unfold elementName localName
  by_cases hp : env.pre e.pre = []
  · rw [if_pos hp, if_neg hn]
  · rw [if_neg hp, if_pos (by simp)]
    have : ∀ (l : Str), ':' ∉ l → (l ++ ':' :: e.name).dropWhile (· ≠ ':') = ':' :: e.name := by
      intro l hl
      induction l with
      | nil => simp [List.dropWhile]
      | cons c l ih =>
        have h1 : c ≠ ':' := fun h => hl (by simp [h])
        have h2 : ':' ∉ l := fun h => hl (by simp [h])
        simp only [List.cons_append, List.dropWhile_cons, h1, ne_eq, not_false_eq_true, decide_true, if_true]
        exact ih h2
    rw [this _ (hc _)]
    rfl

theorem token_events_plain (env : Env) (hc : ∀ p, ':' ∉ env.pre p) : ∀ (ts : List Tok) (st st' : List Str) (evs : List Ev),
    (∀ n ∈ st, localName n ≠ "unit".toList ∧ localName n ≠ "macro-list".toList) → tokenEvents env st ts = some (evs, st') → PlainNames evs
  | [], st, st', evs, _, h => by
    simp only [tokenEvents, Option.some.injEq, Prod.mk.injEq] at h
    rw [← h.1]
    rintro n (⟨_, h⟩ | h) <;> cases h
  | t :: ts, st, st', evs, hst, h => by
    have ih := token_events_plain env hc ts
    unfold tokenEvents at h
    by_cases hu : t.type = chars! "SUNIT"
    · rw [if_pos hu] at h; exact ih _ _ _ hst h
    rw [if_neg hu] at h
    cases he : elementOf t.type with
    | none =>
      rw [he] at h
      simp only [Option.map_eq_some_iff] at h
      obtain ⟨⟨e1, s1⟩, h3, h4⟩ := h
      simp only [Prod.mk.injEq] at h4
      rw [← h4.1]
      have hp := ih _ _ _ hst h3
      rintro n (⟨as, hm⟩ | hm)
      · rcases List.mem_append.1 hm with hm | hm
        · obtain ⟨_, _, hx⟩ := List.mem_map.1 hm; cases hx
        · exact hp n (.inl ⟨as, hm⟩)
      · rcases List.mem_append.1 hm with hm | hm
        · obtain ⟨_, _, hx⟩ := List.mem_map.1 hm; cases hx
        · exact hp n (.inr hm)
    | some e =>
      rw [he] at h
      dsimp only at h
      by_cases hz : e.name = []
      · rw [if_pos hz] at h; exact ih _ _ _ hst h
      rw [if_neg hz] at h
      obtain ⟨k, hk⟩ := elementOf_mem he
      have hn := (elementOf_names he).1
      have hname : localName (elementName env e) ≠ "unit".toList ∧ localName (elementName env e) ≠ "macro-list".toList := by
        rw [localName_element hc hn]
        exact table_plain _ hk
      have hcons : ∀ n ∈ elementName env e :: st, localName n ≠ "unit".toList ∧ localName n ≠ "macro-list".toList := by
        intro n hn
        rcases List.mem_cons.1 hn with rfl | hn
        · exact hname
        · exact hst n hn
      cases hcat : t.category with
      | start =>
        rw [hcat] at h
        simp only [Option.map_eq_some_iff] at h
        obtain ⟨⟨e1, s1⟩, h3, h4⟩ := h
        simp only [Prod.mk.injEq] at h4
        rw [← h4.1]
        have hp := ih _ _ _ hcons h3
        rintro n (⟨as, hm⟩ | hm)
        · rcases List.mem_cons.1 hm with hm | hm
          · cases hm; exact hname
          · exact hp n (.inl ⟨as, hm⟩)
        · rcases List.mem_cons.1 hm with hm | hm
          · cases hm
          · exact hp n (.inr hm)
      | empty =>
        rw [hcat] at h
        simp only [Option.map_eq_some_iff] at h
        obtain ⟨⟨e1, s1⟩, h3, h4⟩ := h
        simp only [Prod.mk.injEq] at h4
        rw [← h4.1]
        have hp := ih _ _ _ hst h3
        rintro n (⟨as, hm⟩ | hm)
        · rcases List.mem_cons.1 hm with hm | hm
          · cases hm; exact hname
          · rcases List.mem_cons.1 hm with hm | hm
            · cases hm
            · exact hp n (.inl ⟨as, hm⟩)
        · rcases List.mem_cons.1 hm with hm | hm
          · cases hm
          · rcases List.mem_cons.1 hm with hm | hm
            · cases hm; exact hname
            · exact hp n (.inr hm)
      | _ =>
        rw [hcat] at h
        simp only [] at h
        cases st with
        | nil => cases h
        | cons x st =>
          simp only [Option.map_eq_some_iff] at h
          obtain ⟨⟨e1, s1⟩, h3, h4⟩ := h
          simp only [Prod.mk.injEq] at h4
          rw [← h4.1]
          have hp := ih _ _ _ (fun n hn => hst n (by simp [hn])) h3
          rintro n (⟨as, hm⟩ | hm)
          · rcases List.mem_cons.1 hm with hm | hm
            · cases hm
            · exact hp n (.inl ⟨as, hm⟩)
          · rcases List.mem_cons.1 hm with hm | hm
            · cases hm; exact hst _ (by simp)
            · exact hp n (.inr hm)

theorem sourceOf_chars (s : Str) : sourceOf (s.map .ch) = s := by
  induction s with
  | nil => rfl
  | cons c s ih =>
    show [c] ++ sourceOf (s.map .ch) = _
    rw [ih]; rfl

theorem evSource_op {name : Str} {attrs : List (Str × Str)} (h : localName name ≠ "escape".toList) : evSource (.op name attrs) = [] := by
  rw [evSource, if_neg h]

/-- The source text of the elements that the tokens become is what they carry, and every `escape` element says what it stands for. -/
theorem token_events_source (env : Env) (hc : ∀ p, ':' ∉ env.pre p) (ts : List Tok) (s : Str) (h : Carries ts s) :
    ∀ (st st' : List Str) (evs : List Ev), tokenEvents env st ts = some (evs, st') → sourceOf evs = s ∧ EscapesOk evs := by
  have hne : ∀ t e, elementOf t = some e → t ≠ chars! "CONTROL_CHAR" → localName (elementName env e) ≠ "escape".toList := by
    intro t e he ht heq
    have hn := elementOf_names he
    rw [localName_element hc hn.1] at heq
    exact ht (hn.2 heq)
  induction h with
  | nil =>
    intro st st' evs hev
    simp only [tokenEvents, Option.some.injEq, Prod.mk.injEq] at hev
    rw [← hev.1]
    exact ⟨rfl, fun _ _ h => by cases h⟩
  | text t ts s h1 h2 _ ih =>
    intro st st' evs hev
    unfold tokenEvents at hev
    rw [if_neg h1, h2] at hev
    simp only [Option.map_eq_some_iff] at hev
    obtain ⟨⟨e1, s1⟩, h3, h4⟩ := hev
    simp only [Prod.mk.injEq] at h4
    obtain ⟨i1, i2⟩ := ih _ _ _ h3
    rw [← h4.1]
    refine ⟨by rw [sourceOf_append, sourceOf_chars, i1], ?_⟩
    intro name attrs hm
    rcases List.mem_append.1 hm with hm | hm
    · obtain ⟨_, _, hx⟩ := List.mem_map.1 hm; cases hx
    · exact i2 name attrs hm
  | control t ts s c h1 h2 hn ht _ ih =>
    intro st st' evs hev
    unfold tokenEvents at hev
    rw [if_neg (by rw [h1]; decide), h1, elementOf_control] at hev
    simp only [] at hev
    rw [if_neg (by decide), h2] at hev
    simp only [Option.map_eq_some_iff] at hev
    obtain ⟨⟨e1, s1⟩, h3, h4⟩ := hev
    simp only [Prod.mk.injEq] at h4
    obtain ⟨i1, i2⟩ := ih _ _ _ h3
    rw [← h4.1]
    have ha : elementAttrs env ⟨"escape".toList, .SRC, some "char".toList, none, none, none⟩ t =
        [("char".toList, t.text)] := by
      simp [elementAttrs, tableAttrs, h2]
    have hf : List.filter (fun a : Str × Str => !isNsDecl a.1) [("char".toList, t.text)] = [("char".toList, t.text)] := by
      exact List.filter_cons_of_pos (by show (!isNsDecl "char".toList) = true; decide)
    rw [ha]
    constructor
    · show evSource _ ++ (evSource _ ++ sourceOf e1) = _
      rw [i1]
      have h0 : localName (elementName env ⟨"escape".toList, .SRC, some "char".toList, none, none, none⟩) = "escape".toList :=
        localName_element hc (by decide)
      rw [evSource, if_pos h0, hf, evSource]
      simp only [List.nil_append]
      rw [ht, ← C13_code_format c hn, C13_code_reads_back c (by omega)]
      rfl
    · intro name attrs hm hl
      rcases List.mem_cons.1 hm with hm | hm
      · cases hm
        rw [hf]; simp
      · rcases List.mem_cons.1 hm with hm | hm
        · cases hm
        · exact i2 name attrs hm hl
  | markup t ts s h1 _ ih =>
    intro st st' evs hev
    unfold tokenEvents at hev
    by_cases hu : t.type = chars! "SUNIT"
    · rw [if_pos hu] at hev; exact ih _ _ _ hev
    rw [if_neg hu] at hev
    rcases h1 with h1 | ⟨h1, h2⟩
    · exact absurd h1 hu
    cases hf : elementOf t.type with
    | none => rw [hf] at h1; cases h1
    | some e =>
      rw [hf] at hev
      dsimp only at hev
      by_cases hz : e.name = []
      · rw [if_pos hz] at hev; exact ih _ _ _ hev
      rw [if_neg hz] at hev
      have hloc := hne _ _ hf h2
      have hop : ∀ as, evSource (.op (elementName env e) as) = [] := fun as => evSource_op hloc
      cases hcat : t.category with
      | start =>
        rw [hcat] at hev
        simp only [Option.map_eq_some_iff] at hev
        obtain ⟨⟨e1, s1⟩, h3, h4⟩ := hev
        simp only [Prod.mk.injEq] at h4
        obtain ⟨i1, i2⟩ := ih _ _ _ h3
        rw [← h4.1]
        refine ⟨?_, ?_⟩
        · show evSource _ ++ sourceOf e1 = _
          rw [hop, i1]; rfl
        · intro name attrs hm hl
          rcases List.mem_cons.1 hm with hm | hm
          · cases hm; exact absurd hl hloc
          · exact i2 name attrs hm hl
      | empty =>
        rw [hcat] at hev
        simp only [Option.map_eq_some_iff] at hev
        obtain ⟨⟨e1, s1⟩, h3, h4⟩ := hev
        simp only [Prod.mk.injEq] at h4
        obtain ⟨i1, i2⟩ := ih _ _ _ h3
        rw [← h4.1]
        refine ⟨?_, ?_⟩
        · show evSource _ ++ (evSource _ ++ sourceOf e1) = _
          rw [hop, i1]; rfl
        · intro name attrs hm hl
          rcases List.mem_cons.1 hm with hm | hm
          · cases hm; exact absurd hl hloc
          · rcases List.mem_cons.1 hm with hm | hm
            · cases hm
            · exact i2 name attrs hm hl
      | _ =>
        rw [hcat] at hev
        dsimp only at hev
        cases st with
        | nil => cases hev
        | cons x st =>
          simp only [Option.map_eq_some_iff] at hev
          obtain ⟨⟨e1, s1⟩, h3, h4⟩ := hev
          simp only [Prod.mk.injEq] at h4
          obtain ⟨i1, i2⟩ := ih _ _ _ h3
          rw [← h4.1]
          refine ⟨?_, ?_⟩
          · show evSource _ ++ sourceOf e1 = _
            rw [i1]; rfl
          · intro name attrs hm hl
            rcases List.mem_cons.1 hm with hm | hm
            · cases hm
            · exact i2 name attrs hm hl

/-! ### The metadata -/

theorem writeStart_data {a : Archive} {th : ThreadState} {u u' : UnitObj} {st : Status} (h : u.writeStartUnit a th = .val (st, u')) :
    st = .ok ∧ MetaKept u.data u'.data ∧ u'.data.hash = u.data.hash ∧ u'.data.url = u.data.url ∧ u'.data.encoding = u.data.encoding ∧ u'.translator ≠ none := by
  unfold UnitObj.writeStartUnit at h
  simp only [] at h
  split at h
  · cases h
  · cases h
    exact ⟨rfl, by constructor <;> rfl, rfl, rfl, rfl, by simp⟩

/-- What the end of a unit changes. -/
theorem writeEnd_data {sax : Sax} {a : Archive} {th : ThreadState} {u u' : UnitObj} (h : u.writeEndUnit sax a th = .val (.ok, u')) :
    MetaKept u.data u'.data ∧ u'.data.hash = u.data.hash ∧ u'.data.url = u.data.url ∧ u'.data.encoding = u.data.encoding ∧ u'.data.readBody = true := by
  unfold UnitObj.writeEndUnit at h
  cases ht : u.translator with
  | none => rw [ht] at h; cases h
  | some t0 =>
    rw [ht] at h
    simp only [] at h
    split at h
    · cases h
    · split at h
      · cases h
      · split at h
        · cases h
        · rename_i st u2 h2
          obtain ⟨_, hd, h3, h4, h5, _⟩ := writeStart_data h2
          split at h
          · cases h
          · split at h
            · cases h
            · cases h
              exact ⟨⟨hd.1, hd.2, hd.3, hd.4, hd.5, hd.6, hd.7, hd.8, hd.9⟩, h3, h4, h5, rfl⟩

/-- What parsing changes. -/
theorem parseTokens_data {sax : Sax} {a : Archive} {th : ThreadState} {u u' : UnitObj} {encoding : Option Str} {toks : List Tok} {hash : Option Str}
    (h : u.parseTokens sax a th encoding toks hash = .val (.ok, u')) :
    MetaKept u.data u'.data ∧ u'.data.hash = hash.or u.data.hash ∧ u'.data.url = a.url ∧ u'.data.encoding = encoding ∧ u'.data.readBody = true := by
  unfold UnitObj.parseTokens at h
  simp only [] at h
  split at h
  · cases h
  · rename_i st u1 h1
    obtain ⟨_, hd, h3, h4, h5, h6⟩ := writeStart_data h1
    split at h
    · rename_i h0; exact absurd h0 h6
    · obtain ⟨k1, k2, k3, k4, k5⟩ := writeEnd_data h
      refine ⟨⟨k1.1.trans hd.1, k1.2.trans hd.2, k1.3.trans hd.3, k1.4.trans hd.4, k1.5.trans hd.5, k1.6.trans hd.6, k1.7.trans hd.7, k1.8.trans hd.8, k1.9.trans hd.9⟩, ?_, k3.trans h4, k4.trans h5, k5⟩
      rw [k2]
      show hash.or u1.data.hash = _
      rw [h3]

end Srcml
