import Verif.Model.CharBuffer
import Verif.Spec.CharBuffer
/- Lemmas on `UTF8CharBuffer`. -/
set_option linter.unusedSimpArgs false
namespace Srcml
open Spec

/-- UTF-8 text of one block, `none` if the conversion fails. -/
def blockText (trivial : Bool) (conv : Bytes → Bytes → IconvResult) (hist chunk : Bytes) :
    Option Bytes :=
  if trivial then some chunk
  else match conv hist chunk with
    | .ok o => some o
    | .fail _ => none

/-- The blocks `chunks`, converted after `hist`, give the texts `outs`, none of them empty. -/
inductive Decodes (f : Bytes → Bytes → Option Bytes) : Bytes → List Bytes → List Bytes → Prop where
  | nil {h} : Decodes f h [] []
  | cons {h c cs o os} : c ≠ [] → o ≠ [] → f h c = some o → Decodes f (h ++ c) cs os →
      Decodes f h (c :: cs) (o :: os)

/-- Reading `source` in full buffers gives the blocks `blocks`, then `tail` remains. -/
inductive Yields : List ReadResult → List Bytes → List ReadResult → Prop where
  | done {tail} : Yields tail [] tail
  | whole {c rest cs tail} : c ≠ [] → c.length ≤ SRCBUFSIZE → Yields rest cs tail →
      Yields (some c :: rest) (c :: cs) tail
  | part {c rest cs tail} : SRCBUFSIZE < c.length → Yields (some (c.drop SRCBUFSIZE) :: rest) cs tail →
      Yields (some c :: rest) (c.take SRCBUFSIZE :: cs) tail

/-- What the next read gives ends the text, leaving `after` unread: there is nothing to read, an end
of file or an error, or a block that cannot be converted after `hist`. -/
inductive Stops (f : Bytes → Bytes → Option Bytes) (hist : Bytes) :
    List ReadResult → List ReadResult → Prop where
  | nothing : Stops f hist [] []
  | error {rest} : Stops f hist (none :: rest) rest
  | eof {rest} : Stops f hist (some [] :: rest) rest
  | bad {tail c after} : Yields tail [c] after → f hist c = none → Stops f hist tail after

namespace CharBuffer

/-- The buffer the characters are taken from. -/
def text (b : CharBuffer) : Bytes := if b.trivial then b.raw else b.cooked

/-- Invariant between reads: `t` is the text still to be delivered. -/
def Inv (e : Str) (after : List ReadResult) (b : CharBuffer) (t : Bytes) : Prop :=
  ∃ conv hist chunks outs tail,
    b.ic = some conv ∧ b.encoding = e ∧ b.firstRead = false ∧ b.inbytesleft = 0 ∧
    b.insize = b.text.length ∧ b.insize ≠ 0 ∧
    Yields b.source chunks tail ∧
    (b.trivial = false → hist = b.converted) ∧
    Decodes (blockText b.trivial conv) hist chunks outs ∧
    Stops (blockText b.trivial conv) (hist ++ chunks.flatten) tail after ∧
    t = b.text.drop b.pos ++ outs.flatten

/-- A read with an empty buffer takes the first of the blocks. -/
theorem read_block {io : Iconv} {b : CharBuffer} {c : Bytes} {cs : List Bytes} {tail : List ReadResult}
    (hcond : b.insize = 0 ∨ b.pos ≥ b.insize) (hin : b.inbytesleft = 0)
    (hy : Yields b.source (c :: cs) tail) :
    ∃ src, Yields src cs tail ∧
      b.readChars io = CharBuffer.process io { b with raw := c, source := src } := by
  simp only [readChars, hcond, if_true]
  generalize hsrc : b.source = source at hy
  cases hy with
  | @whole _ rest _ _ hc hl hr =>
    refine ⟨rest, hr, ?_⟩
    have hpos : 0 < SRCBUFSIZE := by decide
    cases c with
    | nil => exact absurd rfl hc
    | cons c0 ct =>
      simp only [hin, Nat.sub_zero, List.take_zero, List.nil_append]
      rw [List.take_of_length_le hl, List.drop_eq_nil_of_le hl]
      simp
  | @part c rest _ _ hl hr =>
    refine ⟨_, hr, ?_⟩
    have hpos : 0 < SRCBUFSIZE := by decide
    cases c with
    | nil => simp at hl
    | cons c0 ct =>
      simp only [hin, Nat.sub_zero, List.take_zero, List.nil_append]
      have h1 : List.drop SRCBUFSIZE (c0 :: ct) ≠ [] := by
        intro h; have := congrArg List.length h; simp at this; simp at hl; omega
      have h2 : List.take SRCBUFSIZE (c0 :: ct) ≠ [] := by
        intro h; have := congrArg List.length h; simp at this; omega
      rw [if_neg h1, if_neg h2]

/-- Bookkeeping members that `fetch` does not touch. -/
def Same (b b' : CharBuffer) : Prop :=
  b'.lastcr = b.lastcr ∧ b'.loc = b.loc ∧ b'.lastchar = b.lastchar ∧ b'.hashneeded = b.hashneeded

/-- What fetching gives when `t` is the text still to be delivered. -/
def FetchOk (io : Iconv) (e : Str) (after : List ReadResult) (b : CharBuffer) (t : Bytes) : Prop :=
  match t with
  | [] => ∃ b', b.fetch io = .val (none, b') ∧ Same b b' ∧ b'.encoding = e ∧ b'.source = after
  | c :: rest => ∃ b', b.fetch io = .val (some c, b') ∧ Same b b' ∧ Inv e after b' rest

theorem Inv.fetch {io e after b t} (h : Inv e after b t) :
    FetchOk io e after b t := by
  unfold FetchOk
  obtain ⟨conv, hist, chunks, outs, tail, hic, henc, hfr, hin, hsz, hnz, hsrc, hh, hd, hstop, ht⟩ := h
  by_cases hp : b.pos ≥ b.insize
  · -- the block is used up
    have hdrop : b.text.drop b.pos = [] := by
      apply List.drop_eq_nil_of_le; omega
    rw [hdrop, List.nil_append] at ht
    cases hd with
    | nil =>
      simp at ht
      have hsrc : b.source = tail := by
        generalize b.source = s at hsrc
        cases hsrc; rfl
      subst ht
      cases hstop with
      | nothing =>
        simp only [CharBuffer.fetch, hp, or_true, if_true, CharBuffer.readChars, hsrc]
        exact ⟨_, rfl, ⟨rfl, rfl, rfl, rfl⟩, henc, rfl⟩
      | error =>
        simp only [CharBuffer.fetch, hp, or_true, if_true, CharBuffer.readChars, hsrc]
        exact ⟨_, rfl, ⟨rfl, rfl, rfl, rfl⟩, henc, rfl⟩
      | eof =>
        simp only [CharBuffer.fetch, hp, or_true, if_true, CharBuffer.readChars, hsrc]
        exact ⟨_, rfl, ⟨rfl, rfl, rfl, rfl⟩, henc, rfl⟩
      | @bad _ c _ hy hc =>
        obtain ⟨src, hys, hread⟩ := read_block (io := io) (b := b) (Or.inr hp) hin (by rw [hsrc]; exact hy)
        have hsa : src = after := by cases hys; rfl
        subst hsa
        simp only [CharBuffer.fetch, hp, or_true, if_true, hread]
        simp only [CharBuffer.process, CharBuffer.setup, hfr, Bool.false_eq_true, if_false, CharBuffer.cook]
        by_cases htr : b.trivial
        · simp [blockText, htr] at hc
        · simp only [htr, Bool.false_eq_true, if_false, hic]
          simp only [Bool.not_eq_true] at htr
          have hhist := hh htr
          subst hhist
          simp only [blockText, htr, Bool.false_eq_true, if_false, List.flatten_nil,
            List.append_nil] at hc
          split at hc
          · simp at hc
          · rename_i left heq
            simp only [heq, if_true]
            exact ⟨_, rfl, ⟨rfl, rfl, rfl, rfl⟩, henc, rfl⟩
    | @cons _ c cs o os hc ho hf hrest =>
      obtain ⟨src, hys, hread⟩ := read_block (io := io) (b := b) (Or.inr hp) hin hsrc
      obtain ⟨o0, otl, rfl⟩ : ∃ x y, o = x :: y := by
        cases o with
        | nil => exact absurd rfl ho
        | cons x y => exact ⟨x, y, rfl⟩
      simp only [List.flatten_cons, List.cons_append] at ht
      subst ht
      simp only
      have hcc : ∃ c0 ct, c = c0 :: ct := by
        cases c with
        | nil => exact absurd rfl hc
        | cons x y => exact ⟨x, y, rfl⟩
      obtain ⟨c0, ct, rfl⟩ := hcc
      simp only [CharBuffer.fetch, hp, or_true, if_true, hread]
      simp only [CharBuffer.process]
      · simp only [CharBuffer.setup, hfr, Bool.false_eq_true, if_false]
        simp only [CharBuffer.cook]
        by_cases htr : b.trivial
        · simp only [htr, if_true]
          simp only [blockText, htr, if_true, Option.some.injEq] at hf
          obtain ⟨rfl, rfl⟩ := List.cons.inj hf
          refine ⟨_, rfl, ⟨rfl, rfl, rfl, rfl⟩, conv, hist ++ c0 :: ct, cs, os, tail, hic, henc, rfl, hin, ?_, ?_, hys, ?_, ?_, ?_, ?_⟩
          · simp [text]
          · simp
          · intro h; simp at h
          · simpa [htr] using hrest
          · simpa [htr] using hstop
          · simp [text]
        · simp only [htr, Bool.false_eq_true, if_false, hic]
          simp only [Bool.not_eq_true] at htr
          simp only [blockText, htr, Bool.false_eq_true, if_false] at hf
          have hhist := hh htr
          subst hhist
          split at hf
          · rename_i o' heq
            simp only [Option.some.injEq] at hf
            subst hf
            simp only [heq, List.length_cons, Nat.add_one_ne_zero, if_false,
              Bool.false_eq_true, List.getElem?_cons_zero]
            refine ⟨_, rfl, ⟨rfl, rfl, rfl, rfl⟩, conv, b.converted ++ c0 :: ct, cs, os, tail, rfl, henc, rfl, rfl, ?_, ?_, hys, ?_, ?_, ?_, ?_⟩
            · simp [text]
            · simp
            · intro _; rfl
            · simpa [htr] using hrest
            · simpa [htr] using hstop
            · simp [text]
          · simp at hf
  · -- a byte of the current block
    have hlt : b.pos < b.text.length := by omega
    have hne : ¬ (b.insize = 0 ∨ b.pos ≥ b.insize) := by omega
    rw [List.drop_eq_getElem_cons hlt] at ht
    simp only [List.cons_append] at ht
    subst ht
    simp only
    refine ⟨{ b with pos := b.pos + 1 }, ?_, ⟨rfl, rfl, rfl, rfl⟩, conv, hist, chunks, outs, tail, hic, henc, hfr, hin, hsz, hnz, hsrc, hh, hd, hstop, rfl⟩
    unfold CharBuffer.fetch
    rw [if_neg hne]
    simp only [hnz, if_false]
    have : (if b.trivial = true then b.raw else b.cooked)[b.pos]? = some b.text[b.pos] := by
      have := List.getElem?_eq_getElem hlt
      simp [text]
    rw [this]

/-- The state before the first read. -/
def Fresh (io : Iconv) (e : Str) (after : List ReadResult) (b : CharBuffer) (t : Bytes) : Prop :=
  ∃ conv c cs o os tail,
    b.firstRead = true ∧ b.insize = 0 ∧ b.inbytesleft = 0 ∧ b.converted = [] ∧
    Yields b.source (c :: cs) tail ∧
    e = (detectEncoding b.encoding c).2 ∧ io.convert e = some conv ∧
    Decodes (blockText (io.trivialp e) conv) [] (c :: cs) (o :: os) ∧
    Stops (blockText (io.trivialp e) conv) (c :: cs).flatten tail after ∧
    (detectEncoding b.encoding c).1 < o.length ∧
    t = o.drop (detectEncoding b.encoding c).1 ++ os.flatten

theorem Fresh.fetch {io e after b t} (h : Fresh io e after b t) :
    ∃ c rest, t = c :: rest ∧ ∃ b', b.fetch io = .val (some c, b') ∧ Same b b' ∧ Inv e after b' rest := by
  obtain ⟨conv, c, cs, o, os, tail, hfr, hsz, hin, hcv, hsrc, he, hconv, hd, hstop, hskip, ht⟩ := h
  cases hd with
  | cons hc ho hf hrest =>
    obtain ⟨src, hys, hread⟩ := read_block (io := io) (b := b) (Or.inl hsz) hin hsrc
    obtain ⟨c0, ct, rfl⟩ : ∃ x y, c = x :: y := by
      cases c with
      | nil => exact absurd rfl hc
      | cons x y => exact ⟨x, y, rfl⟩
    rw [List.drop_eq_getElem_cons hskip, List.cons_append] at ht
    refine ⟨_, _, ht, ?_⟩
    simp only [CharBuffer.fetch, hsz, true_or, if_true, hread]
    simp only [CharBuffer.process]
    have honz : o.length ≠ 0 := by omega
    · simp only [CharBuffer.setup, hfr, if_true, ← he, hconv, CharBuffer.cook]
      by_cases htr : io.trivialp e
      · simp only [htr, if_true]
        simp only [blockText, htr, if_true, Option.some.injEq] at hf
        subst hf
        simp only [honz, if_false]
        simp only [List.getElem?_eq_getElem hskip]
        refine ⟨_, rfl, ⟨rfl, rfl, rfl, rfl⟩, conv, c0 :: ct, cs, os, tail, rfl, rfl, rfl, hin, ?_, ?_, hys, ?_, ?_, ?_, ?_⟩
        · simp [text]
        · simp
        · intro h; simp at h
        · simpa [htr] using hrest
        · simpa [htr] using hstop
        · simp [text]
      · simp only [Bool.not_eq_true] at htr
        simp only [htr, Bool.false_eq_true, if_false, hcv]
        simp only [blockText, htr, Bool.false_eq_true, if_false] at hf
        split at hf
        · rename_i o' heq
          simp only [Option.some.injEq] at hf
          subst hf
          simp only [heq]
          simp only [honz, if_false, Bool.false_eq_true]
          simp only [List.getElem?_eq_getElem hskip]
          refine ⟨_, rfl, ⟨rfl, rfl, rfl, rfl⟩, conv, c0 :: ct, cs, os, tail, rfl, rfl, rfl, rfl, ?_, ?_, hys, ?_, ?_, ?_, ?_⟩
          · simp [text]
          · simpa using honz
          · intro _; simp
          · simpa [htr] using hrest
          · simpa [htr] using hstop
          · simp [text]
        · simp at hf

/-- Either fresh or between reads. -/
def Good (io : Iconv) (e : Str) (after : List ReadResult) (b : CharBuffer) (t : Bytes) : Prop :=
  Fresh io e after b t ∨ Inv e after b t

theorem Inv.congr {e after b t} (h : Inv e after b t) (lc : Bool) (lo : Nat) (ch : UInt8) :
    Inv e after { b with lastcr := lc, loc := lo, lastchar := ch } t := h

theorem Good.fetch {io e after b t} (h : Good io e after b t) :
    FetchOk io e after b t := by
  rcases h with h | h
  · obtain ⟨c, rest, rfl, hb⟩ := h.fetch
    exact hb
  · exact h.fetch

/-- Newline unification with the flag `lastcr`. -/
def unifyAfter (lastcr : Bool) (t : Bytes) : Bytes :=
  match lastcr, t with
  | true, 10 :: rest => unifyNewlines rest
  | _, t => unifyNewlines t

theorem unifyAfter_false (t : Bytes) : unifyAfter false t = unifyNewlines t := by
  cases t <;> rfl

theorem unify_cr (rest : Bytes) : unifyNewlines (13 :: rest) = 10 :: unifyAfter true rest := by
  cases rest with
  | nil => rfl
  | cons c cs =>
    by_cases h : c = 10
    · subst h; rfl
    · unfold unifyAfter
      split
      · rename_i heq; simp at heq; exact absurd heq.1 h
      · rw [unifyNewlines]
        intro r heq
        simp at heq; exact absurd heq.1 h

theorem unify_other (c : UInt8) (rest : Bytes) (h : c ≠ 13) :
    unifyNewlines (c :: rest) = c :: unifyNewlines rest := by
  rw [unifyNewlines]
  · intro r heq; exact fun _ => h heq
  · intro heq; exact h heq

theorem unifyAfter_cons_ne (lc : Bool) (c : UInt8) (rest : Bytes) (h : (lc && c == LF) = false) :
    unifyAfter lc (c :: rest) = unifyNewlines (c :: rest) := by
  unfold unifyAfter
  split
  · rename_i heq
    simp at heq
    simp [heq.1, LF] at h
  · rfl

/-- What is known of the final state. -/
def Fin (e : Str) (after : List ReadResult) (loc0 : Nat) (last0 : UInt8) (hn : Bool) (out : Bytes)
    (b : CharBuffer) : Prop :=
  b.encoding = e ∧ b.source = after ∧ b.loc = loc0 + out.count LF ∧
  b.lastchar = out.getLastD last0 ∧ b.hashneeded = hn

theorem Fin.cons {e after l0 last0 hn c out b} (h : Fin e after (if c == LF then l0 + 1 else l0) c hn out b) :
    Fin e after l0 last0 hn (c :: out) b := by
  obtain ⟨h1, h2, h3, h4, h5⟩ := h
  refine ⟨h1, h2, ?_, ?_, h5⟩
  · rw [h3, List.count_cons]
    split <;> omega
  · rw [h4]; cases out <;> simp [List.getLastD]

theorem deliver_unify (lc : Bool) (c : UInt8) (rest : Bytes) (h : (lc && c == LF) = false) (b : CharBuffer) :
    unifyAfter lc (c :: rest) = (b.deliver c).1 :: unifyAfter (b.deliver c).2.lastcr rest := by
  rw [unifyAfter_cons_ne lc c rest h]
  by_cases hc : c = 13
  · subst hc
    rw [unify_cr]
    simp [deliver, CR, LF]
  · rw [unify_other c rest hc]
    have : (c == CR) = false := by simpa [CR] using hc
    simp [deliver, this, unifyAfter_false]

theorem Good.drains {io e after} (n : Nat) :
    ∀ (b : CharBuffer) (t : Bytes), t.length ≤ n → Good io e after b t →
    ∃ b', Drains io b (unifyAfter b.lastcr t) b' ∧
      Fin e after b.loc b.lastchar b.hashneeded (unifyAfter b.lastcr t) b' := by
  induction n with
  | zero =>
    intro b t hn hg
    have : t = [] := by simpa using hn
    subst this
    obtain ⟨b', hf, hs, he, hsrc⟩ := hg.fetch
    have : unifyAfter b.lastcr [] = [] := by unfold unifyAfter; split <;> simp_all [unifyNewlines]
    rw [this]
    refine ⟨b', .eof ?_, he, hsrc, by simp [hs.2.1], by simp [hs.2.2.1], hs.2.2.2⟩
    simp [getChar, hf]
  | succ n ih =>
    intro b t hn hg
    cases t with
    | nil => exact (by
        obtain ⟨b', hf, hs, he, hsrc⟩ := hg.fetch
        have : unifyAfter b.lastcr [] = [] := by unfold unifyAfter; split <;> simp_all [unifyNewlines]
        rw [this]
        refine ⟨b', .eof ?_, he, hsrc, by simp [hs.2.1], by simp [hs.2.2.1], hs.2.2.2⟩
        simp [getChar, hf])
    | cons c rest =>
      obtain ⟨b1, hf, ⟨s1, s2, s3, s4⟩, hinv⟩ := hg.fetch
      by_cases hcr : (b.lastcr && c == LF) = true
      · -- the LF of a CR LF pair
        have hlf : c = 10 := by simp [LF] at hcr; exact hcr.2
        have hbl : b.lastcr = true := by simp at hcr; exact hcr.1
        subst hlf
        have hu : unifyAfter b.lastcr (10 :: rest) = unifyNewlines rest := by rw [hbl]; rfl
        have hinv' : Inv e after { b1 with lastcr := false } rest := hinv
        have hg2 := hinv'.fetch (io := io)
        cases rest with
        | nil =>
          obtain ⟨b2, hf2, ⟨r1, r2, r3, r4⟩, he, hsrc⟩ := hg2
          refine ⟨b2, ?_, ?_⟩
          · rw [hu]
            refine .eof ?_
            simp [getChar, hf, s1, hbl, LF, hf2]
          · rw [hu]
            simp at r2 r3 r4
            exact ⟨he, hsrc, by simp [unifyNewlines, r2, s2], by simp [unifyNewlines, r3, s3], by rw [r4, s4]⟩
        | cons d ds =>
          obtain ⟨b2, hf2, ⟨r1, r2, r3, r4⟩, hi2⟩ := hg2
          simp at r1 r2 r3 r4
          have hdel := deliver_unify false d ds (by simp) b2
          rw [unifyAfter_false] at hdel
          obtain ⟨b', hdr, hfin⟩ := ih (b2.deliver d).2 ds (by simp at hn; omega)
            (Or.inr (hi2.congr _ _ _))
          refine ⟨b', ?_, ?_⟩
          · rw [hu, hdel]
            refine .more ?_ hdr
            simp [getChar, hf, s1, hbl, LF, hf2, deliver]
          · rw [hu, hdel]
            apply Fin.cons
            have : (b2.deliver d).2.loc = if (b2.deliver d).1 == LF then b.loc + 1 else b.loc := by
              simp [deliver, r2, s2]
            rw [← this]
            have h4 : (b2.deliver d).2.hashneeded = b.hashneeded := by simp [deliver, r4, s4]
            rw [← h4]
            exact hfin
      · simp only [Bool.not_eq_true] at hcr
        have hdel := deliver_unify b.lastcr c rest hcr b1
        obtain ⟨b', hdr, hfin⟩ := ih (b1.deliver c).2 rest (by simp at hn; omega)
          (Or.inr (hinv.congr _ _ _))
        refine ⟨b', ?_, ?_⟩
        · rw [hdel]
          refine .more ?_ hdr
          simp only [getChar, hf, s1, hcr]
          simp [deliver]
        · rw [hdel]
          apply Fin.cons
          have : (b1.deliver c).2.loc = if (b1.deliver c).1 == LF then b.loc + 1 else b.loc := by
            simp [deliver, s2]
          rw [← this]
          have h4 : (b1.deliver c).2.hashneeded = b.hashneeded := by simp [deliver, s4]
          rw [← h4]
          exact hfin

/-- Reading up to the end is deterministic. -/
theorem Drains.unique {io b cs b1 ds b2} (h1 : Drains io b cs b1) (h2 : Drains io b ds b2) :
    cs = ds ∧ b1 = b2 := by
  induction h1 generalizing ds b2 with
  | eof h =>
    cases h2 with
    | eof h' => rw [h] at h'; simp at h'; exact ⟨rfl, h'⟩
    | more h' _ => rw [h] at h'; simp at h'
  | more h _ ih =>
    cases h2 with
    | eof h' => rw [h] at h'; simp at h'
    | more h' hr =>
      rw [h] at h'
      simp at h'
      obtain ⟨rfl, rfl⟩ := h'
      obtain ⟨rfl, rfl⟩ := ih hr
      exact ⟨rfl, rfl⟩

end CharBuffer
end Srcml

namespace Srcml
open Spec

theorem byteAt_cons_zero (x : UInt8) (xs : Bytes) : byteAt (x :: xs) 0 = x := rfl
theorem byteAt_cons_succ (x : UInt8) (xs : Bytes) (i : Nat) : byteAt (x :: xs) (i + 1) = byteAt xs i := rfl
theorem byteAt_nil (i : Nat) : byteAt [] i = 0 := by simp [byteAt]

theorem hasUtf8Bom_iff (s : Bytes) : hasUtf8Bom s = true ↔ [0xEF, 0xBB, 0xBF] <+: s := by
  rcases s with _ | ⟨a, _ | ⟨b, _ | ⟨c, t⟩⟩⟩ <;>
    simp [hasUtf8Bom, byteAt, List.cons_prefix_cons] <;> grind

theorem hasUtf16Bom_iff (s : Bytes) :
    hasUtf16Bom s = true ↔ ([0xFE, 0xFF] <+: s ∨ [0xFF, 0xFE] <+: s) := by
  rcases s with _ | ⟨a, _ | ⟨b, t⟩⟩ <;>
    simp [hasUtf16Bom, byteAt, List.cons_prefix_cons] <;> grind

theorem hasUtf32Bom_iff (s : Bytes) :
    hasUtf32Bom s = true ↔ ([0, 0, 0xFE, 0xFF] <+: s ∨ [0, 0, 0xFF, 0xFE] <+: s) := by
  rcases s with _ | ⟨a, _ | ⟨b, _ | ⟨c, _ | ⟨d, t⟩⟩⟩⟩ <;>
    simp [hasUtf32Bom, byteAt, List.cons_prefix_cons] <;> grind

theorem detect_skip (req : Str) (s : Bytes) : (detectEncoding req s).1 = bomLength s := by
  simp only [detectEncoding, bomLength]
  by_cases h : hasUtf8Bom s = true
  · simp [h, (hasUtf8Bom_iff s).mp h]
  · have := (not_congr (hasUtf8Bom_iff s)).mp h
    simp [h, this]

private theorem str_ne : ("UTF-8".toList ≠ []) ∧ ("UTF-16".toList ≠ []) ∧ ("UTF-32".toList ≠ []) ∧
    ("ISO-8859-1".toList ≠ []) := by decide

theorem detect_encoding (req : Str) (s : Bytes) : UsesEncoding req s (detectEncoding req s).2 := by
  by_cases hr : req = []
  · right
    refine ⟨hr, ?_⟩
    subst hr
    simp only [detectEncoding, and_true]
    by_cases h8 : hasUtf8Bom s = true
    · obtain ⟨t, rfl⟩ := (hasUtf8Bom_iff s).mp h8
      simp only [h8, if_true, str_ne.1, and_false, if_false]
      exact .utf8 t
    · simp only [h8, if_false]
      by_cases h16 : hasUtf16Bom s = true
      · simp only [h16, if_true, str_ne.2.1, and_false, if_false, and_true]
        rcases (hasUtf16Bom_iff s).mp h16 with ⟨t, rfl⟩ | ⟨t, rfl⟩
        · exact .utf16be t
        · exact .utf16le t
      · simp only [h16, if_false, false_and, Bool.false_eq_true, and_true]
        by_cases h32 : hasUtf32Bom s = true
        · simp only [h32, if_true, str_ne.2.2.1, if_false]
          rcases (hasUtf32Bom_iff s).mp h32 with ⟨t, rfl⟩ | ⟨t, rfl⟩
          · exact .utf32be t
          · exact .utf32odd t
        · simp only [h32, if_false, if_true]
          apply DetectedEncoding.other
          intro p hp
          rw [hasUtf8Bom_iff] at h8
          rw [hasUtf16Bom_iff] at h16
          rw [hasUtf32Bom_iff] at h32
          simp only [List.mem_cons, List.not_mem_nil, or_false] at hp
          rcases hp with rfl | rfl | rfl | rfl | rfl
          · exact h8
          · exact fun h => h16 (Or.inl h)
          · exact fun h => h16 (Or.inr h)
          · exact fun h => h32 (Or.inl h)
          · exact fun h => h32 (Or.inr h)
  · left
    refine ⟨hr, ?_⟩
    simp [detectEncoding, hr]

/-- The specification determines the encoding. -/
theorem usesEncoding_unique {req : Str} {s : Bytes} {e e' : Str} (h : UsesEncoding req s e)
    (h' : UsesEncoding req s e') : e = e' := by
  rcases h with ⟨h1, rfl⟩ | ⟨h1, h2⟩ <;> rcases h' with ⟨h3, rfl⟩ | ⟨h3, h4⟩
  · rfl
  · exact absurd h3 h1
  · exact absurd h1 h3
  · cases h2 <;> cases h4 <;> first
      | rfl
      | (rename_i h _; exact absurd (List.prefix_append _ _) (h _ (by simp)))
      | (rename_i h; exact absurd (List.prefix_append [0xEF, 0xBB, 0xBF] _) (h _ (by simp)))
      | (rename_i h; exact absurd (List.prefix_append [0xFE, 0xFF] _) (h _ (by simp)))
      | (rename_i h; exact absurd (List.prefix_append [0xFF, 0xFE] _) (h _ (by simp)))
      | (rename_i h; exact absurd (List.prefix_append [0, 0, 0xFE, 0xFF] _) (h _ (by simp)))
      | (rename_i h; exact absurd (List.prefix_append [0, 0, 0xFF, 0xFE] _) (h _ (by simp)))

/-- Converting the requested name, `none` is a null pointer. -/
def requestedName (encoding : Option Str) : Str := (encoding.map normalizeEncodingName).getD []

theorem base_encoding (encoding : Option Str) (hn : Bool) :
    (CharBuffer.base encoding hn).encoding = requestedName encoding := by
  cases encoding <;> rfl

namespace CharBuffer

/-- Bytes of the read results still to come. -/
def pendingBytes (source : List ReadResult) : Bytes := (source.filterMap id).flatten

theorem cook_hashed (b : CharBuffer) : b.cook.2.hashed = b.hashed ∧ b.cook.2.source = b.source ∧
    b.cook.2.hashneeded = b.hashneeded := by
  unfold cook
  split
  · exact ⟨rfl, rfl, rfl⟩
  · split
    · exact ⟨rfl, rfl, rfl⟩
    · split <;> exact ⟨rfl, rfl, rfl⟩

theorem process_hashed (io : Iconv) (b : CharBuffer) :
    (b.process io).2.hashed = (if b.hashneeded then b.hashed ++ b.raw.drop b.inbytesleft else b.hashed) ∧
    (b.process io).2.source = b.source ∧ (b.process io).2.hashneeded = b.hashneeded := by
  simp only [process, setup]
  split
  · exact ⟨rfl, rfl, rfl⟩
  · rename_i b' heq
    obtain ⟨h1, h2, h3⟩ := cook_hashed b'
    rw [h1, h2, h3]
    split at heq
    · split at heq
      · simp at heq
      · simp at heq; subst heq; exact ⟨rfl, rfl, rfl⟩
    · simp at heq; subst heq; exact ⟨rfl, rfl, rfl⟩

/-- One read moves its bytes from the pending ones to the digested ones (`raw` never holds more
than `inbytesleft` old bytes in front of the new ones). -/
theorem fetch_hashed {io : Iconv} {b b' : CharBuffer} {r : Option UInt8}
    (hleft : b.inbytesleft ≤ SRCBUFSIZE) (hn : b.hashneeded = true)
    (h : b.fetch io = .val (r, b')) :
    b'.hashneeded = true ∧ b'.hashed ++ pendingBytes b'.source = b.hashed ++ pendingBytes b.source := by
  unfold fetch at h
  have key : ∀ b1 : CharBuffer,
      (if b.insize = 0 ∨ b.pos ≥ b.insize then
        { (b.readChars io).2 with insize := (b.readChars io).1 } else b) = b1 →
      b1.hashneeded = true ∧ b1.hashed ++ pendingBytes b1.source = b.hashed ++ pendingBytes b.source := by
    intro b1 e
    split at e
    · rename_i hc
      subst e
      simp only [readChars, hc, if_true]
      split
      · rename_i hs; simp [hs, hn]
      · rename_i rest hs; simp [hs, hn, pendingBytes]
      · rename_i rest hs; simp [hs, hn, pendingBytes]
      · rename_i chunk rest hne hs
        have hpend : ∀ left : Bytes, pendingBytes (if left = [] then rest else some left :: rest) =
            left ++ pendingBytes rest := by
          intro left
          split
          · rename_i h; simp [h]
          · simp [pendingBytes]
        have hsp : pendingBytes b.source = chunk ++ pendingBytes rest := by simp [hs, pendingBytes]
        have hcut := List.take_append_drop (SRCBUFSIZE - b.inbytesleft) chunk
        split
        · rename_i h0
          refine ⟨hn, ?_⟩
          simp only [hpend]
          rw [h0, List.nil_append] at hcut
          rw [hcut, hsp]
        · obtain ⟨h1, h2, h3⟩ := process_hashed io
            { b with raw := (b.raw.take SRCBUFSIZE ++ List.replicate (SRCBUFSIZE - b.raw.length) 0).take b.inbytesleft ++
                        chunk.take (SRCBUFSIZE - b.inbytesleft),
                     source := if chunk.drop (SRCBUFSIZE - b.inbytesleft) = [] then rest
                       else some (chunk.drop (SRCBUFSIZE - b.inbytesleft)) :: rest }
          simp only at h1 h2 h3
          refine ⟨by rw [h3, hn], ?_⟩
          rw [h1, h2, hn, hpend]
          simp only [if_true]
          have hl : ((b.raw.take SRCBUFSIZE ++ List.replicate (SRCBUFSIZE - b.raw.length) 0).take
              b.inbytesleft).length = b.inbytesleft := by
            simp only [List.length_take, List.length_append, List.length_replicate]
            omega
          rw [List.drop_append_of_le_length (by omega), List.drop_eq_nil_of_le (by omega), hsp]
          rw [List.nil_append, List.append_assoc, ← List.append_assoc (chunk.take _), hcut]
    · subst e; exact ⟨hn, rfl⟩
  simp only at h
  have k := key _ rfl
  generalize hb1 : (if b.insize = 0 ∨ b.pos ≥ b.insize then
        { (b.readChars io).2 with insize := (b.readChars io).1 } else b) = b1 at h k
  split at h
  · simp at h; rw [← h.2]; exact k
  · split at h
    · simp at h
    · simp at h; rw [← h.2]; exact k

end CharBuffer
end Srcml

namespace Srcml
open Spec

/-- `iconv` never leaves more bytes than it was given. -/
def Iconv.WellBehaved (io : Iconv) : Prop :=
  ∀ e conv h blk left, io.convert e = some conv → conv h blk = .fail left → left ≤ blk.length

namespace CharBuffer

/-- Buffer facts kept by every call. -/
def LeftInv (io : Iconv) (b : CharBuffer) : Prop :=
  b.inbytesleft ≤ SRCBUFSIZE ∧ ∀ conv, b.ic = some conv → ∃ e, io.convert e = some conv

theorem cook_left {io : Iconv} (hio : io.WellBehaved) {b : CharBuffer} (h : LeftInv io b)
    (hr : b.raw.length ≤ SRCBUFSIZE) : LeftInv io b.cook.2 := by
  unfold cook
  split
  · exact h
  · split
    · exact h
    · rename_i conv hic
      obtain ⟨e, he⟩ := h.2 conv hic
      split
      · rename_i left hf
        exact ⟨Nat.le_trans (hio e conv _ _ left he hf) hr, h.2⟩
      · exact ⟨Nat.zero_le _, h.2⟩

theorem process_left {io : Iconv} (hio : io.WellBehaved) {b : CharBuffer} (h : LeftInv io b)
    (hr : b.raw.length ≤ SRCBUFSIZE) : LeftInv io (b.process io).2 := by
  simp only [process, setup]
  split
  · exact ⟨h.1, h.2⟩
  · rename_i b' heq
    split at heq
    · split at heq
      · simp at heq
      · rename_i conv hc
        simp at heq; subst heq
        refine cook_left hio ⟨h.1, ?_⟩ hr
        intro conv' h'
        simp at h'
        subst h'
        exact ⟨_, hc⟩
    · simp at heq; subst heq; exact cook_left hio ⟨h.1, h.2⟩ hr

theorem fetch_left {io : Iconv} (hio : io.WellBehaved) {b b' : CharBuffer} {r : Option UInt8}
    (hl : LeftInv io b) (h : b.fetch io = .val (r, b')) : LeftInv io b' := by
  unfold fetch at h
  have key : LeftInv io (if b.insize = 0 ∨ b.pos ≥ b.insize then
        { (b.readChars io).2 with insize := (b.readChars io).1 } else b) := by
    split
    · rename_i hc
      have : LeftInv io (b.readChars io).2 := by
        simp only [readChars, hc, if_true]
        split
        · exact hl
        · exact hl
        · exact hl
        · split
          · exact hl
          · apply process_left hio
            · exact hl
            · have := hl.1
              simp only [List.length_append, List.length_take, List.length_replicate]
              omega
      exact this
    · exact hl
  simp only at h
  generalize hb1 : (if b.insize = 0 ∨ b.pos ≥ b.insize then
        { (b.readChars io).2 with insize := (b.readChars io).1 } else b) = b1 at h key
  split at h
  · simp at h; rw [← h.2]; exact key
  · split at h
    · simp at h
    · simp at h; rw [← h.2]; exact key

theorem getChar_hashed {io : Iconv} (hio : io.WellBehaved) {b b' : CharBuffer} {r : Option UInt8}
    (hl : LeftInv io b) (hn : b.hashneeded = true) (h : b.getChar io = .val (r, b')) :
    LeftInv io b' ∧ b'.hashneeded = true ∧
      b'.hashed ++ pendingBytes b'.source = b.hashed ++ pendingBytes b.source := by
  unfold getChar at h
  split at h
  · simp at h
  · rename_i b1 hf
    simp at h; obtain ⟨rfl, rfl⟩ := h
    exact ⟨fetch_left hio hl hf, fetch_hashed hl.1 hn hf⟩
  · rename_i c b1 hf
    have h1 := fetch_left hio hl hf
    have h2 := fetch_hashed hl.1 hn hf
    split at h
    · split at h
      · simp at h
      · rename_i b2 hf2
        simp at h; obtain ⟨rfl, rfl⟩ := h
        have h3 := fetch_left hio (b := { b1 with lastcr := false }) h1 hf2
        have h4 := fetch_hashed (b := { b1 with lastcr := false }) h1.1 h2.1 hf2
        exact ⟨h3, h4.1, h4.2.trans h2.2⟩
      · rename_i c2 b2 hf2
        have h3 := fetch_left hio (b := { b1 with lastcr := false }) h1 hf2
        have h4 := fetch_hashed (b := { b1 with lastcr := false }) h1.1 h2.1 hf2
        simp [deliver] at h
        obtain ⟨rfl, rfl⟩ := h
        exact ⟨h3, h4.1, h4.2.trans h2.2⟩
    · simp [deliver] at h
      obtain ⟨rfl, rfl⟩ := h
      exact ⟨h1, h2⟩

/-- Any number of calls of `getChar`. -/
inductive Calls (io : Iconv) : CharBuffer → CharBuffer → Prop where
  | refl {b} : Calls io b b
  | step {b b' r b''} : Calls io b b' → b'.getChar io = .val (r, b'') → Calls io b b''

theorem Calls.hashed {io : Iconv} (hio : io.WellBehaved) {b b' : CharBuffer} (hl : LeftInv io b)
    (hn : b.hashneeded = true) (h : Calls io b b') :
    LeftInv io b' ∧ b'.hashneeded = true ∧
      b'.hashed ++ pendingBytes b'.source = b.hashed ++ pendingBytes b.source := by
  induction h with
  | refl => exact ⟨hl, hn, rfl⟩
  | step _ hg ih =>
    obtain ⟨i1, i2, i3⟩ := ih
    obtain ⟨j1, j2, j3⟩ := getChar_hashed hio i1 i2 hg
    exact ⟨j1, j2, j3.trans i3⟩

theorem Calls.head {io : Iconv} {b b' b'' : CharBuffer} {r} (hg : b.getChar io = .val (r, b'))
    (h : Calls io b' b'') : Calls io b b'' := by
  induction h with
  | refl => exact .step .refl hg
  | step _ hs ih => exact .step ih hs

theorem Drains.calls {io : Iconv} {b b' : CharBuffer} {cs} (h : Drains io b cs b') : Calls io b b' := by
  induction h with
  | eof h => exact .step .refl h
  | more h _ ih => exact Calls.head h ih

/-- The memory constructor as one processed block. -/
theorem ofMemory_inv {io : Iconv} {enc : Option Str} {hn : Bool} {buffer out : Bytes} {e conv}
    (hb : buffer ≠ []) (he : e = (detectEncoding (requestedName enc) buffer).2)
    (hc : io.convert e = some conv) (ho : blockText (io.trivialp e) conv [] buffer = some out)
    (hne : out ≠ []) :
    Inv e [] (CharBuffer.ofMemory io enc hn buffer)
      (out.drop (detectEncoding (requestedName enc) buffer).1) ∧
    (CharBuffer.ofMemory io enc hn buffer).lastcr = false ∧
    (CharBuffer.ofMemory io enc hn buffer).loc = 0 ∧
    (CharBuffer.ofMemory io enc hn buffer).lastchar = 0 ∧
    (CharBuffer.ofMemory io enc hn buffer).hashneeded = hn ∧
    (CharBuffer.ofMemory io enc hn buffer).hashed = (if hn then buffer else []) := by
  have hlen : buffer.length ≠ 0 := by simpa using hb
  have holen : out.length ≠ 0 := by simpa using hne
  have hbase := base_encoding enc hn
  simp only [ofMemory, readChars]
  have hcond : ¬ (buffer.length = 0 ∨ (CharBuffer.base enc hn).pos ≥ buffer.length) := by
    have : (CharBuffer.base enc hn).pos = 0 := rfl
    rw [this]; omega
  rw [if_neg hcond]
  simp only [process, setup]
  have hfr : (CharBuffer.base enc hn).firstRead = true := rfl
  have hhn : (CharBuffer.base enc hn).hashneeded = hn := rfl
  have hin : (CharBuffer.base enc hn).inbytesleft = 0 := rfl
  have hha : (CharBuffer.base enc hn).hashed = [] := rfl
  have hsr : (CharBuffer.base enc hn).source = [] := rfl
  have hcv : (CharBuffer.base enc hn).converted = [] := rfl
  simp only [hfr, if_true, hbase, ← he, hc, cook, hcv]
  by_cases htr : io.trivialp e
  · simp only [htr, if_true]
    simp only [blockText, htr, if_true, Option.some.injEq] at ho
    subst ho
    refine ⟨⟨conv, buffer, [], [], [], rfl, rfl, rfl, rfl, ?_, ?_, ?_, ?_, .nil, ?_, ?_⟩, rfl, rfl, rfl, rfl, ?_⟩
    · simp [text]
    · simpa using hb
    · exact .done
    · intro h; simp at h
    · exact .nothing
    · simp [text]
    · simp [hhn, hha, hin]
  · simp only [Bool.not_eq_true] at htr
    simp only [htr, Bool.false_eq_true, if_false]
    simp only [blockText, htr, Bool.false_eq_true, if_false] at ho
    split at ho
    · rename_i o' heq
      simp only [Option.some.injEq] at ho
      subst ho
      simp only [heq]
      refine ⟨⟨conv, buffer, [], [], [], rfl, rfl, rfl, rfl, ?_, ?_, ?_, ?_, .nil, ?_, ?_⟩, rfl, rfl, rfl, rfl, ?_⟩
      · simp [text]
      · simpa using hne
      · exact .done
      · intro h; simp
      · exact .nothing
      · simp [text]
      · simp [hhn, hha, hin]
    · simp at ho

end CharBuffer

theorem unhex_hexAscii (md : Bytes) : unhex (hexAscii md) = some md := by
  have one : ∀ b : UInt8,
      (hexValue (hexchar.getD (b.toNat / 16) '0') = some (b.toNat / 16)) ∧
      (hexValue (hexchar.getD (b.toNat % 16) '0') = some (b.toNat % 16)) := by
    intro b
    have h1 : b.toNat / 16 < 16 := by have := b.toNat_lt; omega
    have h2 : b.toNat % 16 < 16 := by omega
    have tab : ∀ n, n < 16 → hexValue (hexchar.getD n '0') = some n := by decide
    exact ⟨tab _ h1, tab _ h2⟩
  induction md with
  | nil => rfl
  | cons b bs ih =>
    have : hexAscii (b :: bs) = hexchar.getD (b.toNat / 16) '0' :: hexchar.getD (b.toNat % 16) '0' :: hexAscii bs := rfl
    rw [this, unhex, (one b).1, (one b).2, ih]
    simp only [Option.bind_eq_bind, Option.bind_some, Option.pure_def, Option.some.injEq, List.cons.injEq, and_true]
    have : b.toNat / 16 * 16 + b.toNat % 16 = b.toNat := by omega
    rw [this]; simp

theorem hexAscii_length (md : Bytes) : (hexAscii md).length = 2 * md.length := by
  induction md with
  | nil => rfl
  | cons b bs ih =>
    have : hexAscii (b :: bs) = hexchar.getD (b.toNat / 16) '0' :: hexchar.getD (b.toNat % 16) '0' :: hexAscii bs := rfl
    rw [this]; simp [ih]; omega

theorem latin1_ne_nil (b : UInt8) : latin1ToUtf8 b ≠ [] := by
  unfold latin1ToUtf8; split <;> simp

/-- Latin-1 blocks always decode, block by block. -/
theorem latin1_decodes (conv : Bytes → Bytes → IconvResult)
    (hconv : conv = fun _ block => .ok (block.flatMap latin1ToUtf8)) (h : Bytes) (cs : List Bytes)
    (hne : ∀ c ∈ cs, c ≠ []) :
    Decodes (blockText false conv) h cs (cs.map fun c => c.flatMap latin1ToUtf8) := by
  induction cs generalizing h with
  | nil => exact .nil
  | cons c cs ih =>
    refine .cons (hne c (by simp)) ?_ (by simp [blockText, hconv]) (ih _ (fun x hx => hne x (by simp [hx])))
    have := hne c (by simp)
    cases c with
    | nil => exact absurd rfl this
    | cons x xs =>
      simp only [List.flatMap_cons]
      intro h0
      exact latin1_ne_nil x (List.append_eq_nil_iff.mp h0).1

end Srcml
