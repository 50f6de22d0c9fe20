import Verif.Spec.MovingBuffer
import Verif.Model.Client
set_option linter.unusedSimpArgs false
/-
C88: the buffer of libxml2 moves.
-/
namespace Srcml
open Spec

/-- The pointer is right: brought up to date it is at the place from which on nothing is taken. -/
structure PointsTo (x : InputBuffer × BasePointer × Str) (text : Str) (r : TextTaking) : Prop where
  doc : x.1.doc = text
  cur : x.1.cur = r.cur
  gone : x.1.consumed = r.gone
  out : x.2.2 = r.out
  pointer : x.2.1.base = x.2.1.prevbase + ((r.from_ : Int) - x.2.1.prevconsumed)
  inside : r.gone ≤ r.cur ∧ r.cur ≤ text.length ∧ r.from_ ≤ text.length

theorem update_base {s : BasePointer} {b : InputBuffer} {p : Nat} (h : s.base = s.prevbase + ((p : Int) - s.prevconsumed)) : (s.update b).base = b.address p := by
  unfold BasePointer.update InputBuffer.address
  dsimp only
  by_cases h1 : s.prevconsumed = b.consumed <;> by_cases h2 : s.prevbase = b.base <;> simp only [h1, h2, ne_eq, not_true_eq_false, not_false_eq_true, if_true, if_false, ite_true, ite_false] <;> omega

theorem text_at {s : BasePointer} {b : InputBuffer} {p : Nat} (h : s.base = b.address p) : s.text b = if b.consumed ≤ p ∧ p ≤ b.cur then .val (slice b.doc p b.cur) else .ub := by
  unfold BasePointer.text
  rw [h]
  unfold InputBuffer.address slice
  by_cases hp : b.consumed ≤ p ∧ p ≤ b.cur
  · rw [if_neg (by omega), if_pos hp]
    have h1 : b.consumed + (b.base + ((p : Int) - b.consumed) - b.base).toNat = p := by omega
    have h2 : (b.base + ((b.cur : Int) - b.consumed) - (b.base + ((p : Int) - b.consumed))).toNat = b.cur - p := by omega
    rw [h1, h2]
  · rw [if_pos (by omega), if_neg hp]

theorem buffer_step {x y : InputBuffer × BasePointer × Str} {doc : Str} {r : TextTaking} (h : BufferStep x y) (g : PointsTo x doc r) : ∃ r', TextTaking.Step doc r r' ∧ PointsTo y doc r' := by
  obtain ⟨h1, h2, h3, h4, h5, h6, h7, h8⟩ := g
  cases h with
  | move base consumed ha hb =>
    dsimp only at *
    exact ⟨_, .drop consumed (by omega) (by omega), h1, h2, rfl, h4, h5, by dsimp only; omega, h7, h8⟩
  | read n hn =>
    dsimp only at *
    rw [h1] at hn
    exact ⟨_, .read n (by omega), h1, by dsimp only; omega, h3, h4, h5, by dsimp only; omega, by dsimp only; omega, h8⟩
  | @take b s out t ht =>
    dsimp only at *
    have hu := update_base (b := b) h5
    rw [text_at hu] at ht
    split at ht
    · rename_i hp
      cases ht
      refine ⟨_, .take (by omega) (by omega), h1, h2, h3, ?_, ?_, h6, h7, h7⟩
      · dsimp only; rw [h4, h1, h2]
      · simp only [BasePointer.set, BasePointer.update, InputBuffer.address, h2]; omega
    · cases ht
  | skip k hk =>
    dsimp only at *
    rw [h1] at hk
    refine ⟨_, .skip k (by omega), h1, h2, h3, h4, ?_, h6, h7, by dsimp only; omega⟩
    simp only [BasePointer.set, BasePointer.update, InputBuffer.address, h2]; push_cast; omega
  | @leave b s out =>
    dsimp only at *
    refine ⟨_, .leave, h1, h2, h3, h4, ?_, h6, h7, h8⟩
    have hu := update_base (b := b) h5
    simp only [BasePointer.update, InputBuffer.address] at hu ⊢
    omega

/-- **C88.** However libxml2 moves its buffer, in whatever pieces it reads and whenever it calls the handler: what the handler puts together is what one would get without a buffer, from the document alone; and when it looks at what it has
not taken yet, it sees just the document from there up to where libxml2 is, as long as libxml2 has kept that text in its buffer (otherwise it reads outside of the buffer). -/
theorem C88_follows {b : InputBuffer} (hb : b.consumed ≤ b.cur ∧ b.cur ≤ b.doc.length) {x : InputBuffer × BasePointer × Str} (h : Reach (b, BasePointer.start b, []) BufferStep x) :
    ∃ r, Reach { cur := b.cur, from_ := b.cur, out := [], gone := b.consumed } (TextTaking.Step b.doc) r ∧ x.2.2 = r.out ∧ x.1.cur = r.cur ∧ x.1.consumed = r.gone ∧
      (x.2.1.update x.1).text x.1 = if r.gone ≤ r.from_ ∧ r.from_ ≤ r.cur then .val (slice b.doc r.from_ r.cur) else .ub := by
  have : ∃ r, Reach { cur := b.cur, from_ := b.cur, out := [], gone := b.consumed } (TextTaking.Step b.doc) r ∧ PointsTo x b.doc r := by
    induction h with
    | start => exact ⟨_, .start, rfl, rfl, rfl, rfl, by simp [BasePointer.start, InputBuffer.address], hb.1, hb.2, hb.2⟩
    | next _ hs ih =>
      obtain ⟨r, h1, h2⟩ := ih
      obtain ⟨r', h3, h4⟩ := buffer_step hs h2
      exact ⟨r', .next h1 h3, h4⟩
  obtain ⟨r, h1, h2⟩ := this
  refine ⟨r, h1, h2.out, h2.cur, h2.gone, ?_⟩
  rw [text_at (update_base h2.pointer), h2.doc, h2.cur, h2.gone]

/-- **C88.** If the handler takes or leaves the text at each call and never sets its pointer otherwise, then what it has put together is the document from the start up to its pointer, without a gap and without a doubled character, wherever
the buffer is now. -/
theorem C88_all_taken {b : InputBuffer} {x : InputBuffer × BasePointer × Str}
    (h : Reach (b, BasePointer.start b, []) (fun x y => BufferStep x y ∧ (y.1 = x.1 → y.2.2 = x.2.2 → y.2.1 = x.2.1.update x.1)) x) : ∃ p, b.cur ≤ p ∧ p ≤ x.1.cur ∧ x.2.2 = slice b.doc b.cur p ∧ (x.2.1.update x.1).base = x.1.address p := by
  have : ∃ p, b.cur ≤ p ∧ p ≤ x.1.cur ∧ x.1.doc = b.doc ∧ x.2.2 = slice b.doc b.cur p ∧ x.2.1.base = x.2.1.prevbase + ((p : Int) - x.2.1.prevconsumed) := by
    induction h with
    | start => exact ⟨b.cur, Nat.le_refl _, Nat.le_refl _, rfl, by simp [slice], by simp [BasePointer.start, InputBuffer.address]⟩
    | next _ hs ih =>
      obtain ⟨p, h0, h1, h2, h3, h4⟩ := ih
      obtain ⟨hs, hn⟩ := hs
      cases hs with
      | move base consumed ha hb => exact ⟨p, h0, h1, h2, h3, h4⟩
      | read n hr => exact ⟨p, h0, Nat.le_trans h1 (Nat.le_add_right _ _), h2, h3, h4⟩
      | @take b' s out t ht =>
        rw [text_at (update_base h4)] at ht
        split at ht
        · cases ht
          refine ⟨b'.cur, by dsimp only at h1 ⊢; omega, Nat.le_refl _, h2, ?_, ?_⟩
          · dsimp only at *
            rw [h3, h2]
            unfold slice
            have e : b.doc.drop p = (b.doc.drop b.cur).drop (p - b.cur) := by rw [List.drop_drop]; congr 1; omega
            rw [e, show b'.cur - b.cur = (p - b.cur) + (b'.cur - p) by omega, List.take_add]
          · simp only [BasePointer.set, BasePointer.update, InputBuffer.address]; omega
        · cases ht
      | @skip b' s out k hk =>
        have := hn rfl rfl
        dsimp only at this
        rw [this]
        exact ⟨p, h0, h1, h2, h3, by have := update_base (b := b') h4; simp only [BasePointer.update, InputBuffer.address] at this ⊢; omega⟩
      | @leave b' s out => exact ⟨p, h0, h1, h2, h3, by have := update_base (b := b') h4; simp only [BasePointer.update, InputBuffer.address] at this ⊢; omega⟩
  obtain ⟨p, h0, h1, _, h3, h4⟩ := this
  exact ⟨p, h0, h1, h3, update_base h4⟩

/-- A run: libxml2 reads three characters, puts its buffer elsewhere and drops one of them; the handler has taken the first two before. -/
example : Reach (({ doc := "abcd".toList, base := 100, consumed := 0, cur := 0 } : InputBuffer), BasePointer.start { doc := "abcd".toList, base := 100, consumed := 0, cur := 0 }, []) BufferStep
    ({ doc := "abcd".toList, base := 700, consumed := 1, cur := 4 }, { base := 703, prevbase := 700, prevconsumed := 1 }, "abcd".toList) := by
  refine .next (.next (.next (.next (.next .start (.read 2 (by decide))) (.take (t := "ab".toList) (by decide))) (.read 2 (by decide))) (.move 700 1 (by decide) (by decide))) (.take (t := "cd".toList) (by decide))

/-- **C88.** Text that libxml2 drops before the handler has taken it is read in front of the buffer: this is not defined. -/
theorem C88_finding_dropped : ∃ x, Reach (({ doc := "abcd".toList, base := 100, consumed := 0, cur := 0 } : InputBuffer), BasePointer.start { doc := "abcd".toList, base := 100, consumed := 0, cur := 0 }, []) BufferStep x ∧
    (x.2.1.update x.1).text x.1 = .ub :=
  ⟨_, .next (.next .start (.read 3 (by decide))) (.move 100 2 (by decide) (by decide)), by decide⟩

end Srcml
