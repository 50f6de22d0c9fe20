import Verif.Model.InputText
import Verif.Spec.InputText
import Verif.Props.InputName
set_option linter.unusedSimpArgs false
/-
C44: escapes in the text argument.
-/
namespace Srcml
open Spec

theorem char_le {a b : Char} : a ≤ b ↔ a.toNat ≤ b.toNat := by
  show a.val ≤ b.val ↔ _
  exact UInt32.le_iff_toNat_le

theorem isodigit_iff (c : Char) : isodigit c = true ↔ IsOct c := by
  constructor
  · intro h
    simp only [isodigit, decide_eq_true_eq, char_le] at h
    have : c.toNat = 48 ∨ c.toNat = 49 ∨ c.toNat = 50 ∨ c.toNat = 51 ∨ c.toNat = 52 ∨ c.toNat = 53 ∨ c.toNat = 54 ∨
        c.toNat = 55 := by
      have h1 : '0'.toNat = 48 := rfl
      have h2 : '7'.toNat = 55 := rfl
      omega
    rcases this with h | h | h | h | h | h | h | h <;>
      (have := congrArg Char.ofNat h; rw [Char.ofNat_toNat] at this; subst this; decide)
  · intro h
    simp only [IsOct, show "01234567".toList = ['0','1','2','3','4','5','6','7'] from rfl, List.mem_cons, List.not_mem_nil,
      or_false] at h
    rcases h with h | h | h | h | h | h | h | h <;> subst h <;> decide

theorem isxdigit_iff (c : Char) : isxdigit c = true ↔ IsHex c := by
  constructor
  · intro h
    simp only [isxdigit, decide_eq_true_eq, char_le] at h
    have : c.toNat = 48 ∨ c.toNat = 49 ∨ c.toNat = 50 ∨ c.toNat = 51 ∨ c.toNat = 52 ∨ c.toNat = 53 ∨ c.toNat = 54 ∨
        c.toNat = 55 ∨ c.toNat = 56 ∨ c.toNat = 57 ∨ c.toNat = 97 ∨ c.toNat = 98 ∨ c.toNat = 99 ∨ c.toNat = 100 ∨
        c.toNat = 101 ∨ c.toNat = 102 ∨ c.toNat = 65 ∨ c.toNat = 66 ∨ c.toNat = 67 ∨ c.toNat = 68 ∨ c.toNat = 69 ∨
        c.toNat = 70 := by
      have h1 : '0'.toNat = 48 := rfl
      have h2 : '9'.toNat = 57 := rfl
      have h3 : 'a'.toNat = 97 := rfl
      have h4 : 'f'.toNat = 102 := rfl
      have h5 : 'A'.toNat = 65 := rfl
      have h6 : 'F'.toNat = 70 := rfl
      omega
    rcases this with h | h | h | h | h | h | h | h | h | h | h | h | h | h | h | h | h | h | h | h | h | h <;>
      (have := congrArg Char.ofNat h; rw [Char.ofNat_toNat] at this; subst this; decide)
  · intro h
    simp only [IsHex, show "0123456789abcdefABCDEF".toList = ['0','1','2','3','4','5','6','7','8','9','a','b','c','d',
      'e','f','A','B','C','D','E','F'] from rfl, List.mem_cons, List.not_mem_nil, or_false] at h
    rcases h with h | h | h | h | h | h | h | h | h | h | h | h | h | h | h | h | h | h | h | h | h | h <;>
      subst h <;> decide

theorem hex2decimal_eq (c : Char) (h : IsHex c) : hex2decimal c = digitVal c := by
  simp only [IsHex, show "0123456789abcdefABCDEF".toList = ['0','1','2','3','4','5','6','7','8','9','a','b','c','d',
    'e','f','A','B','C','D','E','F'] from rfl, List.mem_cons, List.not_mem_nil, or_false] at h
  rcases h with h | h | h | h | h | h | h | h | h | h | h | h | h | h | h | h | h | h | h | h | h | h <;>
    subst h <;> decide +kernel

theorem odigit_eq (c : Char) (h : IsOct c) : c.toNat - '0'.toNat = digitVal c := by
  simp only [IsOct, show "01234567".toList = ['0','1','2','3','4','5','6','7'] from rfl, List.mem_cons, List.not_mem_nil,
    or_false] at h
  rcases h with h | h | h | h | h | h | h | h <;> subst h <;> decide +kernel

theorem digitsValue_eq (b : Nat) (f : Char → Nat) (ds : Str) (h : ∀ d ∈ ds, f d = digitVal d) (v : Nat) :
    digitsValue b f ds v = v * b ^ ds.length + baseValue b ds := by
  induction ds generalizing v with
  | nil => simp [digitsValue, baseValue]
  | cons d ds ih =>
    simp only [digitsValue]
    rw [ih (fun x hx => h x (by simp [hx])), h d (by simp)]
    simp only [baseValue, List.length_cons, Nat.pow_succ, Nat.add_mul]
    have : b * v * b ^ ds.length = v * (b ^ ds.length * b) := by
      rw [Nat.mul_comm b v, Nat.mul_assoc, Nat.mul_comm b]
    omega

theorem takeWhile_digits (p : Char → Bool) (ds rest : Str) (n : Nat) (hall : ∀ d ∈ ds, p d = true) (hn : ds.length ≤ n)
    (hstop : ds.length = n ∨ ∀ d, rest.head? = some d → p d = false) :
    ((ds ++ rest).take n).takeWhile p = ds := by
  induction ds generalizing n with
  | nil =>
    cases n with
    | zero => simp
    | succ n =>
      cases rest with
      | nil => simp
      | cons x xs =>
        have : p x = false := by
          rcases hstop with h | h
          · simp at h
          · exact h x rfl
        simp [this]
  | cons d ds ih =>
    cases n with
    | zero => simp at hn
    | succ n =>
      simp only [List.cons_append, List.take_succ_cons, List.takeWhile_cons, hall d (by simp), if_true]
      rw [ih n (fun x hx => hall x (by simp [hx])) (by simpa using hn) (by simpa using hstop)]

theorem number_lt (b : Nat) (ds : Str) (h : ∀ d ∈ ds, digitVal d < b) : baseValue b ds < b ^ ds.length := by
  induction ds with
  | nil => simp [baseValue]
  | cons d ds ih =>
    have h1 := ih (fun x hx => h x (by simp [hx]))
    have h2 := h d (by simp)
    simp only [baseValue, List.length_cons, Nat.pow_succ]
    have : (digitVal d + 1) * b ^ ds.length ≤ b * b ^ ds.length := Nat.mul_le_mul_right _ h2
    rw [Nat.add_mul] at this
    rw [Nat.mul_comm (b ^ ds.length) b]
    omega

theorem hexVal_lt (d : Char) (h : IsHex d) : digitVal d < 16 := by
  simp only [IsHex, show "0123456789abcdefABCDEF".toList = ['0','1','2','3','4','5','6','7','8','9','a','b','c','d',
    'e','f','A','B','C','D','E','F'] from rfl, List.mem_cons, List.not_mem_nil, or_false] at h
  rcases h with h | h | h | h | h | h | h | h | h | h | h | h | h | h | h | h | h | h | h | h | h | h <;>
    subst h <;> decide +kernel

theorem simpleEscape_letter (c : Char) (code : Nat) (h : (c, code) ∈ letters) :
    simpleEscape c = some (Char.ofNat code) := by
  simp only [letters, List.mem_cons, List.not_mem_nil, or_false, Prod.mk.injEq] at h
  rcases h with h | h | h | h | h | h | h | h <;> obtain ⟨rfl, rfl⟩ := h <;> decide

theorem simpleEscape_none (c : Char) (h : ∀ p ∈ letters, p.1 ≠ c) : simpleEscape c = none := by
  have h' : ∀ x ∈ ['n','t','f','a','b','e','r','v'], x ≠ c := by
    intro x hx
    have : ∃ n, (x, n) ∈ letters := by
      simp only [List.mem_cons, List.not_mem_nil, or_false] at hx
      rcases hx with h | h | h | h | h | h | h | h <;> subst h <;> simp [letters]
    obtain ⟨n, hn⟩ := this
    exact h _ hn
  simp only [List.mem_cons, List.not_mem_nil, or_false, forall_eq_or_imp, forall_eq] at h'
  obtain ⟨h1, h2, h3, h4, h5, h6, h7, h8⟩ := h'
  simp [simpleEscape, h1.symm, h2.symm, h3.symm, h4.symm, h5.symm, h6.symm, h7.symm, h8.symm]

theorem oct_not_letter (c : Char) (h : IsOct c) : simpleEscape c = none ∧ c ≠ 'x' := by
  simp only [IsOct, show "01234567".toList = ['0','1','2','3','4','5','6','7'] from rfl, List.mem_cons, List.not_mem_nil,
    or_false] at h
  rcases h with h | h | h | h | h | h | h | h <;> subst h <;> decide

theorem not_oct_false {c : Char} (h : ¬ IsOct c) : isodigit c = false := by
  cases e : isodigit c with
  | false => rfl
  | true => exact absurd ((isodigit_iff c).mp e) h

theorem not_hex_false {c : Char} (h : ¬ IsHex c) : isxdigit c = false := by
  cases e : isxdigit c with
  | false => rfl
  | true => exact absurd ((isxdigit_iff c).mp e) h

/-- One escape is read as the item. -/
theorem escape_item (e : Char) (r rest : Str) (i : Item) (hi : i.text = '\\' :: e :: r) (hok : i.Ok rest)
    (hne : ∀ c, i ≠ .plain c) : escapeAt e (r ++ rest) = (i.value, rest) := by
  cases i with
  | plain c => exact absurd rfl (hne c)
  | letter c code =>
    simp [Item.text] at hi
    obtain ⟨rfl, rfl⟩ := hi
    simp [escapeAt, simpleEscape_letter _ _ hok, Item.value]
  | hex ds =>
    simp [Item.text] at hi
    obtain ⟨rfl, rfl⟩ := hi
    obtain ⟨h1, h2, h3, h4⟩ := hok
    have ht := takeWhile_digits isxdigit ds rest 2 (fun d hd => (isxdigit_iff d).mpr (h1 d hd)) h3
      (h4.imp id (fun h d hd => not_hex_false (h d hd)))
    have hv := digitsValue_eq 16 hex2decimal ds (fun d hd => hex2decimal_eq d (h1 d hd)) 0
    simp at hv
    have hlt := number_lt 16 ds (fun d hd => hexVal_lt d (h1 d hd))
    have : baseValue 16 ds < 256 := by
      have : 16 ^ ds.length ≤ 16 ^ 2 := Nat.pow_le_pow_right (by omega) h3
      omega
    have hs : simpleEscape 'x' = none := by decide
    simp only [escapeAt, hs, if_true, ht, h2, if_false, hv, List.drop_left, Item.value, byte]
    split
    · rfl
    · rw [Nat.mod_eq_of_lt this]
  | octal ds =>
    obtain ⟨h1, h3, ⟨d, r', hd, hd0⟩, h4⟩ := hok
    subst hd
    simp [Item.text] at hi
    obtain ⟨rfl, rfl⟩ := hi
    have hs := oct_not_letter d (h1 d (by simp))
    have ht := takeWhile_digits isodigit r' rest 2 (fun x hx => (isodigit_iff x).mpr (h1 x (by simp [hx])))
      (by simpa using h3) (by
        rcases h4 with h4 | h4
        · exact .inl (by simpa using h4)
        · exact .inr fun x hx => not_oct_false (h4 x hx))
    have hv := digitsValue_eq 8 (fun d => d.toNat - '0'.toNat) (d :: r') (fun x hx => odigit_eq x (h1 x hx)) 0
    simp only [Nat.zero_mul, Nat.zero_add] at hv
    have ho := (isodigit_iff d).mpr (h1 d (by simp))
    simp only [escapeAt, hs.1, hs.2, if_false, ho, if_true, hd0, ht, hv, Item.value, byte, List.length_cons,
      Nat.add_sub_cancel, List.drop_left]
    split <;> rfl
  | zeroOctal ds =>
    simp [Item.text] at hi
    obtain ⟨rfl, rfl⟩ := hi
    obtain ⟨h1, h3, h4⟩ := hok
    have hs : simpleEscape '0' = none ∧ '0' ≠ 'x' ∧ isodigit '0' = true := by decide
    have ht := takeWhile_digits isodigit ds rest 3 (fun x hx => (isodigit_iff x).mpr (h1 x hx)) h3
      (h4.imp id (fun h d hd => not_oct_false (h d hd)))
    have hv := digitsValue_eq 8 (fun d => d.toNat - '0'.toNat) ds (fun x hx => odigit_eq x (h1 x hx)) 0
    simp only [Nat.zero_mul, Nat.zero_add] at hv
    simp only [escapeAt, hs.1, hs.2.1, if_false, hs.2.2, if_true, ht, hv, Item.value, byte, List.drop_left]
    split <;> rfl
  | other c =>
    simp [Item.text] at hi
    obtain ⟨rfl, rfl⟩ := hi
    obtain ⟨h1, h2, h3, h4⟩ := hok
    have hs := simpleEscape_none c h1
    simp only [escapeAt, hs, Item.value, List.nil_append]
    split
    · next hx =>
      subst hx
      have ht := takeWhile_digits isxdigit [] rest 2 (by simp) (by simp) (.inr fun d hd => not_hex_false (h4 rfl d hd))
      simp only [List.nil_append] at ht
      simp [ht]
    · simp [not_oct_false h2]

/-- One item is consumed by the loop. -/
theorem textUnit_item (i : Item) (rest b : Str) (hok : i.Ok rest) :
    textUnit (i.text ++ rest) b =
      match i.value with
      | none => .val (b, some rest)
      | some s => textUnit rest (b ++ s) := by
  by_cases hp : ∃ c, i = .plain c
  · obtain ⟨c, rfl⟩ := hp
    simp only [Item.text, List.cons_append, List.nil_append, Item.value]
    rw [textUnit_plain _ _ _ hok.1]
  · have hne : ∀ c, i ≠ .plain c := fun c h => hp ⟨c, h⟩
    have : ∃ e r, i.text = '\\' :: e :: r := by
      cases i with
      | plain c => exact absurd rfl (hne c)
      | octal ds =>
        obtain ⟨_, _, ⟨d, r', rfl, _⟩, _⟩ := hok
        exact ⟨_, _, rfl⟩
      | _ => exact ⟨_, _, rfl⟩
    obtain ⟨e, r, hi⟩ := this
    have he := escape_item e r rest i hi hok hne
    rw [hi]
    simp only [List.cons_append]
    rw [textUnit_escape, he]
    cases i.value <;> rfl

theorem units_ne (is : List Item) : units is ≠ [] := by
  cases is with
  | nil => simp [units]
  | cons i is =>
    simp only [units]
    split
    · simp
    · split <;> simp

/-- The loop on the rest of the items, with some text already in the buffer. -/
theorem textUnit_items (is : List Item) (hok : ItemsOk is []) (b : Str) :
    textUnit (itemsText is) b = .val (b ++ (units is).head (units_ne is), none) ∧ (units is).length = 1 ∨
    ∃ is', is'.length < is.length ∧ ItemsOk is' [] ∧
      textUnit (itemsText is) b = .val (b ++ (units is).head (units_ne is), some (itemsText is')) ∧
      units is = (units is).head (units_ne is) :: units is' := by
  induction is generalizing b with
  | nil =>
    left
    simp only [itemsText, List.flatMap_nil]
    rw [textUnit_nil]
    simp [units]
  | cons i is ih =>
    obtain ⟨h1, h2⟩ := hok
    simp only [List.append_nil] at h1
    have ht := textUnit_item i (itemsText is) b h1
    have ec : itemsText (i :: is) = i.text ++ itemsText is := by simp [itemsText]
    cases hv : i.value with
    | none =>
      right
      refine ⟨is, by simp, h2, ?_, ?_⟩
      · rw [ec, ht, hv]; simp [units, hv]
      · simp [units, hv]
    | some s =>
      simp only [hv] at ht
      rw [ec, ht]
      have hu : ∃ u us, units is = u :: us := by
        cases hu : units is with
        | nil => exact absurd hu (units_ne is)
        | cons u us => exact ⟨u, us, rfl⟩
      obtain ⟨u, us, hu⟩ := hu
      rcases ih h2 (b ++ s) with ⟨h3, h4⟩ | ⟨is', h3, h4, h5, h6⟩
      · left
        rw [h3]
        simp only [units, hv, hu, List.head_cons, List.append_assoc]
        rw [hu] at h4
        exact ⟨trivial, h4⟩
      · right
        refine ⟨is', by simp; omega, h4, ?_, ?_⟩
        · rw [h5]
          simp only [units, hv, hu, List.head_cons, List.append_assoc]
        · simp only [units, hv, hu, List.head_cons]
          simp only [hu, List.head_cons] at h6
          rw [List.cons.injEq] at h6
          rw [h6.2]

theorem textUnits_items (n : Nat) : ∀ (is : List Item), is.length = n → ItemsOk is [] →
    textUnits (itemsText is) = .val (units is) := by
  induction n using Nat.strongRecOn with
  | _ n ih =>
    intro is hn hok
    rcases textUnit_items is hok [] with ⟨h1, h2⟩ | ⟨is', h1, h2, h3, h4⟩
    · rw [textUnits]
      split
      · next h => rw [h1] at h; simp at h
      · next u h =>
        rw [h1] at h
        simp only [List.nil_append, Run.val.injEq, Prod.mk.injEq, and_true] at h
        rw [← h]
        congr 1
        obtain ⟨x, hx⟩ := List.length_eq_one_iff.mp h2
        simp only [hx, List.head_cons]
      · next u rest h => rw [h1] at h; simp at h
    · rw [textUnits]
      split
      · next h => rw [h3] at h; simp at h
      · next u h => rw [h3] at h; simp at h
      · next u rest h =>
        rw [h3] at h
        simp only [List.nil_append, Run.val.injEq, Prod.mk.injEq, Option.some.injEq] at h
        obtain ⟨rfl, rfl⟩ := h
        rw [ih is'.length (by omega) is' rfl h2]
        simp only
        rw [← h4]

theorem item_no_nul (i : Item) (rest : Str) (h : i.Ok rest) : Char.ofNat 0 ∉ i.text := by
  have hx : ∀ d, IsHex d → d ≠ Char.ofNat 0 := by
    intro d hd e; subst e; exact absurd hd (by decide)
  have ho : ∀ d, IsOct d → d ≠ Char.ofNat 0 := by
    intro d hd e; subst e; exact absurd hd (by decide)
  intro hm
  cases i with
  | plain c => simp only [Item.text, List.mem_cons, List.not_mem_nil, or_false] at hm; exact h.2 hm.symm
  | letter c code =>
    simp only [Item.text, List.mem_cons, List.not_mem_nil, or_false] at hm
    rcases hm with hm | hm
    · exact absurd hm (by decide)
    · subst hm; exact absurd (show (Char.ofNat 0, code) ∈ letters from h) (by simp [letters])
  | hex ds =>
    simp only [Item.text, List.mem_cons, List.not_mem_nil, or_false] at hm
    rcases hm with hm | hm | hm
    · exact absurd hm (by decide)
    · exact absurd hm (by decide)
    · exact hx _ (h.1 _ hm) rfl
  | octal ds =>
    simp only [Item.text, List.mem_cons, List.not_mem_nil, or_false] at hm
    rcases hm with hm | hm
    · exact absurd hm (by decide)
    · exact ho _ (h.1 _ hm) rfl
  | zeroOctal ds =>
    simp only [Item.text, List.mem_cons, List.not_mem_nil, or_false] at hm
    rcases hm with hm | hm | hm
    · exact absurd hm (by decide)
    · exact absurd hm (by decide)
    · exact ho _ (h.1 _ hm) rfl
  | other c =>
    simp only [Item.text, List.mem_cons, List.not_mem_nil, or_false] at hm
    rcases hm with hm | hm
    · exact absurd hm (by decide)
    · exact h.2.2.1 hm.symm

theorem items_no_nul (is : List Item) (rest : Str) (h : ItemsOk is rest) : Char.ofNat 0 ∉ itemsText is := by
  induction is with
  | nil => simp [itemsText]
  | cons i is ih =>
    simp only [itemsText, List.flatMap_cons, List.mem_append, not_or]
    exact ⟨item_no_nul i _ h.1, ih h.2⟩

theorem takeWhile_all {p : Char → Bool} (s : Str) (h : ∀ c ∈ s, p c = true) : s.takeWhile p = s := by
  induction s with
  | nil => rfl
  | cons c s ih => simp [List.takeWhile_cons, h c (by simp), ih (fun x hx => h x (by simp [hx]))]

/-- **C44.** A text written as a sequence of items is turned into the units the items stand for, if there is no `://` in
it. -/
theorem C44_items_partial (is : List Item) (hok : ItemsOk is []) (hs : ¬ HasProtocol (itemsText is)) :
    src_input_text (itemsText is) = .val (units is, decide (1 < (units is).length)) := by
  have hn := items_no_nul is [] hok
  simp only [src_input_text, (C42_no_protocol _ hs).2.2]
  rw [takeWhile_all _ (by intro c hc; simp; rintro rfl; exact hn hc), textUnits_items _ is rfl hok]

/-- **C44.** There is one unit more than there are separators. -/
theorem C44_count (is : List Item) : (units is).length = separators is + 1 := by
  induction is with
  | nil => simp [units, separators]
  | cons i is ih =>
    simp only [units, separators]
    cases hv : i.value with
    | none => simp [hv, ih, separators]
    | some s =>
      cases hu : units is with
      | nil => exact absurd hu (units_ne is)
      | cons u us => rw [hu] at ih; simpa [hv, separators] using ih

/-- **C44.** Text without backslashes is taken literally: one unit with exactly this text. -/
theorem C44_literal_partial (t : Str) (h1 : '\\' ∉ t) (h2 : Char.ofNat 0 ∉ t) (h3 : ¬ HasProtocol t) :
    src_input_text t = .val ([t], false) := by
  have e : itemsText (t.map Item.plain) = t := by
    simp [itemsText, List.flatMap_map, Item.text]
  have hok : ItemsOk (t.map Item.plain) [] := by
    clear h3 e
    induction t with
    | nil => trivial
    | cons c t ih =>
      refine ⟨⟨?_, ?_⟩, ih (by simp_all) (by simp_all)⟩
      · rintro rfl; exact h1 (by simp)
      · rintro rfl; exact h2 (by simp)
  have hu : units (t.map Item.plain) = [t] := by
    clear h1 h2 h3 e hok
    induction t with
    | nil => rfl
    | cons c t ih => simp [units, Item.value, ih]
  have := C44_items_partial _ hok (by rw [e]; exact h3)
  rw [e, hu] at this
  simpa using this

theorem takeWhile_head (p : Char → Bool) (r : Str) (n : Nat) :
    ((r.take n).takeWhile p).length = n ∨
      ∀ d, (r.drop ((r.take n).takeWhile p).length).head? = some d → p d = false := by
  induction r generalizing n with
  | nil => right; simp
  | cons c r ih =>
    cases n with
    | zero => left; simp
    | succ n =>
      simp only [List.take_succ_cons, List.takeWhile_cons]
      by_cases h : p c = true
      · rcases ih n with h1 | h1
        · left; simp [h, h1]
        · right; simpa [h] using h1
      · right; simp [h]

theorem takeWhile_mem {p : Char → Bool} {l : Str} : ∀ d ∈ l.takeWhile p, p d = true := by
  induction l with
  | nil => simp
  | cons c l ih =>
    intro d hd
    rw [List.takeWhile_cons] at hd
    split at hd
    · rcases List.mem_cons.mp hd with rfl | hd
      · assumption
      · exact ih d hd
    · simp at hd

theorem takeWhile_take_le (p : Char → Bool) (r : Str) (n : Nat) : ((r.take n).takeWhile p).length ≤ n :=
  Nat.le_trans (List.takeWhile_sublist _).length_le (by simp; omega)

theorem takeWhile_split (p : Char → Bool) (r : Str) (n : Nat) :
    r = (r.take n).takeWhile p ++ r.drop ((r.take n).takeWhile p).length := by
  have h1 : (r.take n).takeWhile p <+: r := List.IsPrefix.trans (List.takeWhile_prefix _) (List.take_prefix _ _)
  obtain ⟨t, ht⟩ := h1
  generalize (r.take n).takeWhile p = w at ht
  subst ht
  simp

/-- Every text begins with an item, unless it is empty or a single backslash. -/
theorem first_item (t : Str) (h0 : Char.ofNat 0 ∉ t) :
    t = [] ∨ t = ['\\'] ∨ ∃ (i : Item) (rest : Str), t = i.text ++ rest ∧ i.Ok rest ∧ rest.length < t.length := by
  cases t with
  | nil => exact .inl rfl
  | cons c t =>
    right
    by_cases hc : c = '\\'
    · subst hc
      cases t with
      | nil => exact .inl rfl
      | cons e r =>
        right
        have he0 : e ≠ Char.ofNat 0 := by rintro rfl; exact h0 (by simp)
        by_cases hl : ∃ code, (e, code) ∈ letters
        · obtain ⟨code, hl⟩ := hl
          exact ⟨.letter e code, r, rfl, hl, by simp; omega⟩
        · by_cases hx : e = 'x' ∧ (r.take 2).takeWhile isxdigit ≠ []
          · obtain ⟨rfl, hx⟩ := hx
            refine ⟨.hex ((r.take 2).takeWhile isxdigit), r.drop ((r.take 2).takeWhile isxdigit).length, ?_, ?_, ?_⟩
            · simp only [Item.text, List.cons_append]
              rw [← takeWhile_split]
            · refine ⟨fun d hd => (isxdigit_iff d).mp (takeWhile_mem d hd), hx, takeWhile_take_le _ _ _, ?_⟩
              rcases takeWhile_head isxdigit r 2 with h | h
              · exact .inl h
              · exact .inr fun d hd hh => by have := h d hd; rw [(isxdigit_iff d).mpr hh] at this; cases this
            · simp; omega
          · by_cases ho : IsOct e
            · by_cases hz : e = '0'
              · subst hz
                refine ⟨.zeroOctal ((r.take 3).takeWhile isodigit), r.drop ((r.take 3).takeWhile isodigit).length,
                  ?_, ?_, ?_⟩
                · simp only [Item.text, List.cons_append]
                  rw [← takeWhile_split]
                · refine ⟨fun d hd => (isodigit_iff d).mp (takeWhile_mem d hd), takeWhile_take_le _ _ _, ?_⟩
                  rcases takeWhile_head isodigit r 3 with h | h
                  · exact .inl h
                  · exact .inr fun d hd hh => by have := h d hd; rw [(isodigit_iff d).mpr hh] at this; cases this
                · simp; omega
              · refine ⟨.octal (e :: (r.take 2).takeWhile isodigit), r.drop ((r.take 2).takeWhile isodigit).length,
                  ?_, ?_, ?_⟩
                · simp only [Item.text, List.cons_append]
                  rw [← takeWhile_split]
                · refine ⟨?_, by simpa using takeWhile_take_le isodigit r 2, ⟨_, _, rfl, hz⟩, ?_⟩
                  · intro d hd
                    rcases List.mem_cons.mp hd with rfl | hd
                    · exact ho
                    · exact (isodigit_iff d).mp (takeWhile_mem d hd)
                  rcases takeWhile_head isodigit r 2 with h | h
                  · exact .inl (by simpa using h)
                  · exact .inr fun d hd hh => by have := h d hd; rw [(isodigit_iff d).mpr hh] at this; cases this
                · simp; omega
            · refine ⟨.other e, r, rfl, ⟨?_, ho, he0, ?_⟩, by simp; omega⟩
              · rintro ⟨a, b⟩ hp rfl
                exact hl ⟨b, hp⟩
              · rintro rfl d hd hh
                have : (r.take 2).takeWhile isxdigit = [] := by
                  apply Classical.byContradiction; intro h; exact hx ⟨rfl, h⟩
                cases r with
                | nil => simp at hd
                | cons a r =>
                  simp at hd; subst hd
                  simp [List.takeWhile_cons, (isxdigit_iff a).mpr hh] at this
    · right
      refine ⟨.plain c, t, rfl, ⟨hc, ?_⟩, by simp⟩
      rintro rfl; exact h0 (by simp)

/-- **C44.** The items describe every text: one without a character NUL is the text of a sequence of items, or such a
sequence and a single backslash at the end. -/
theorem C44_every_text (t : Str) (h0 : Char.ofNat 0 ∉ t) :
    ∃ is : List Item, (t = itemsText is ∧ ItemsOk is []) ∨ (t = itemsText is ++ ['\\'] ∧ ItemsOk is ['\\']) := by
  generalize hn : t.length = n
  induction n using Nat.strongRecOn generalizing t with
  | _ n ih =>
    rcases first_item t h0 with rfl | rfl | ⟨i, rest, h1, h2, h3⟩
    · exact ⟨[], .inl ⟨rfl, trivial⟩⟩
    · exact ⟨[], .inr ⟨rfl, trivial⟩⟩
    · have hr : Char.ofNat 0 ∉ rest := fun h => h0 (by rw [h1]; simp [h])
      obtain ⟨is, hi | hi⟩ := ih rest.length (by omega) rest hr rfl
      · refine ⟨i :: is, .inl ⟨by rw [h1, hi.1]; simp [itemsText], ?_, hi.2⟩⟩
        rw [List.append_nil, ← hi.1]; exact h2
      · refine ⟨i :: is, .inr ⟨by rw [h1, hi.1]; simp [itemsText], ?_, hi.2⟩⟩
        rw [← hi.1]; exact h2

/-- A backslash at the end of the text: the loop reads past the end of the string. -/
theorem C44_finding_dangling : src_input_text "a\\".toList = .ub := by decide +kernel

/-- A text that contains `://` loses everything up to it: the resource is split a second time. -/
theorem C44_finding_protocol : src_input_text "/* http://a */".toList = .val (["a */".toList], false) := by decide +kernel

/-- An escaped backslash stands for two backslashes. -/
theorem C44_finding_backslash : src_input_text "\\\\".toList = .val (["\\\\".toList], false) := by decide +kernel

/-- Octal 400 is not zero, so it does not separate units, but it is stored as a byte NUL. -/
theorem C44_finding_octal_nul : src_input_text "a\\0400b".toList = .val ([['a', Char.ofNat 0, 'b']], false) := by
  decide +kernel

/-- A non-trivial text: `a\tb\x0cd\07`, then a separator, then `x`. -/
def textSample : List Item :=
  [.plain 'a', .letter 't' 9, .plain 'b', .hex ['0', 'c'], .plain 'd', .octal ['1', '7'], .zeroOctal [], .plain 'x']

example : ItemsOk textSample [] ∧ itemsText textSample = "a\\tb\\x0cd\\17\\0x".toList ∧ units textSample =
    ["a\tb\x0cd\x0f".toList, "x".toList] ∧ separators textSample = 1 := by
  refine ⟨?_, by decide +kernel, by decide +kernel, by decide +kernel⟩
  simp [textSample, ItemsOk, Item.Ok, itemsText, Item.text, letters]
  decide +kernel
example : src_input_text "a\\tb\\x0cd\\17\\0x".toList = .val (["a\tb\x0cd\x0f".toList, "x".toList], true) := by decide +kernel

end Srcml
