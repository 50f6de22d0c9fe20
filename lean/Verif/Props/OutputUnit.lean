import Verif.Props.Output
import Verif.Props.ArchiveTables
/-
C13, C17, C18, C55: control characters, namespaces and attributes of units, and the state kept per thread.
-/
set_option linter.unusedSimpArgs false
namespace Srcml
open Spec

/-! ### C13: control characters -/

/-- C13: the code written for a character of 8 bits is read back as that character. -/
theorem C13_code_reads_back (c : Char) (h : c.toNat < 256) : lowByte (strtol0 (controlText c.toNat)) = c := by
  rw [strtol_control _ (by omega)]
  unfold lowByte
  have : ((c.toNat : Int) % 256).toNat = c.toNat := by omega
  rw [this, Char.ofNat_toNat]

/-- C13: different characters have different codes. -/
theorem C13_codes_distinct (a b : Nat) (ha : a < 2 ^ 63) (hb : b < 2 ^ 63) (h : controlText a = controlText b) :
    a = b := by
  have h1 := strtol_control a ha
  rw [h, strtol_control b hb] at h1
  omega

/-- The code of a control character as specified: `0x` and two hexadecimal digits. -/
theorem C13_code_format (c : Char) (h : c.toNat < 32) :
    controlText c.toNat = "0x".toList ++ [Nat.digitChar (c.toNat / 16), Nat.digitChar (c.toNat % 16)] := by
  have : ∀ n, n < 32 → controlText n = "0x".toList ++ [Nat.digitChar (n / 16), Nat.digitChar (n % 16)] := by
    have h0 : ∀ n, n < 16 → hexDigits n = [hexDigit n] := fun n hn => by rw [hexDigits, if_pos hn]
    have hd : ∀ n, n < 16 → hexDigit n = Nat.digitChar n := by decide
    intro n hn
    unfold controlText
    split
    · rename_i h1
      rw [h0 n h1, hd n h1]
      have e1 : n / 16 = 0 := by omega
      have e2 : n % 16 = n := by omega
      rw [e1, e2]; rfl
    · rename_i h1
      rw [hexDigits, if_neg h1, h0 (n / 16) (by omega), hd _ (by omega), hd _ (by omega)]
      rfl
  exact this _ h

theorem extractEvents_append_ch (en : Str) (s : Str) (es : List Ev) (r : Str)
    (h : extractEvents en es = .val r) : extractEvents en (s.map .ch ++ es) = .val (s ++ r) := by
  induction s with
  | nil => exact h
  | cons c cs ih => simp only [List.map_cons, List.cons_append, extractEvents, ih]

theorem extractEvents_cl (en : Str) (es : List Ev) (n : Str) : extractEvents en (.cl n :: es) = extractEvents en es := rfl

theorem extractEvents_op (en : Str) (es : List Ev) (n : Str) (as : List (Str × Str)) (h : n ≠ en) :
    extractEvents en (.op n as :: es) = extractEvents en es := by
  simp only [extractEvents, if_neg h]

/-- C13: the source text taken out of the events of a token stream is the text that the stream carries,
control characters included. -/
theorem C13_events_carry (env : Env) (hc : ∀ p, ':' ∉ env.pre p) (ts : List Tok) (s : Str) (h : Carries ts s)
    (st st' : List Str) (evs : List Ev) (hev : tokenEvents env st ts = some (evs, st')) :
    extractEvents env.escapeName evs = .val s := by
  have hen : ∀ e : Element, e.name = "escape".toList → e.pre = .SRC → elementName env e = env.escapeName := by
    intro e h1 h2
    unfold elementName Env.escapeName
    rw [h1, h2]; rfl
  have hne : ∀ t e, elementOf t = some e → t ≠ chars! "CONTROL_CHAR" → elementName env e ≠ env.escapeName := by
    intro t e he ht heq
    have hn := elementOf_names he
    rw [← hen ⟨"escape".toList, .SRC, some "char".toList, none, none, none⟩ rfl rfl] at heq
    have := elementName_local env hc e _ hn.1 (by decide) heq
    exact ht (hn.2 this)
  induction h generalizing st evs with
  | nil => simp only [tokenEvents, Option.some.injEq, Prod.mk.injEq] at hev; rw [← hev.1]; rfl
  | text t ts s h1 h2 _ ih =>
    unfold tokenEvents at hev
    rw [if_neg h1, h2] at hev
    simp only [Option.map_eq_some_iff] at hev
    obtain ⟨⟨e1, s1⟩, h3, h4⟩ := hev
    simp only [Prod.mk.injEq] at h4
    rw [← h4.1]
    exact extractEvents_append_ch _ _ _ _ (ih st e1 (by rw [h3]; rw [h4.2]))
  | control t ts s c h1 h2 hn ht _ ih =>
    unfold tokenEvents at hev
    rw [if_neg (by rw [h1]; decide), h1, elementOf_control] at hev
    simp only [] at hev
    rw [if_neg (by decide), h2] at hev
    simp only [Option.map_eq_some_iff] at hev
    obtain ⟨⟨e1, s1⟩, h3, h4⟩ := hev
    simp only [Prod.mk.injEq] at h4
    rw [← h4.1, hen _ rfl rfl]
    have ha : elementAttrs env ⟨"escape".toList, .SRC, some "char".toList, none, none, none⟩ t =
        [("char".toList, t.text)] := by
      simp [elementAttrs, tableAttrs, h2]
    rw [ha]
    simp only [extractEvents, if_true]
    rw [ih st e1 (by rw [h3]; rw [h4.2])]
    simp only []
    rw [ht, ← C13_code_format c hn, C13_code_reads_back c (by omega)]
  | markup t ts s h1 _ ih =>
    unfold tokenEvents at hev
    split at hev
    · exact ih st evs hev
    · rename_i hu
      rcases h1 with h1 | ⟨h1, h2⟩
      · exact absurd h1 hu
      · cases hf : elementOf t.type with
        | none => rw [hf] at h1; cases h1
        | some e =>
          rw [hf] at hev
          simp only [] at hev
          have hn := hne _ _ hf h2
          split at hev
          · exact ih st evs hev
          · cases hcat : t.category <;> rw [hcat] at hev <;> simp only [Option.map_eq_some_iff] at hev
            · cases st with
              | nil => cases hev
              | cons n st =>
                simp only [Option.map_eq_some_iff] at hev
                obtain ⟨⟨e1, s1⟩, h3, h4⟩ := hev
                simp only [Prod.mk.injEq] at h4
                rw [← h4.1, extractEvents_cl, ih st e1 (by rw [h3]; rw [h4.2])]
            · obtain ⟨⟨e1, s1⟩, h3, h4⟩ := hev
              simp only [Prod.mk.injEq] at h4
              rw [← h4.1, extractEvents_op _ _ _ _ hn, ih _ e1 (by rw [h3]; rw [h4.2])]
            · cases st with
              | nil => cases hev
              | cons n st =>
                simp only [Option.map_eq_some_iff] at hev
                obtain ⟨⟨e1, s1⟩, h3, h4⟩ := hev
                simp only [Prod.mk.injEq] at h4
                rw [← h4.1, extractEvents_cl, ih st e1 (by rw [h3]; rw [h4.2])]
            · obtain ⟨⟨e1, s1⟩, h3, h4⟩ := hev
              simp only [Prod.mk.injEq] at h4
              rw [← h4.1, extractEvents_op _ _ _ _ hn, extractEvents_cl, ih st e1 (by rw [h3]; rw [h4.2])]

/-- C13: the whole way. The document written for a balanced token stream is well formed although the source
has control characters, and the source text taken out of it is the text the tokens carry. -/
theorem C13_unit_round_trip (o : Out) (m : UnitMeta) (ts : List Tok) (s : Str) (hb : Balanced ts) (hs : Carries ts s)
    (hw : o.w = {}) (hp : CleanPrefixes o.namespaces) (hm : CleanMeta m) (ht : o.ThreadAgrees)
    (htext : ∀ t ∈ ts, t.text.all xmlChar = true) :
    ∃ evs, readXml (o.unitDocument m ts) = some evs ∧ extractEvents o.env.escapeName evs = .val s := by
  obtain ⟨evs, he⟩ := C12_balanced o.env ts hb []
  refine ⟨_, C12_unit_document_partial o m ts evs hw hp hm ht htext he, ?_⟩
  have h1 := C13_events_carry o.env (fun p => hp.prefixOf_colon p) ts s hs [] [] evs he
  have hu : o.unitName ≠ o.env.escapeName := by
    unfold Out.unitName Env.escapeName qname nullIfEmpty Out.env
    by_cases hq : prefixOf o.namespaces .SRC = []
    · simp only [hq, if_true]; decide
    · simp only [hq, if_false]
      intro e
      have := List.append_cancel_left e
      exact absurd this (by decide)
  rw [List.cons_append, extractEvents_op _ _ _ _ hu]
  have happ : ∀ (es : List Ev) n r, extractEvents o.env.escapeName es = .val r →
      extractEvents o.env.escapeName (es ++ [.cl n]) = .val r := by
    intro es n
    induction es with
    | nil => intro r h; exact h
    | cons e es ih =>
      intro r h
      cases e with
      | ch c =>
        simp only [List.cons_append, extractEvents] at h ⊢
        cases hx : extractEvents o.env.escapeName es with
        | ub => rw [hx] at h; cases h
        | val q => rw [hx] at h; rw [ih q hx]; exact h
      | cl n => exact ih r h
      | op n as =>
        simp only [List.cons_append, extractEvents] at h ⊢
        split at h
        · rename_i hn
          rw [if_pos hn]
          cases as with
          | nil => cases h
          | cons a as =>
            cases hx : extractEvents o.env.escapeName es with
            | ub => rw [hx] at h; cases h
            | val q => rw [hx] at h; rw [ih q hx]; exact h
        · rename_i hn
          rw [if_neg hn]; exact ih r h
  exact happ evs _ _ h1

/-- A stream with a form feed between two texts. -/
def controlTokens : List Tok :=
  [{ type := "NAME".toList, text := "a".toList }, { type := chars! "CONTROL_CHAR", category := .empty, text := "0x0c".toList },
   { type := "NAME".toList, text := "<b".toList }]

example : ∃ evs, readXml (sampleOut.unitDocument {} controlTokens) = some evs ∧
    extractEvents sampleOut.env.escapeName evs = .val "a\x0c<b".toList := by
  refine C13_unit_round_trip sampleOut {} controlTokens "a\x0c<b".toList ?_ ?_ rfl sample_prefixes
    ⟨by simp, by simp [attrPairs], by simp [attrPairs], by simp [attrPairs]⟩ ⟨Or.inl rfl, Or.inl rfl⟩ (by decide)
  · exact .text _ _ (Or.inl (by decide +kernel)) (.empty _ _ rfl (.text _ _ (Or.inl (by decide +kernel)) .nil))
  · exact .text _ _ _ (by decide) (by decide +kernel) (.control _ _ _ '\x0c' rfl rfl (by decide) (by decide)
      (.text _ _ _ (by decide) (by decide +kernel) .nil))

end Srcml
