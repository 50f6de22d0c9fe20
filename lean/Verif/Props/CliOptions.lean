import Verif.Props.Language
import Verif.Spec.CliOptions
import Verif.Props.QueryArgs
import Verif.Proofs.RunSat
/-
C83: the options of the command.
-/
set_option linter.unusedSimpArgs false
namespace Srcml
open Spec

/-! ### Bits -/

theorem cmdOption_or (a b f : CmdBits) : cmdOption (a ||| b) f = (cmdOption a f || cmdOption b f) := by
  have h : (a ||| b) &&& f = (a &&& f) ||| (b &&& f) := by
    ext i hi
    simp [Bool.and_or_distrib_right]
  have hz : ∀ x y : CmdBits, x ||| y = 0#32 ↔ x = 0#32 ∧ y = 0#32 := by
    intro x y
    constructor
    · intro e
      constructor <;> ext i hi
      · have := congrArg (fun z => z[i]) e
        simp at this
        simpa using this.1
      · have := congrArg (fun z => z[i]) e
        simp at this
        simpa using this.2
    · rintro ⟨rfl, rfl⟩; rfl
  unfold cmdOption
  rw [h]
  by_cases h1 : a &&& f = 0#32
  · by_cases h2 : b &&& f = 0#32
    · simp [h1, h2]
    · simp [h1, h2]
  · have : ¬ ((a &&& f) ||| (b &&& f) = 0#32) := fun e => h1 ((hz _ _).1 e).1
    simp [h1, this]

theorem cmdOption_zero (f : CmdBits) : cmdOption 0#32 f = false := by simp [cmdOption]

/-! ### One option -/

/-- What an option that is accepted does. -/
def Effect (stat : Str → FileKind) (r : CliReq) (o : CliOpt) (r' : CliReq) : Prop :=
  match o with
  | .flag f => r' = { r with command := r.command ||| f.command, markup := r.markup ||| f.markup }
  | .input v => r.addInput stat v = .val r'
  | .output v => ∃ i, inputSrc stat v = .val i ∧ r' = { r with
      output := some i
      command := if i.isdirectory = true ∨ (i.extension = [] ∧ i.filename.getLast? = some '/') then r.command ||| COMMAND_TO_DIRECTORY ||| COMMAND_NOARCHIVE else r.command }
  | .text v => v.head? ≠ some '-' ∧ ∃ i, inputSrc stat (src_prefix_add_uri2 "text".toList v) = .val i ∧ r' = { r with inputs := r.inputs ++ [i] }
  | .language v => r' = { r with attLanguage := some v }
  | .filesFrom v => ∃ i, inputSrc stat (src_prefix_add_uri2 "filelist".toList v) = .val i ∧ r' = { r with inputs := r.inputs ++ [i] }
  | .registerExt v => r' = { r with languageExt := r.languageExt ++ [v] }
  | .srcEncoding v => r' = { r with srcEncoding := some v }
  | .tabs n => r' = { r with tabs := n, markup := r.markup ||| MARKUP_POSITION }
  | .xmlEncoding v => r' = { r with xmlEncoding := some v }
  | .xmlns v => r' = { r with namespaces := mapSet (xmlnsValue v).1 (xmlnsValue v).2 r.namespaces, uris := mapSet (xmlnsValue v).2 (xmlnsValue v).1 r.uris }
  | .showPrefix v => r' = { r with prefixQuery := some v }
  | .filename v => r' = { r with attFilename := some v }
  | .url v => r' = { r with attUrl := some v }
  | .srcVersion v => r' = { r with attVersion := some v }
  | .unit n => r' = { r with unit := n }
  | .eol v => ∃ e, eolArg v = some e ∧ r' = { r with eol := some e }
  | .toDir v => ∃ i, inputSrc stat v = .val i ∧ r' = { r with output := some i, command := r.command ||| COMMAND_TO_DIRECTORY ||| COMMAND_NOARCHIVE }
  | .trans t => ∃ x, t.run r.trans = some x ∧ r' = { r with trans := x }
  | .revision n => r' = { r with revision := some n }
  | .pretty v => r' = { r with pretty := some v }

theorem val_inj {α : Type} {a b : α} (h : (Run.val (some a) : Run (Option α)) = .val (some b)) : b = a := by
  cases h; rfl

theorem opt_effect {stat : Str → FileKind} {enc : Str → Bool} {r r' : CliReq} {o : CliOpt} (h : o.run stat enc r = .val (some r')) : Effect stat r o r' := by
  cases o with
  | flag f => exact val_inj h
  | input v =>
    simp only [CliOpt.run] at h
    cases hx : r.addInput stat v with
    | ub => rw [hx] at h; cases h
    | val x =>
      rw [hx] at h
      have := val_inj h
      subst this
      exact hx
  | output v =>
    simp only [CliOpt.run] at h
    cases hx : inputSrc stat v with
    | ub => rw [hx] at h; cases h
    | val x => rw [hx] at h; exact ⟨x, hx, val_inj h⟩
  | toDir v =>
    simp only [CliOpt.run] at h
    cases hx : inputSrc stat v with
    | ub => rw [hx] at h; cases h
    | val x => rw [hx] at h; exact ⟨x, hx, val_inj h⟩
  | text v =>
    simp only [CliOpt.run] at h
    by_cases hd : v.head? = some '-'
    · rw [if_pos hd] at h; cases h
    rw [if_neg hd] at h
    cases hx : inputSrc stat (src_prefix_add_uri2 "text".toList v) with
    | ub => rw [hx] at h; cases h
    | val x => rw [hx] at h; exact ⟨hd, x, hx, val_inj h⟩
  | filesFrom v =>
    simp only [CliOpt.run] at h
    cases hx : inputSrc stat (src_prefix_add_uri2 "filelist".toList v) with
    | ub => rw [hx] at h; cases h
    | val x => rw [hx] at h; exact ⟨x, hx, val_inj h⟩
  | language v =>
    simp only [CliOpt.run] at h
    split at h
    · cases h
    · exact val_inj h
  | xmlEncoding v =>
    simp only [CliOpt.run] at h
    split at h
    · cases h
    · exact val_inj h
  | tabs v =>
    simp only [CliOpt.run] at h
    split at h
    · exact val_inj h
    · cases h
  | eol v =>
    simp only [CliOpt.run] at h
    cases hx : eolArg v with
    | none => rw [hx] at h; cases h
    | some x => rw [hx] at h; exact ⟨x, hx, val_inj h⟩
  | trans t =>
    simp only [CliOpt.run] at h
    cases hx : t.run r.trans with
    | none => rw [hx] at h; cases h
    | some x => rw [hx] at h; exact ⟨x, hx, val_inj h⟩
  | _ => exact val_inj h

theorem addInput_effect {stat : Str → FileKind} {r r' : CliReq} {v : Str} (h : r.addInput stat v = .val r') :
    ∃ (k : Option Nat) (i : InputSrc), inputSrc stat v = .val i ∧ r' = { r with stdindex := k, inputs := r'.inputs, trans := r'.trans } := by
  unfold CliReq.addInput at h
  cases hx : inputSrc stat v with
  | ub => rw [hx] at h; cases h
  | val i =>
    rw [hx] at h
    simp only [Run.bind] at h
    refine ⟨r'.stdindex, i, rfl, ?_⟩
    injection h with h
    subst h
    split <;> split <;> first | rfl | (split <;> rfl)

/-! ### All options -/

theorem runOpts_cons {stat : Str → FileKind} {enc : Str → Bool} {r r' : CliReq} {o : CliOpt} {os : List CliOpt} (h : runOpts stat enc r (o :: os) = .val (some r')) :
    ∃ m, Effect stat r o m ∧ runOpts stat enc m os = .val (some r') := by
  simp only [runOpts] at h
  cases hx : o.run stat enc r with
  | ub => rw [hx] at h; cases h
  | val x =>
    rw [hx] at h
    cases x with
    | none => cases h
    | some m => exact ⟨m, opt_effect hx, h⟩

/-- A value that the last option sets. -/
theorem last_value {stat : Str → FileKind} {enc : Str → Bool} {α : Type} (g : CliReq → Option α) (f : CliOpt → Option α) (hs : ∀ r o r', Effect stat r o r' → g r' = (f o).or (g r)) :
    ∀ (opts : List CliOpt) (r r' : CliReq), runOpts stat enc r opts = .val (some r') → g r' = (lastOf f opts).or (g r) := by
  intro opts
  induction opts with
  | nil =>
    intro r r' h
    have : r' = r := val_inj h
    subst this
    rfl
  | cons o os ih =>
    intro r r' h
    obtain ⟨m, hm, h⟩ := runOpts_cons h
    rw [ih m r' h, hs r o m hm]
    unfold lastOf
    cases ho : f o with
    | none => simp [List.filterMap_cons, ho]
    | some x =>
      simp only [List.filterMap_cons, ho, List.getLast?_cons, Option.or_some, Option.some_or]

/-- A bit that some options set. -/
theorem some_bit {stat : Str → FileKind} {enc : Str → Bool} (g : CliReq → Bool) (P : CliOpt → Prop) (hs : ∀ r o r', Effect stat r o r' → (g r' = true ↔ P o ∨ g r = true)) :
    ∀ (opts : List CliOpt) (r r' : CliReq), runOpts stat enc r opts = .val (some r') → (g r' = true ↔ (∃ o ∈ opts, P o) ∨ g r = true) := by
  intro opts
  induction opts with
  | nil =>
    intro r r' h
    have : r' = r := val_inj h
    subst this
    simp
  | cons o os ih =>
    intro r r' h
    obtain ⟨m, hm, h⟩ := runOpts_cons h
    rw [ih m r' h, hs r o m hm]
    simp only [List.mem_cons, exists_eq_or_imp]
    grind

/-- Values that are added one after the other. -/
theorem all_values {stat : Str → FileKind} {enc : Str → Bool} {α : Type} (g : CliReq → List α) (f : CliOpt → Option α) (hs : ∀ r o r', Effect stat r o r' → g r' = g r ++ (f o).toList) :
    ∀ (opts : List CliOpt) (r r' : CliReq), runOpts stat enc r opts = .val (some r') → g r' = g r ++ opts.filterMap f := by
  intro opts
  induction opts with
  | nil =>
    intro r r' h
    have : r' = r := val_inj h
    subst this
    simp
  | cons o os ih =>
    intro r r' h
    obtain ⟨m, hm, h⟩ := runOpts_cons h
    rw [ih m r' h, hs r o m hm]
    cases ho : f o <;> simp [List.filterMap_cons, ho]

/-- Proofs about the effect of one option: all cases are by definition. -/
macro "by_effect" : tactic => `(tactic| (
  intro r o r' h
  cases o <;> first
    | (have h := (show _ = _ from h); subst h; rfl)
    | (obtain ⟨i, hi, h⟩ := h; subst h; rfl)
    | (obtain ⟨_, i, hi, h⟩ := h; subst h; rfl)
    | (obtain ⟨k, i, hi, h⟩ := addInput_effect h; rw [h]; rfl)))

/-- A value that is made from the text of the last option. -/
theorem last_text {stat : Str → FileKind} {enc : Str → Bool} {α : Type} (g : CliReq → Option α) (f : CliOpt → Option Str) (Q : Str → α → Prop)
    (hs : ∀ r o r', Effect stat r o r' → match f o with | none => g r' = g r | some v => ∃ x, Q v x ∧ g r' = some x) :
    ∀ (opts : List CliOpt) (r r' : CliReq), runOpts stat enc r opts = .val (some r') → match lastOf f opts with | none => g r' = g r | some v => ∃ x, Q v x ∧ g r' = some x := by
  intro opts
  induction opts with
  | nil =>
    intro r r' h
    have : r' = r := val_inj h
    subst this
    rfl
  | cons o os ih =>
    intro r r' h
    obtain ⟨m, hm, h⟩ := runOpts_cons h
    have h1 := ih m r' h
    have h2 := hs r o m hm
    unfold lastOf at h1 ⊢
    cases ho : f o with
    | none =>
      rw [ho] at h2
      simp only [List.filterMap_cons, ho]
      dsimp only at h2
      rw [h2] at h1
      exact h1
    | some v =>
      rw [ho] at h2
      simp only [List.filterMap_cons, ho, List.getLast?_cons]
      cases hl : (os.filterMap f).getLast? with
      | none =>
        rw [hl] at h1
        dsimp only at h1 h2
        rw [← h1] at h2
        exact h2
      | some w => rw [hl] at h1; exact h1

theorem lower_ascii (c : Char) : lowerAscii c = c.toLower := by
  by_cases h : c.toNat < 128
  · have : ∀ n < 128, lowerAscii (Char.ofNat n) = (Char.ofNat n).toLower := by decide +kernel
    have := this c.toNat h
    rwa [Char.ofNat_toNat] at this
  · have h' : ¬ c.val.toNat < 128 := h
    unfold lowerAscii Char.toLower
    rw [if_neg (show ¬ ('A' ≤ c ∧ c ≤ 'Z') from fun x => h' (Nat.lt_of_le_of_lt (show c.val.toNat ≤ 90 from x.2) (by decide)))]
    rw [dif_neg (show ¬ (c.val ≥ 'A'.val ∧ c.val ≤ 'Z'.val) from fun x => h' (Nat.lt_of_le_of_lt (show c.val.toNat ≤ 90 from x.2) (by decide)))]

theorem eol_name {v : Str} {e : Nat} (h : eolArg v = some e) : EolName (v.map Char.toLower) e := by
  have hl : v.map lowerAscii = v.map Char.toLower := List.map_congr_left (fun c _ => lower_ascii c)
  unfold eolArg at h
  rw [hl] at h
  generalize v.map Char.toLower = w at h
  dsimp only at h
  split at h
  · rename_i hw; subst hw; cases h; exact .auto
  split at h
  · rename_i hw; rcases hw with rfl | rfl <;> cases h
    · exact .lf
    · exact .unix
  split at h
  · rename_i hw; subst hw; cases h; exact .cr
  split at h
  · rename_i hw; rcases hw with rfl | rfl <;> cases h
    · exact .crlf
    · exact .windows
  · cases h

theorem input_last {stat : Str → FileKind} {v : Str} {i : InputSrc} (h : inputSrc stat v = .val i) : i.filename.getLast? = some '/' ↔ v.getLast? = some '/' := by
  have hf : i.filename = src_prefix_add_uri v := by
    unfold inputSrc at h
    dsimp only at h
    split at h
    · cases h
    · injection h with h
      rw [← h]
      rfl
  have hne : v ≠ [] := by
    rintro rfl
    have : inputSrc stat [] = .ub := by
      unfold inputSrc
      have : (inputResource (src_prefix_add_uri [])).2 = [] := by decide
      simp only [this]
      rfl
    rw [this] at h
    cases h
  rw [hf]
  unfold src_prefix_add_uri
  split
  · rfl
  · split
    · rename_i hv
      rcases hv with rfl | rfl <;> decide
    · split
      · unfold src_prefix_add_uri2
        rw [List.getLast?_append]
        cases hv : v.getLast? with
        | none => exact absurd (List.getLast?_eq_none_iff.1 hv) hne
        | some c => rfl
      · rfl

/-! ### Namespaces -/

theorem str_lt_of {a b : Str} (h : ¬ a = b) (h' : ¬ a < b) : b < a := by
  have h1 : b ≤ a := List.not_lt.1 h'
  by_cases h2 : b < a
  · exact h2
  · exact absurd (List.le_antisymm (List.not_lt.1 h2) h1) h

theorem mapGet_set (k v p : Str) (m : List (Str × Str)) : mapGet p (mapSet k v m) = if p = k then some v else mapGet p m := by
  induction m with
  | nil =>
    simp only [mapSet, mapGet, List.find?_cons, List.find?_nil]
    by_cases h : k = p
    · simp [h]
    · simp [h, Ne.symm h]
  | cons x xs ih =>
    simp only [mapSet]
    split
    · rename_i hk
      simp only [mapGet, List.find?_cons]
      by_cases h : k = p
      · simp [h]
      · have hx : ¬ x.1 = p := hk ▸ h
        simp [h, hx, Ne.symm h]
    · split
      · simp only [mapGet, List.find?_cons]
        by_cases h : k = p
        · simp [h]
        · simp [h, Ne.symm h]
      · rename_i hk _
        simp only [mapGet, List.find?_cons] at ih ⊢
        by_cases hx : x.1 = p
        · have : ¬ p = k := fun e => hk (e ▸ hx.symm)
          simp [hx, this]
        · simp only [hx, decide_false]
          exact ih

/-- The keys of a map are in order. -/
def KeysInOrder (m : List (Str × Str)) : Prop := m.Pairwise (fun a b => a.1 < b.1)

theorem mem_mapSet {k v : Str} {m : List (Str × Str)} {x : Str × Str} (h : x ∈ mapSet k v m) : x.1 = k ∨ x ∈ m := by
  induction m with
  | nil => simp [mapSet] at h; simp [h]
  | cons y ys ih =>
    simp only [mapSet] at h
    split at h
    · simp at h; rcases h with rfl | h <;> simp [*]
    · split at h
      · simp at h; rcases h with rfl | rfl | h <;> simp [*]
      · simp at h
        rcases h with rfl | h
        · simp
        · rcases ih h with h | h <;> simp [h]

theorem mapSet_order {k v : Str} {m : List (Str × Str)} (h : KeysInOrder m) : KeysInOrder (mapSet k v m) := by
  unfold KeysInOrder at *
  induction m with
  | nil => simp [mapSet]
  | cons y ys ih =>
    obtain ⟨h1, h2⟩ := List.pairwise_cons.1 h
    simp only [mapSet]
    split
    · rename_i hk
      exact List.pairwise_cons.2 ⟨fun b hb => hk ▸ h1 b hb, h2⟩
    · split
      · rename_i hlt
        refine List.pairwise_cons.2 ⟨fun b hb => ?_, h⟩
        rcases List.mem_cons.1 hb with rfl | hb
        · exact hlt
        · exact List.lt_trans hlt (h1 b hb)
      · rename_i hk hlt
        refine List.pairwise_cons.2 ⟨fun b hb => ?_, ih h2⟩
        rcases mem_mapSet hb with e | hb
        · rw [e]; exact str_lt_of hk hlt
        · exact h1 b hb

theorem mapGet_mem {m : List (Str × Str)} (h : KeysInOrder m) (p u : Str) : (p, u) ∈ m ↔ mapGet p m = some u := by
  unfold KeysInOrder at h
  induction m with
  | nil => simp [mapGet]
  | cons y ys ih =>
    obtain ⟨h1, h2⟩ := List.pairwise_cons.1 h
    have ih := ih h2
    simp only [mapGet, List.find?_cons, List.mem_cons] at ih ⊢
    by_cases hy : y.1 = p
    · simp only [hy, decide_true, Option.map_some, Option.some.injEq]
      constructor
      · rintro (rfl | hm)
        · rfl
        · have := h1 _ hm
          rw [hy] at this
          exact absurd this (List.lt_irrefl p)
      · rintro rfl
        exact .inl (by rw [← hy])
    · simp only [hy, decide_false]
      rw [← ih]
      constructor
      · rintro (rfl | hm)
        · exact absurd rfl hy
        · exact hm
      · exact .inr

theorem xmlns_value (v p u : Str) : XmlnsText v p u ↔ xmlnsValue v = (p, u) := by
  constructor
  · rintro (⟨hu⟩ | ⟨hp⟩)
    · unfold xmlnsValue
      rw [findFirst_none.2 hu]
    · unfold xmlnsValue
      have : p ++ "=".toList ++ u = p ++ '=' :: u := by simp
      rw [this, findFirst_append p u hp]
      simp
  · intro h
    unfold xmlnsValue at h
    cases hf : findFirst '=' v with
    | none =>
      rw [hf] at h
      cases h
      exact .default (findFirst_none.1 hf)
    | some k =>
      rw [hf] at h
      cases h
      obtain ⟨h1, h2⟩ := findFirst_some hf
      have h3 := XmlnsText.prefixed (u := v.drop (k + 1)) h2
      have h4 : v.take k ++ "=".toList ++ v.drop (k + 1) = v := by
        conv => rhs; rw [h1]
        simp
      rwa [h4] at h3

section
variable {stat : Str → FileKind} {enc : Str → Bool} {opts : List CliOpt} {r : CliReq} (h : runOpts stat enc {} opts = .val (some r))
include h

theorem opts_language : r.attLanguage = lastOf languageOf opts :=
  (last_value (·.attLanguage) languageOf (by by_effect) opts _ _ h).trans (by simp)

theorem opts_filename : r.attFilename = lastOf filenameOf opts :=
  (last_value (·.attFilename) filenameOf (by by_effect) opts _ _ h).trans (by simp)

theorem opts_url : r.attUrl = lastOf urlOf opts :=
  (last_value (·.attUrl) urlOf (by by_effect) opts _ _ h).trans (by simp)

theorem opts_version : r.attVersion = lastOf versionOf opts :=
  (last_value (·.attVersion) versionOf (by by_effect) opts _ _ h).trans (by simp)

theorem opts_srcEncoding : r.srcEncoding = lastOf srcEncodingOf opts :=
  (last_value (·.srcEncoding) srcEncodingOf (by by_effect) opts _ _ h).trans (by simp)

theorem opts_prefix : r.prefixQuery = lastOf showPrefixOf opts :=
  (last_value (·.prefixQuery) showPrefixOf (by by_effect) opts _ _ h).trans (by simp)

theorem opts_pretty : r.pretty = lastOf prettyOf opts :=
  (last_value (·.pretty) prettyOf (by by_effect) opts _ _ h).trans (by simp)

theorem opts_revision : r.revision = lastOf revisionAsked opts :=
  (last_value (·.revision) revisionAsked (by by_effect) opts _ _ h).trans (by simp)

theorem opts_xmlEncoding : r.xmlEncoding = some ((lastOf xmlEncodingOf opts).getD "UTF-8".toList) :=
  (last_value (·.xmlEncoding) xmlEncodingOf (by by_effect) opts _ _ h).trans (by cases lastOf xmlEncodingOf opts <;> rfl)

theorem opts_tabs : r.tabs = (lastOf tabsOf opts).getD 8 := by
  have := last_value (fun r => some r.tabs) tabsOf (by by_effect) opts _ _ h
  cases hl : lastOf tabsOf opts with
  | none => rw [hl] at this; exact Option.some.inj this
  | some n => rw [hl] at this; exact Option.some.inj this

theorem opts_unit : r.unit = (lastOf unitNumberOf opts).getD 0 := by
  have := last_value (fun r => some r.unit) unitNumberOf (by by_effect) opts _ _ h
  cases hl : lastOf unitNumberOf opts with
  | none => rw [hl] at this; exact Option.some.inj this
  | some n => rw [hl] at this; exact Option.some.inj this

theorem opts_extensions : r.languageExt = opts.filterMap extensionOf := by
  have := all_values (·.languageExt) extensionOf (by
    intro r o r' h
    cases o <;> first
      | (have h := (show _ = _ from h); subst h; simp [extensionOf])
      | (obtain ⟨i, hi, h⟩ := h; subst h; simp [extensionOf])
      | (obtain ⟨_, i, hi, h⟩ := h; subst h; simp [extensionOf])
      | (obtain ⟨k, i, hi, h⟩ := addInput_effect h; rw [h]; simp [extensionOf])) opts _ _ h
  simpa using this

/-- The end of lines is that of the last `--eol`. -/
theorem opts_eol : match lastOf eolOf opts with | none => r.eol = none | some v => ∃ e, EolName (v.map Char.toLower) e ∧ r.eol = some e :=
  last_text (·.eol) eolOf (fun v e => EolName (v.map Char.toLower) e) (by
    intro r o r' h
    cases o <;> first
      | (have h := (show _ = _ from h); subst h; rfl)
      | (obtain ⟨i, hi, h⟩ := h; subst h; exact ⟨i, eol_name hi, rfl⟩)
      | (obtain ⟨i, hi, h⟩ := h; subst h; rfl)
      | (obtain ⟨_, i, hi, h⟩ := h; subst h; rfl)
      | (obtain ⟨k, i, hi, h⟩ := addInput_effect h; rw [h]; rfl)) opts _ _ h

theorem opts_output : match lastOf outputOf opts with | none => r.output = none | some v => ∃ i, inputSrc stat v = .val i ∧ r.output = some i :=
  last_text (·.output) outputOf (fun v i => inputSrc stat v = .val i) (by
    intro r o r' h
    cases o <;> first
      | (have h := (show _ = _ from h); subst h; rfl)
      | (obtain ⟨i, hi, h⟩ := h; subst h; exact ⟨i, hi, rfl⟩)
      | (obtain ⟨i, hi, h⟩ := h; subst h; rfl)
      | (obtain ⟨_, i, hi, h⟩ := h; subst h; rfl)
      | (obtain ⟨k, i, hi, h⟩ := addInput_effect h; rw [h]; rfl)) opts _ _ h

theorem opts_directory (f : CmdBits) (hf : f = COMMAND_TO_DIRECTORY ∨ f = COMMAND_NOARCHIVE) : cmdOption r.command f = true ↔ ∃ o ∈ opts, IntoDirectory stat o := by
  have := some_bit (fun r => cmdOption r.command f) (IntoDirectory stat) (by
    intro r o r' h
    have hd' : ∀ b : CmdBits, cmdOption (b ||| COMMAND_TO_DIRECTORY ||| COMMAND_NOARCHIVE) f = true := by
      intro b
      rw [BitVec.or_assoc, cmdOption_or, Bool.or_eq_true]
      rcases hf with rfl | rfl
      · exact .inr (by decide)
      · exact .inr (by decide)
    cases o with
    | flag x =>
      have h := (show _ = _ from h)
      subst h
      have : cmdOption x.command f = false := by rcases hf with rfl | rfl <;> cases x <;> decide
      simp only [cmdOption_or, this, IntoDirectory, Bool.or_false, false_or]
    | output v =>
      obtain ⟨i, hi, h⟩ := h
      subst h
      have hl : i.filename.getLast? = some '/' ↔ v.getLast? = some '/' := input_last hi
      simp only [IntoDirectory]
      constructor
      · intro hc
        split at hc
        · rename_i hd
          exact .inl ⟨i, hi, hd.imp id (fun x => ⟨x.1, hl.1 x.2⟩)⟩
        · exact .inr hc
      · rintro (⟨i', hi', hd⟩ | hc)
        · cases hi.symm.trans hi'
          rw [if_pos (hd.imp id (fun x => ⟨x.1, hl.2 x.2⟩))]
          exact hd' _
        · split
          · exact hd' _
          · exact hc
    | toDir v =>
      obtain ⟨i, hi, h⟩ := h
      subst h
      simp only [IntoDirectory, true_or, iff_true, hd']
    | input v => obtain ⟨k, i, hi, h⟩ := addInput_effect h; rw [h]; simp [IntoDirectory]
    | text v => obtain ⟨_, i, hi, h⟩ := h; subst h; simp [IntoDirectory]
    | _ => first
      | (have h := (show _ = _ from h); subst h; simp [IntoDirectory])
      | (obtain ⟨i, hi, h⟩ := h; subst h; simp [IntoDirectory])) opts _ _ h
  rw [this]
  have h0 : cmdOption ({} : CliReq).command f = false := cmdOption_zero f
  simp only [h0]
  grind

theorem opts_inputs : Inputs stat opts r.inputs := by
  have : ∀ (opts : List CliOpt) (r r' : CliReq), runOpts stat enc r opts = .val (some r') → ∃ is, Inputs stat opts is ∧ r'.inputs = r.inputs ++ is := by
    intro opts
    induction opts with
    | nil =>
      intro r r' h
      have : r' = r := val_inj h
      subst this
      exact ⟨[], .nil, by simp⟩
    | cons o os ih =>
      intro r r' h
      obtain ⟨m, hm, h⟩ := runOpts_cons h
      obtain ⟨is, hi, e⟩ := ih m r' h
      cases o with
      | input v =>
        have hm' := hm
        unfold Effect CliReq.addInput at hm'
        cases hx : inputSrc stat v with
        | ub => simp only [hx, Run.bind] at hm'; cases hm'
        | val i =>
          simp only [hx, Run.bind] at hm'
          injection hm' with hm'
          by_cases h1 : i.extension = ".xsl".toList
          · rw [if_pos h1] at hm'
            refine ⟨is, .style hx (.inl h1) hi, ?_⟩
            rw [e, ← hm']
            split <;> rfl
          by_cases h2 : i.extension = ".rng".toList
          · rw [if_neg h1, if_pos h2] at hm'
            refine ⟨is, .style hx (.inr h2) hi, ?_⟩
            rw [e, ← hm']
            split <;> rfl
          · rw [if_neg h1, if_neg h2] at hm'
            refine ⟨i :: is, .input hx h1 h2 hi, ?_⟩
            rw [e, ← hm']
            split <;> simp
      | text v => obtain ⟨_, i, hx, hm⟩ := hm; subst hm; exact ⟨i :: is, .text hx hi, by rw [e]; simp⟩
      | filesFrom v => obtain ⟨i, hx, hm⟩ := hm; subst hm; exact ⟨i :: is, .list hx hi, by rw [e]; simp⟩
      | _ =>
        refine ⟨is, .other (by simp) hi, ?_⟩
        rw [e]
        first
        | (have hm := (show _ = _ from hm); subst hm; rfl)
        | (obtain ⟨i, hx, hm⟩ := hm; subst hm; rfl)
  obtain ⟨is, hi, e⟩ := this opts _ _ h
  rw [show r.inputs = is by simpa using e]
  exact hi

theorem opts_trans : ∃ ts, Queries stat opts ts ∧ transArgs {} ts = some r.trans := by
  have : ∀ (opts : List CliOpt) (r r' : CliReq), runOpts stat enc r opts = .val (some r') → ∃ ts, Queries stat opts ts ∧ transArgs r.trans ts = some r'.trans := by
    intro opts
    induction opts with
    | nil =>
      intro r r' h
      have : r' = r := val_inj h
      subst this
      exact ⟨[], .nil, rfl⟩
    | cons o os ih =>
      intro r r' h
      obtain ⟨m, hm, h⟩ := runOpts_cons h
      obtain ⟨ts, hi, e⟩ := ih m r' h
      cases o with
      | input v =>
        have hm' := hm
        unfold Effect CliReq.addInput at hm'
        cases hx : inputSrc stat v with
        | ub => simp only [hx, Run.bind] at hm'; cases hm'
        | val i =>
          simp only [hx, Run.bind] at hm'
          injection hm' with hm'
          by_cases h1 : i.extension = ".xsl".toList
          · rw [if_pos h1] at hm'
            refine ⟨_, .xslt hx h1 hi, ?_⟩
            rw [← e, ← hm']
            simp only [transArgs, TransArg.run, Option.bind_some]
            split <;> rfl
          by_cases h2 : i.extension = ".rng".toList
          · rw [if_neg h1, if_pos h2] at hm'
            refine ⟨_, .relaxng hx h2 hi, ?_⟩
            rw [← e, ← hm']
            simp only [transArgs, TransArg.run, Option.bind_some]
            split <;> rfl
          · rw [if_neg h1, if_neg h2] at hm'
            refine ⟨ts, .input hx h1 h2 hi, ?_⟩
            rw [← e, ← hm']
            split <;> rfl
      | trans t =>
        obtain ⟨x, hx, hm⟩ := hm
        subst hm
        exact ⟨t :: ts, .trans hi, by simp only [transArgs, hx, Option.bind_some]; exact e⟩
      | text v => obtain ⟨_, i, hx, hm⟩ := hm; subst hm; exact ⟨ts, .other (by simp) (by simp) hi, e⟩
      | _ =>
        refine ⟨ts, .other (by simp) (by simp) hi, ?_⟩
        rw [← e]
        first
        | (have hm := (show _ = _ from hm); subst hm; rfl)
        | (obtain ⟨i, hx, hm⟩ := hm; subst hm; rfl)
  exact this opts _ _ h

theorem opts_namespaces : KeysInOrder r.namespaces ∧ ∀ p u, mapGet p r.namespaces = some u ↔ LastUri opts p u := by
  have : ∀ (opts : List CliOpt) (r r' : CliReq), runOpts stat enc r opts = .val (some r') → KeysInOrder r.namespaces → KeysInOrder r'.namespaces ∧
      ∀ p u, mapGet p r'.namespaces = some u ↔ LastUri opts p u ∨ ((∀ w, .xmlns w ∈ opts → ∀ u', ¬ XmlnsText w p u') ∧ mapGet p r.namespaces = some u) := by
    intro opts
    induction opts with
    | nil =>
      intro r r' h hk
      have : r' = r := val_inj h
      subst this
      refine ⟨hk, fun p u => ?_⟩
      constructor
      · intro h; exact .inr ⟨by simp, h⟩
      · rintro (⟨b, a, v, he, _⟩ | h)
        · simp at he
        · exact h.2
    | cons o os ih =>
      intro r r' h hk
      obtain ⟨m, hm, h⟩ := runOpts_cons h
      have later : ∀ p u, LastUri os p u → LastUri (o :: os) p u := by
        rintro p u ⟨b, a, v, he, hv, ha⟩
        exact ⟨o :: b, a, v, by rw [he]; rfl, hv, ha⟩
      by_cases ho : ∃ v, o = .xmlns v
      · obtain ⟨v, rfl⟩ := ho
        have hm := (show _ = _ from hm)
        subst hm
        obtain ⟨h1, h2⟩ := ih _ r' h (mapSet_order hk)
        refine ⟨h1, fun p u => ?_⟩
        rw [h2 p u]
        dsimp only
        rw [mapGet_set]
        constructor
        · rintro (hl | ⟨hn, hg⟩)
          · exact .inl (later p u hl)
          · by_cases hp : p = (xmlnsValue v).1
            · rw [if_pos hp] at hg
              refine .inl ⟨[], os, v, rfl, ?_, hn⟩
              rw [xmlns_value, hp]
              exact Prod.ext rfl (Option.some.inj hg)
            · rw [if_neg hp] at hg
              refine .inr ⟨fun w hw u' hx => ?_, hg⟩
              rcases List.mem_cons.1 hw with e | hw
              · cases e
                rw [xmlns_value] at hx
                exact hp (by rw [hx])
              · exact hn w hw u' hx
        · rintro (⟨b, a, w, he, hw, ha⟩ | ⟨hn, hg⟩)
          · cases b with
            | nil =>
              simp only [List.nil_append, List.cons.injEq, CliOpt.xmlns.injEq] at he
              obtain ⟨rfl, rfl⟩ := he
              refine .inr ⟨ha, ?_⟩
              rw [xmlns_value] at hw
              rw [if_pos (by rw [hw]), hw]
            | cons b bs =>
              simp only [List.cons_append, List.cons.injEq] at he
              exact .inl ⟨bs, a, w, he.2, hw, ha⟩
          · refine .inr ⟨fun w hw => hn w (List.mem_cons_of_mem _ hw), ?_⟩
            rw [if_neg]
            · exact hg
            · intro hp
              exact hn v (List.mem_cons_self ..) (xmlnsValue v).2 ((xmlns_value _ _ _).2 (by rw [hp]))
      · have hsame : m.namespaces = r.namespaces := by
          cases o <;> first
            | (exact absurd ⟨_, rfl⟩ ho)
            | (have h := (show _ = _ from hm); subst h; rfl)
            | (obtain ⟨i, hi, h⟩ := hm; subst h; rfl)
            | (obtain ⟨_, i, hi, h⟩ := hm; subst h; rfl)
            | (obtain ⟨k, i, hi, h⟩ := addInput_effect hm; rw [h])
        obtain ⟨h1, h2⟩ := ih m r' h (hsame ▸ hk)
        refine ⟨h1, fun p u => ?_⟩
        rw [h2 p u, hsame]
        constructor
        · rintro (hl | ⟨hn, hg⟩)
          · exact .inl (later p u hl)
          · refine .inr ⟨fun w hw => ?_, hg⟩
            rcases List.mem_cons.1 hw with e | hw
            · exact absurd ⟨w, e.symm⟩ ho
            · exact hn w hw
        · rintro (⟨b, a, w, he, hw, ha⟩ | ⟨hn, hg⟩)
          · cases b with
            | nil => simp only [List.nil_append, List.cons.injEq] at he; exact absurd ⟨w, he.1⟩ ho
            | cons b bs =>
              simp only [List.cons_append, List.cons.injEq] at he
              exact .inl ⟨bs, a, w, he.2, hw, ha⟩
          · exact .inr ⟨fun w hw => hn w (List.mem_cons_of_mem _ hw), hg⟩
  obtain ⟨h1, h2⟩ := this opts _ _ h List.Pairwise.nil
  refine ⟨h1, fun p u => ?_⟩
  rw [h2]
  simp [mapGet]

theorem opts_uris : KeysInOrder r.uris ∧ ∀ p u, mapGet u r.uris = some p ↔ LastPrefix opts u p := by
  have : ∀ (opts : List CliOpt) (r r' : CliReq), runOpts stat enc r opts = .val (some r') → KeysInOrder r.uris → KeysInOrder r'.uris ∧
      ∀ p u, mapGet u r'.uris = some p ↔ LastPrefix opts u p ∨ ((∀ w, .xmlns w ∈ opts → ∀ u', ¬ XmlnsText w u' u) ∧ mapGet u r.uris = some p) := by
    intro opts
    induction opts with
    | nil =>
      intro r r' h hk
      have : r' = r := val_inj h
      subst this
      refine ⟨hk, fun p u => ?_⟩
      constructor
      · intro h; exact .inr ⟨by simp, h⟩
      · rintro (⟨b, a, v, he, _⟩ | h)
        · simp at he
        · exact h.2
    | cons o os ih =>
      intro r r' h hk
      obtain ⟨m, hm, h⟩ := runOpts_cons h
      have later : ∀ p u, LastPrefix os u p → LastPrefix (o :: os) u p := by
        rintro p u ⟨b, a, v, he, hv, ha⟩
        exact ⟨o :: b, a, v, by rw [he]; rfl, hv, ha⟩
      by_cases ho : ∃ v, o = .xmlns v
      · obtain ⟨v, rfl⟩ := ho
        have hm := (show _ = _ from hm)
        subst hm
        obtain ⟨h1, h2⟩ := ih _ r' h (mapSet_order hk)
        refine ⟨h1, fun p u => ?_⟩
        rw [h2 p u]
        dsimp only
        rw [mapGet_set]
        constructor
        · rintro (hl | ⟨hn, hg⟩)
          · exact .inl (later p u hl)
          · by_cases hp : u = (xmlnsValue v).2
            · rw [if_pos hp] at hg
              refine .inl ⟨[], os, v, rfl, ?_, hn⟩
              rw [xmlns_value, hp]
              exact Prod.ext (Option.some.inj hg) rfl
            · rw [if_neg hp] at hg
              refine .inr ⟨fun w hw u' hx => ?_, hg⟩
              rcases List.mem_cons.1 hw with e | hw
              · cases e
                rw [xmlns_value] at hx
                exact hp (by rw [hx])
              · exact hn w hw u' hx
        · rintro (⟨b, a, w, he, hw, ha⟩ | ⟨hn, hg⟩)
          · cases b with
            | nil =>
              simp only [List.nil_append, List.cons.injEq, CliOpt.xmlns.injEq] at he
              obtain ⟨rfl, rfl⟩ := he
              refine .inr ⟨ha, ?_⟩
              rw [xmlns_value] at hw
              rw [if_pos (by rw [hw]), hw]
            | cons b bs =>
              simp only [List.cons_append, List.cons.injEq] at he
              exact .inl ⟨bs, a, w, he.2, hw, ha⟩
          · refine .inr ⟨fun w hw => hn w (List.mem_cons_of_mem _ hw), ?_⟩
            rw [if_neg]
            · exact hg
            · intro hp
              exact hn v (List.mem_cons_self ..) (xmlnsValue v).1 ((xmlns_value _ _ _).2 (by rw [hp]))
      · have hsame : m.uris = r.uris := by
          cases o <;> first
            | (exact absurd ⟨_, rfl⟩ ho)
            | (have h := (show _ = _ from hm); subst h; rfl)
            | (obtain ⟨i, hi, h⟩ := hm; subst h; rfl)
            | (obtain ⟨_, i, hi, h⟩ := hm; subst h; rfl)
            | (obtain ⟨k, i, hi, h⟩ := addInput_effect hm; rw [h])
        obtain ⟨h1, h2⟩ := ih m r' h (hsame ▸ hk)
        refine ⟨h1, fun p u => ?_⟩
        rw [h2 p u, hsame]
        constructor
        · rintro (hl | ⟨hn, hg⟩)
          · exact .inl (later p u hl)
          · refine .inr ⟨fun w hw => ?_, hg⟩
            rcases List.mem_cons.1 hw with e | hw
            · exact absurd ⟨w, e.symm⟩ ho
            · exact hn w hw
        · rintro (⟨b, a, w, he, hw, ha⟩ | ⟨hn, hg⟩)
          · cases b with
            | nil => simp only [List.nil_append, List.cons.injEq] at he; exact absurd ⟨w, he.1⟩ ho
            | cons b bs =>
              simp only [List.cons_append, List.cons.injEq] at he
              exact .inl ⟨bs, a, w, he.2, hw, ha⟩
          · exact .inr ⟨fun w hw => hn w (List.mem_cons_of_mem _ hw), hg⟩
  obtain ⟨h1, h2⟩ := this opts _ _ h List.Pairwise.nil
  refine ⟨h1, fun p u => ?_⟩
  rw [h2]
  simp [mapGet]

/-- The bits of `command` and `markup_options` for flags: one of the flags that set the bit is there. -/
theorem opts_command (f : CmdBits) (hd : cmdOption (COMMAND_TO_DIRECTORY ||| COMMAND_NOARCHIVE) f = false) : cmdOption r.command f = true ↔ ∃ x, .flag x ∈ opts ∧ cmdOption x.command f = true := by
  have := some_bit (fun r => cmdOption r.command f) (fun o => ∃ x, o = .flag x ∧ cmdOption x.command f = true) (by
    intro r o r' h
    have hd' : ∀ b : CmdBits, cmdOption (b ||| COMMAND_TO_DIRECTORY ||| COMMAND_NOARCHIVE) f = cmdOption b f := by
      intro b
      rw [BitVec.or_assoc, cmdOption_or, hd, Bool.or_false]
    cases o with
    | flag x =>
      have h := (show _ = _ from h)
      subst h
      simp only [cmdOption_or, Bool.or_eq_true]
      constructor
      · rintro (h | h)
        · exact .inr h
        · exact .inl ⟨x, rfl, h⟩
      · rintro (⟨y, hy, h⟩ | h)
        · cases hy; exact .inr h
        · exact .inl h
    | output v =>
      obtain ⟨i, hi, h⟩ := h
      subst h
      simp only [reduceCtorEq, false_and, exists_false, false_or]
      split
      · rw [hd']
      · rfl
    | toDir v =>
      obtain ⟨i, hi, h⟩ := h
      subst h
      simp only [reduceCtorEq, false_and, exists_false, false_or, hd']
    | input v => obtain ⟨k, i, hi, h⟩ := addInput_effect h; rw [h]; simp
    | text v => obtain ⟨_, i, hi, h⟩ := h; subst h; simp
    | _ => first
      | (have h := (show _ = _ from h); subst h; simp)
      | (obtain ⟨i, hi, h⟩ := h; subst h; simp)) opts _ _ h
  rw [this]
  have h0 : cmdOption ({} : CliReq).command f = false := cmdOption_zero f
  simp only [h0]
  grind

theorem opts_markup (f : CmdBits) : cmdOption r.markup f = true ↔ (∃ x, .flag x ∈ opts ∧ cmdOption x.markup f = true) ∨ ((∃ n, .tabs n ∈ opts) ∧ cmdOption MARKUP_POSITION f = true) := by
  have := some_bit (fun r => cmdOption r.markup f) (fun o => (∃ x, o = .flag x ∧ cmdOption x.markup f = true) ∨ ((∃ n, o = .tabs n) ∧ cmdOption MARKUP_POSITION f = true)) (by
    intro r o r' h
    cases o with
    | flag x =>
      have h := (show _ = _ from h)
      subst h
      simp only [cmdOption_or, Bool.or_eq_true]
      constructor
      · rintro (h | h)
        · exact .inr h
        · exact .inl (.inl ⟨x, rfl, h⟩)
      · rintro ((⟨y, hy, h⟩ | ⟨⟨n, hn⟩, _⟩) | h)
        · cases hy; exact .inr h
        · cases hn
        · exact .inl h
    | tabs n =>
      have h := (show _ = _ from h)
      subst h
      simp only [cmdOption_or, Bool.or_eq_true]
      simp [or_comm]
    | input v => obtain ⟨k, i, hi, h⟩ := addInput_effect h; rw [h]; simp
    | text v => obtain ⟨_, i, hi, h⟩ := h; subst h; simp
    | _ => first
      | (have h := (show _ = _ from h); subst h; simp)
      | (obtain ⟨i, hi, h⟩ := h; subst h; simp)) opts _ _ h
  rw [this]
  have h0 : cmdOption ({} : CliReq).markup f = false := cmdOption_zero f
  simp only [h0]
  grind

end

/-! ### The end of the options -/

/-- Has `--text` been given? -/
def hasText (opts : List CliOpt) : Bool := opts.any CliOpt.isText

theorem parse_inv {stat : Str → FileKind} {enc : Str → Bool} {opts : List CliOpt} {r : CliReq} (h : parseOpts stat enc opts = .val (some r)) :
    ∃ (r0 : CliReq) (out : InputSrc), excluded opts = false ∧ runOpts stat enc {} opts = .val (some r0) ∧ ¬ (hasText opts = true ∧ r0.attLanguage = none ∧ r0.attFilename = none) ∧
      (r0.output = some out ∨ (r0.output = none ∧ inputSrc stat "stdout://-".toList = .val out)) ∧ namespacesAccepted srcml_archive_create.namespaces r0.namespaces r0.uris = true ∧
      r = { r0 with output := some out, inputs := r.inputs, stdindex := r.stdindex, attUrl := directoryUrl r.inputs r0.attUrl } ∧
      ((r0.inputs ≠ [] ∧ r.inputs = r0.inputs ∧ r.stdindex = r0.stdindex) ∨ (r0.inputs = [] ∧ r.stdindex = some 0 ∧ ∃ i, inputSrc stat "stdin://-".toList = .val i ∧ r.inputs = [i])) := by
  unfold parseOpts at h
  cases hx : excluded opts with
  | true => rw [hx, if_pos rfl] at h; cases h
  | false =>
  rw [hx, if_neg (by decide)] at h
  cases hr : runOpts stat enc {} opts with
  | ub => rw [hr] at h; cases h
  | val x =>
  rw [hr] at h
  cases x with
  | none => cases h
  | some r0 =>
  simp only [Run.bind] at h
  unfold finishOpts at h
  have htext : (opts.any CliOpt.isText) = hasText opts := rfl
  rw [htext] at h
  by_cases ht : hasText opts = true ∧ r0.attLanguage = none ∧ r0.attFilename = none
  · rw [if_pos ht] at h; cases h
  rw [if_neg ht] at h
  have hout : ∃ out, outputDest stat r0.output = .val out ∧ (r0.output = some out ∨ (r0.output = none ∧ inputSrc stat "stdout://-".toList = .val out)) := by
    cases ho : r0.output with
    | some i => exact ⟨i, rfl, .inl rfl⟩
    | none =>
      cases hs : inputSrc stat "stdout://-".toList with
      | ub => rw [ho] at h; simp only [outputDest, hs] at h; cases h
      | val i => exact ⟨i, hs, .inr ⟨rfl, rfl⟩⟩
  obtain ⟨out, ho, ho'⟩ := hout
  rw [ho] at h
  simp only [Run.bind] at h
  refine ⟨r0, out, rfl, rfl, ht, ho', ?_⟩
  by_cases hi : r0.inputs = []
  · rw [if_pos hi] at h
    cases hs : inputSrc stat "stdin://-".toList with
    | ub => rw [hs] at h; cases h
    | val i =>
      rw [hs] at h
      simp only [Run.bind] at h
      injection h with h
      split at h
      · rename_i hn
        injection h with h
        subst h
        exact ⟨hn, rfl, .inr ⟨hi, rfl, i, rfl, rfl⟩⟩
      · cases h
  · rw [if_neg hi] at h
    simp only [Run.bind] at h
    injection h with h
    split at h
    · rename_i hn
      injection h with h
      subst h
      exact ⟨hn, rfl, .inl ⟨hi, rfl, rfl⟩⟩
    · cases h

theorem bool_iff {a b : Bool} (h : a = true ↔ b = true) : a = b := by
  cases a <;> cases b <;> simp_all

theorem given_iff {opts : List CliOpt} {f : CliFlag} : given opts f = true ↔ .flag f ∈ opts := by
  simp [given]

/-- C83: the settings of the output are those of the options: each flag turns on what it is for and nothing else, `--tabs` also turns on positions, and a value is that of the last option for it. The encoding
of the output is UTF-8 and a tab is 8 columns when nothing else is asked for. -/
theorem C83_settings (stat : Str → FileKind) (enc : Str → Bool) (opts : List CliOpt) (r : CliReq) (h : parseOpts stat enc opts = .val (some r)) :
    r.createReq = {
      xmlEncoding := some ((lastOf xmlEncodingOf opts).getD "UTF-8".toList)
      srcEncoding := lastOf srcEncodingOf opts
      attUrl := r.createReq.attUrl
      attVersion := lastOf versionOf opts
      attLanguage := lastOf languageOf opts
      attFilename := lastOf filenameOf opts
      markup := {
        archive := given opts .archive
        position := given opts .position || (lastOf tabsOf opts).isSome
        cpp := given opts .cpp
        markupIf0 := given opts .cppMarkupIf0
        textElse := given opts .cppNomarkupElse
        noXmlDecl := given opts .noXmlDeclaration
        hash := given opts .hash }
      tabs := (lastOf tabsOf opts).getD 8
      languageExt := opts.filterMap extensionOf
      namespaces := r.createReq.namespaces } ∧
    (∀ p u, (p, u) ∈ r.createReq.namespaces ↔ LastUri opts p u) ∧ r.createReq.namespaces.Pairwise (fun a b => a.1 < b.1) ∧
    (match lastOf eolOf opts with | none => r.eol = none | some v => ∃ e, EolName (v.map Char.toLower) e ∧ r.eol = some e) ∧ r.revision = lastOf revisionAsked opts := by
  obtain ⟨r0, out, _, hr, _, _, _, he, _⟩ := parse_inv h
  have tabs : (lastOf tabsOf opts).isSome = true ↔ ∃ n, .tabs n ∈ opts := by
    unfold lastOf
    constructor
    · intro hs
      obtain ⟨n, hn⟩ := Option.isSome_iff_exists.1 hs
      have := List.mem_of_getLast? hn
      obtain ⟨o, ho, hv⟩ := List.mem_filterMap.1 this
      cases o <;> first | cases hv; done | skip
      exact ⟨_, ho⟩
    · rintro ⟨n, hn⟩
      cases hl : (opts.filterMap tabsOf).getLast? with
      | none =>
        rw [List.getLast?_eq_none_iff, List.filterMap_eq_nil_iff] at hl
        exact absurd (hl _ hn) (by simp [tabsOf])
      | some _ => rfl
  have bit : ∀ (f : CmdBits) (x : CliFlag), (∀ y : CliFlag, cmdOption y.markup f = decide (y = x)) → cmdOption MARKUP_POSITION f = false → cmdOption r0.markup f = given opts x := by
    intro f x hx hp
    apply bool_iff
    rw [opts_markup hr f, hp, given_iff]
    simp [hx]
  have pos : cmdOption r0.markup MARKUP_POSITION = (given opts .position || (lastOf tabsOf opts).isSome) := by
    apply bool_iff
    rw [opts_markup hr, Bool.or_eq_true, given_iff, tabs]
    have h1 : ∀ y : CliFlag, cmdOption y.markup MARKUP_POSITION = decide (y = .position) := by intro y; cases y <;> decide
    have h2 : cmdOption MARKUP_POSITION MARKUP_POSITION = true := by decide
    simp [h1, h2]
  have hn := opts_namespaces hr
  have hm : r.markup = r0.markup := by rw [he]
  have hns : r.namespaces = r0.namespaces := by rw [he]
  refine ⟨?_, ?_, ?_, ?_, ?_⟩
  · have e1 := bit MARKUP_ARCHIVE .archive (by intro y; cases y <;> decide) (by decide)
    have e2 := bit MARKUP_CPP .cpp (by intro y; cases y <;> decide) (by decide)
    have e3 := bit MARKUP_CPP_MARKUP_IF0 .cppMarkupIf0 (by intro y; cases y <;> decide) (by decide)
    have e4 := bit MARKUP_CPP_TEXT_ELSE .cppNomarkupElse (by intro y; cases y <;> decide) (by decide)
    have e5 := bit MARKUP_NO_XML_DECL .noXmlDeclaration (by intro y; cases y <;> decide) (by decide)
    have e6 := bit MARKUP_HASH .hash (by intro y; cases y <;> decide) (by decide)
    have f1 : r.xmlEncoding = _ := (show r.xmlEncoding = r0.xmlEncoding by rw [he]).trans (opts_xmlEncoding hr)
    have f2 : r.srcEncoding = _ := (show r.srcEncoding = r0.srcEncoding by rw [he]).trans (opts_srcEncoding hr)
    have f3 : r.attVersion = _ := (show r.attVersion = r0.attVersion by rw [he]).trans (opts_version hr)
    have f4 : r.attLanguage = _ := (show r.attLanguage = r0.attLanguage by rw [he]).trans (opts_language hr)
    have f5 : r.attFilename = _ := (show r.attFilename = r0.attFilename by rw [he]).trans (opts_filename hr)
    have f6 : r.tabs = _ := (show r.tabs = r0.tabs by rw [he]).trans (opts_tabs hr)
    have f7 : r.languageExt = _ := (show r.languageExt = r0.languageExt by rw [he]).trans (opts_extensions hr)
    unfold CliReq.createReq CliReq.markupBits
    dsimp only
    rw [hm, e1, e2, e3, e4, e5, e6, pos, f1, f2, f3, f4, f5, f6, f7]
  · intro p u
    show (p, u) ∈ r.namespaces ↔ _
    rw [hns, mapGet_mem hn.1, hn.2]
  · show KeysInOrder r.namespaces
    rw [hns]
    exact hn.1
  · have e : r.eol = r0.eol := by rw [he]
    rw [e]
    exact opts_eol hr
  · exact (show r.revision = r0.revision by rw [he]).trans (opts_revision hr)

/-- C83: the ways in which the output is written, and the metadata that are shown, are those of the options. -/
theorem C83_commands (stat : Str → FileKind) (enc : Str → Bool) (opts : List CliOpt) (r : CliReq) (h : parseOpts stat enc opts = .val (some r)) :
    r.cmdOptions = {
      verbose := given opts .verbose
      quiet := given opts .quiet
      noarchive := r.cmdOptions.toDirectory
      toDirectory := r.cmdOptions.toDirectory
      timestamp := given opts .timestamp
      xmlFragment := given opts .outputSrcmlOuter
      xmlRaw := given opts .outputSrcmlInner } ∧
    (r.cmdOptions.toDirectory = true ↔ ∃ o ∈ opts, IntoDirectory stat o) ∧
    r.showReq = {
      encoding := given opts .showEncoding
      url := given opts .showUrl
      filename := given opts .showFilename
      language := given opts .showLanguage
      version := given opts .showSrcVersion
      hash := given opts .showHash
      timestamp := given opts .showTimestamp
      prefixOf := lastOf showPrefixOf opts
      units := given opts .showUnitCount
      info := given opts .info
      longinfo := given opts .fullInfo
      list := given opts .list
      pretty := lastOf prettyOf opts
      unit := (lastOf unitNumberOf opts).getD 0
      xml := given opts .outputSrcml || given opts .outputSrcmlOuter || given opts .outputSrcmlInner } := by
  obtain ⟨r0, out, _, hr, _, _, _, he, _⟩ := parse_inv h
  have hc : r.command = r0.command := by rw [he]
  have bit : ∀ (f : CmdBits) (x : CliFlag), (∀ y : CliFlag, cmdOption y.command f = decide (y = x)) → cmdOption (COMMAND_TO_DIRECTORY ||| COMMAND_NOARCHIVE) f = false → cmdOption r.command f = given opts x := by
    intro f x hx hd
    apply bool_iff
    rw [hc, opts_command hr f hd, given_iff]
    simp [hx]
  have xml : cmdOption r.command COMMAND_XML = (given opts .outputSrcml || given opts .outputSrcmlOuter || given opts .outputSrcmlInner) := by
    apply bool_iff
    rw [hc, opts_command hr _ (by decide), Bool.or_eq_true, Bool.or_eq_true, given_iff, given_iff, given_iff]
    have hx : ∀ y : CliFlag, cmdOption y.command COMMAND_XML = decide (y = .outputSrcml ∨ y = .outputSrcmlOuter ∨ y = .outputSrcmlInner) := by intro y; cases y <;> decide
    simp only [hx, decide_eq_true_eq]
    grind
  have dir : cmdOption r.command COMMAND_NOARCHIVE = cmdOption r.command COMMAND_TO_DIRECTORY := by
    apply bool_iff
    rw [hc, opts_directory hr _ (.inr rfl), opts_directory hr _ (.inl rfl)]
  refine ⟨?_, ?_, ?_⟩
  · have e1 := bit COMMAND_VERBOSE .verbose (by intro y; cases y <;> decide) (by decide)
    have e2 := bit COMMAND_QUIET .quiet (by intro y; cases y <;> decide) (by decide)
    have e3 := bit COMMAND_TIMESTAMP .timestamp (by intro y; cases y <;> decide) (by decide)
    have e4 := bit COMMAND_XML_FRAGMENT .outputSrcmlOuter (by intro y; cases y <;> decide) (by decide)
    have e5 := bit COMMAND_XML_RAW .outputSrcmlInner (by intro y; cases y <;> decide) (by decide)
    unfold CliReq.cmdOptions
    dsimp only
    rw [e1, e2, e3, e4, e5, dir]
  · show cmdOption r.command COMMAND_TO_DIRECTORY = true ↔ _
    rw [hc]
    exact opts_directory hr _ (.inl rfl)
  · have e1 := bit COMMAND_DISPLAY_ENCODING .showEncoding (by intro y; cases y <;> decide) (by decide)
    have e2 := bit COMMAND_DISPLAY_URL .showUrl (by intro y; cases y <;> decide) (by decide)
    have e3 := bit COMMAND_DISPLAY_FILENAME .showFilename (by intro y; cases y <;> decide) (by decide)
    have e4 := bit COMMAND_DISPLAY_LANGUAGE .showLanguage (by intro y; cases y <;> decide) (by decide)
    have e5 := bit COMMAND_DISPLAY_SRC_VERSION .showSrcVersion (by intro y; cases y <;> decide) (by decide)
    have e6 := bit COMMAND_DISPLAY_HASH .showHash (by intro y; cases y <;> decide) (by decide)
    have e7 := bit COMMAND_DISPLAY_TIMESTAMP .showTimestamp (by intro y; cases y <;> decide) (by decide)
    have e8 := bit COMMAND_UNITS .showUnitCount (by intro y; cases y <;> decide) (by decide)
    have e9 := bit COMMAND_INFO .info (by intro y; cases y <;> decide) (by decide)
    have e10 := bit COMMAND_LONGINFO .fullInfo (by intro y; cases y <;> decide) (by decide)
    have e11 := bit COMMAND_LIST .list (by intro y; cases y <;> decide) (by decide)
    have f1 : r.prefixQuery = _ := (show r.prefixQuery = r0.prefixQuery by rw [he]).trans (opts_prefix hr)
    have f2 : r.pretty = _ := (show r.pretty = r0.pretty by rw [he]).trans (opts_pretty hr)
    have f3 : r.unit = _ := (show r.unit = r0.unit by rw [he]).trans (opts_unit hr)
    unfold CliReq.showReq
    rw [e1, e2, e3, e4, e5, e6, e7, e8, e9, e10, e11, f1, f2, f3, xml]

/-- C83: the inputs are those that are named, in order, without stylesheets and schemas; when there are none it is the standard input. The destination is that of the last option for it, else the standard
output. The queries and transformations are those of C82, where a stylesheet or a schema among the inputs is one. -/
theorem C83_inputs (stat : Str → FileKind) (enc : Str → Bool) (opts : List CliOpt) (r : CliReq) (h : parseOpts stat enc opts = .val (some r)) :
    (∃ is, Inputs stat opts is ∧ (is ≠ [] → r.inputs = is) ∧ (is = [] → ∃ i, inputSrc stat "stdin://-".toList = .val i ∧ r.inputs = [i])) ∧
    (∃ out, r.output = some out ∧ inputSrc stat ((lastOf outputOf opts).getD "stdout://-".toList) = .val out) ∧
    (∃ ts, Queries stat opts ts ∧ transArgs {} ts = some r.trans) := by
  obtain ⟨r0, out, _, hr, _, ho, _, he, hi⟩ := parse_inv h
  refine ⟨⟨r0.inputs, opts_inputs hr, ?_, ?_⟩, ⟨out, by rw [he], ?_⟩, ?_⟩
  · intro hne
    rcases hi with hi | hi
    · exact hi.2.1
    · exact absurd hi.1 hne
  · intro hn
    rcases hi with hi | hi
    · exact absurd hn hi.1
    · exact hi.2.2
  · have hl := opts_output hr
    cases hv : lastOf outputOf opts with
    | none =>
      rw [hv] at hl
      rcases ho with ho | ho
      · exact absurd (hl.symm.trans ho) (by simp)
      · exact ho.2
    | some v =>
      rw [hv] at hl
      obtain ⟨i, h1, h2⟩ := hl
      rcases ho with ho | ho
      · cases h2.symm.trans ho
        exact h1
      · exact absurd (h2.symm.trans ho.1) (by simp)
  · have : r.trans = r0.trans := by rw [he]
    rw [this]
    exact opts_trans hr

theorem inputs_unique {stat : Str → FileKind} {opts : List CliOpt} {a b : List InputSrc} (h : Inputs stat opts a) (h' : Inputs stat opts b) : a = b := by
  induction h generalizing b with
  | nil => cases h'; rfl
  | @input v i os is h1 h2 h3 _ ih =>
    cases h' with
    | input g1 g2 g3 g => cases h1.symm.trans g1; rw [ih g]
    | style g1 g2 g => cases h1.symm.trans g1; exact absurd g2 (by rintro (h | h) <;> contradiction)
    | other g => exact absurd rfl (g v).1
  | @style v i os is h1 h2 _ ih =>
    cases h' with
    | input g1 g2 g3 g => cases h1.symm.trans g1; exact absurd h2 (by rintro (h | h) <;> contradiction)
    | style g1 g2 g => exact ih g
    | other g => exact absurd rfl (g v).1
  | @text v i os is h1 _ ih =>
    cases h' with
    | text g1 g => cases h1.symm.trans g1; rw [ih g]
    | other g => exact absurd rfl (g v).2.1
  | @list v i os is h1 _ ih =>
    cases h' with
    | list g1 g => cases h1.symm.trans g1; rw [ih g]
    | other g => exact absurd rfl (g v).2.2
  | @other o os is h1 _ ih =>
    cases h' with
    | input => exact absurd rfl (h1 _).1
    | style => exact absurd rfl (h1 _).1
    | text => exact absurd rfl (h1 _).2.1
    | list => exact absurd rfl (h1 _).2.2
    | other _ g => exact ih g

theorem inputs_append {stat : Str → FileKind} {a b : List CliOpt} {is : List InputSrc} (h : Inputs stat (a ++ b) is) : ∃ x y, Inputs stat a x ∧ Inputs stat b y ∧ is = x ++ y := by
  induction a generalizing is with
  | nil => exact ⟨[], is, .nil, h, rfl⟩
  | cons o os ih =>
    cases h with
    | input h1 h2 h3 h => obtain ⟨x, y, hx, hy, rfl⟩ := ih h; exact ⟨_ :: x, y, .input h1 h2 h3 hx, hy, rfl⟩
    | style h1 h2 h => obtain ⟨x, y, hx, hy, rfl⟩ := ih h; exact ⟨x, y, .style h1 h2 hx, hy, rfl⟩
    | text h1 h => obtain ⟨x, y, hx, hy, rfl⟩ := ih h; exact ⟨_ :: x, y, .text h1 hx, hy, rfl⟩
    | list h1 h => obtain ⟨x, y, hx, hy, rfl⟩ := ih h; exact ⟨_ :: x, y, .list h1 hx, hy, rfl⟩
    | other h1 h => obtain ⟨x, y, hx, hy, rfl⟩ := ih h; exact ⟨x, y, .other h1 hx, hy, rfl⟩

theorem runOpts_append {stat : Str → FileKind} {enc : Str → Bool} {a b : List CliOpt} {r r' : CliReq} (h : runOpts stat enc r (a ++ b) = .val (some r')) :
    ∃ m, runOpts stat enc r a = .val (some m) ∧ runOpts stat enc m b = .val (some r') := by
  induction a generalizing r with
  | nil => exact ⟨r, rfl, h⟩
  | cons o os ih =>
    simp only [List.cons_append, runOpts] at h ⊢
    cases hx : o.run stat enc r with
    | ub => rw [hx] at h; cases h
    | val x =>
      rw [hx] at h
      cases x with
      | none => cases h
      | some m => exact ih h

/-- Is it the standard input? -/
def stdinName (v : Str) : Prop := v = "-".toList ∨ v = "stdin://-".toList

theorem stdindex_same {stat : Str → FileKind} {enc : Str → Bool} {opts : List CliOpt} (hs : ∀ v, .input v ∈ opts → ¬ stdinName v) : ∀ {r r' : CliReq}, runOpts stat enc r opts = .val (some r') → r'.stdindex = r.stdindex := by
  induction opts with
  | nil =>
    intro r r' h
    have : r' = r := val_inj h
    subst this
    rfl
  | cons o os ih =>
    intro r r' h
    obtain ⟨m, hm, h⟩ := runOpts_cons h
    rw [ih (fun v hv => hs v (List.mem_cons_of_mem _ hv)) h]
    cases o with
    | input v =>
      have hv := hs v (List.mem_cons_self ..)
      unfold Effect CliReq.addInput at hm
      dsimp only at hm
      rw [if_neg (show ¬ (v = "-".toList ∨ v = "stdin://-".toList) from hv)] at hm
      cases hx : inputSrc stat v with
      | ub => rw [hx] at hm; cases hm
      | val i =>
        rw [hx] at hm
        simp only [Run.bind] at hm
        injection hm with hm
        rw [← hm]
        split
        · rfl
        · split <;> rfl
    | text v => obtain ⟨_, i, hx, hm⟩ := hm; subst hm; rfl
    | _ => first
      | (have hm := (show _ = _ from hm); subst hm; rfl)
      | (obtain ⟨i, hx, hm⟩ := hm; subst hm; rfl)

theorem modify_middle {α : Type} (x y : List α) (i : α) (f : α → α) : (x ++ i :: y).modify x.length f = x ++ f i :: y := by
  induction x with
  | nil => rfl
  | cons a x ih => simp [ih]

theorem strip_plain {s : Str} (h : cur_extension s = []) : stripExtensions s [] [] = (s, [], [], []) := by
  rw [stripExtensions]
  rw [dif_neg (fun x => x.1 h), h]

theorem stdin_src (stat : Str → FileKind) (v : Str) (h : stdinName v) :
    inputSrc stat v = .val { filename := "stdin://-".toList, protocol := "stdin".toList, resource := "-".toList, plainfile := "-".toList, fd := some 0 } := by
  have hf : src_prefix_add_uri v = "stdin://-".toList := by rcases h with rfl | rfl <;> decide
  have hr : inputResource "stdin://-".toList = ("stdin".toList, "-".toList) := by decide
  unfold inputSrc
  simp only [hf, hr]
  have hg : ("-".toList : Str).getLast? = some '-' := by decide
  rw [hg, if_neg (by decide)]
  unfold inputFields
  have hs : stripExtensions "-".toList [] [] = ("-".toList, [], [], []) := strip_plain (by decide)
  simp only [hs]
  rfl

/-- C83: the standard input is source code when there is a language and srcML when there is none, the other inputs are what their names say. Here it is named once or more; the last one counts. -/
theorem C83_stdin (stat : Str → FileKind) (enc : Str → Bool) (before after : List CliOpt) (v : Str) (hv : stdinName v) (ha : ∀ w, .input w ∈ after → ¬ stdinName w) (r : CliReq)
    (h : parseOpts stat enc (before ++ .input v :: after) = .val (some r)) :
    ∃ x y i, Inputs stat before x ∧ Inputs stat after y ∧ inputSrc stat v = .val i ∧ r.inputs = x ++ i :: y ∧
      r.mainInputs = x ++ { i with state := if (lastOf languageOf (before ++ .input v :: after)).isSome then .src else .srcml } :: y := by
  obtain ⟨r0, out, _, hr, _, ho, _, he, hi⟩ := parse_inv h
  have hin := opts_inputs hr
  obtain ⟨x, z, hx, hz, hxz⟩ := inputs_append hin
  have hl : r.attLanguage = lastOf languageOf (before ++ .input v :: after) := (show r.attLanguage = r0.attLanguage by rw [he]).trans (opts_language hr)
  obtain ⟨m, h1, h2⟩ := runOpts_append hr
  have hxm : m.inputs = x := inputs_unique (opts_inputs h1) hx
  obtain ⟨n, hn, h3⟩ := runOpts_cons h2
  obtain ⟨i0, hsrc, hext⟩ : ∃ i, inputSrc stat v = .val i ∧ i.extension = [] := ⟨_, stdin_src stat v hv, rfl⟩
  have hidx : r0.stdindex = some x.length := by
    rw [stdindex_same ha h3]
    unfold Effect CliReq.addInput at hn
    dsimp only at hn
    rw [if_pos (show (v = "-".toList ∨ v = "stdin://-".toList) from hv), hsrc] at hn
    simp only [Run.bind] at hn
    injection hn with hn
    rw [← hn, hext, if_neg (by decide), if_neg (by decide)]
    show some m.inputs.length = _
    rw [hxm]
  cases hz with
  | @input _ i _ y g1 g2 g3 hy =>
    refine ⟨x, y, i, hx, hy, g1, ?_⟩
    have hri : r.inputs = x ++ i :: y ∧ r.stdindex = some x.length := by
      rcases hi with hi | hi
      · exact ⟨hi.2.1.trans hxz, hi.2.2.trans hidx⟩
      · rw [hi.1] at hxz; simp at hxz
    refine ⟨hri.1, ?_⟩
    unfold CliReq.mainInputs
    rw [hri.2, hri.1, hl]
    dsimp only
    exact modify_middle x y i _
  | style g1 g2 hy =>
    rw [hsrc] at g1
    cases g1
    rw [hext] at g2
    exact absurd g2 (by decide)
  | other g => exact absurd rfl (g v).1

/-- C83: without any name the standard input is the only input; otherwise, when it is not named, the inputs are what their names say. -/
theorem C83_no_stdin (stat : Str → FileKind) (enc : Str → Bool) (opts : List CliOpt) (hs : ∀ v, .input v ∈ opts → ¬ stdinName v) (r : CliReq) (h : parseOpts stat enc opts = .val (some r))
    (is : List InputSrc) (hi : Inputs stat opts is) :
    (is ≠ [] → r.mainInputs = is) ∧
    (is = [] → ∃ i, inputSrc stat "stdin://-".toList = .val i ∧ r.mainInputs = [{ i with state := if (lastOf languageOf opts).isSome then .src else .srcml }]) := by
  obtain ⟨r0, out, _, hr, _, ho, _, he, hc⟩ := parse_inv h
  have hin := inputs_unique (opts_inputs hr) hi
  have hl : r.attLanguage = lastOf languageOf opts := (show r.attLanguage = r0.attLanguage by rw [he]).trans (opts_language hr)
  have hidx : r0.stdindex = none := stdindex_same hs hr
  constructor
  · intro hne
    rcases hc with hc | hc
    · unfold CliReq.mainInputs
      rw [hc.2.2, hidx]
      exact hc.2.1.trans hin
    · exact absurd (hin.symm.trans hc.1) hne
  · intro hn
    rcases hc with hc | hc
    · exact absurd (hin.trans hn) hc.1
    · obtain ⟨i, h1, h2⟩ := hc.2.2
      refine ⟨i, h1, ?_⟩
      unfold CliReq.mainInputs
      rw [hc.2.1, h2, hl]
      rfl

/-- C83: the url is that of the last `--url`, unless the only input is a directory. -/
theorem C83_url (stat : Str → FileKind) (enc : Str → Bool) (opts : List CliOpt) (r : CliReq) (h : parseOpts stat enc opts = .val (some r)) (hd : ∀ i, r.inputs = [i] → i.isdirectory = false) :
    r.createReq.attUrl = lastOf urlOf opts := by
  obtain ⟨r0, out, _, hr, _, ho, _, he, hc⟩ := parse_inv h
  have : r.attUrl = directoryUrl r.inputs r0.attUrl := by rw [he]
  show r.attUrl = _
  rw [this, opts_url hr]
  unfold directoryUrl
  split
  · rename_i i hi
    rw [hd i hi, if_neg (by decide)]
  · rfl

/-- C83: with a single directory, the url is its name without the dots and slashes in front. -/
theorem C83_url_directory (stat : Str → FileKind) (enc : Str → Bool) (opts : List CliOpt) (r : CliReq) (h : parseOpts stat enc opts = .val (some r)) (i : InputSrc) (hi : r.inputs = [i]) (hd : i.isdirectory = true) :
    ∃ front rest, i.resource = front ++ rest ∧ (∀ c ∈ front, c = '.' ∨ c = '/') ∧ rest.head? ≠ some '.' ∧ rest.head? ≠ some '/' ∧ r.createReq.attUrl = some rest := by
  obtain ⟨r0, out, _, hr, _, ho, _, he, hc⟩ := parse_inv h
  have : r.attUrl = directoryUrl r.inputs r0.attUrl := by rw [he]
  rw [hi] at this
  simp only [directoryUrl, hd, if_true] at this
  refine ⟨i.resource.takeWhile (fun c => c = '.' ∨ c = '/'), dropDots i.resource, (List.takeWhile_append_dropWhile ..).symm, ?_, ?_, ?_, this⟩
  · intro c hc
    have := List.all_eq_true.mp (List.all_takeWhile (p := fun c => decide (c = '.' ∨ c = '/')) (l := i.resource)) c hc
    simpa using this
  · intro hx
    have := List.head?_dropWhile_not (fun c => decide (c = '.' ∨ c = '/')) i.resource
    unfold dropDots at hx
    rw [hx] at this
    simp at this
  · intro hx
    have := List.head?_dropWhile_not (fun c => decide (c = '.' ∨ c = '/')) i.resource
    unfold dropDots at hx
    rw [hx] at this
    simp at this

/-- C83: with one input, the unit that is asked for is that of the last `--unit`, and all units (0) without one. -/
theorem C83_unit (stat : Str → FileKind) (enc : Str → Bool) (opts : List CliOpt) (r : CliReq) (h : parseOpts stat enc opts = .val (some r)) (i : InputSrc) (hi : r.inputs = [i]) :
    r.unitOf = (lastOf unitNumberOf opts).getD 0 := by
  obtain ⟨r0, out, _, hr, _, _, _, he, _⟩ := parse_inv h
  have : r.unit = r0.unit := by rw [he]
  unfold CliReq.unitOf
  rw [hi, if_pos (by simp), this, opts_unit hr]

theorem trans_keep {t : TransArg} {a c : TransReq} (h : t.run a = some c) (ha : a.transformations ≠ []) : c.transformations ≠ [] := by
  unfold TransArg.run at h
  split at h
  · cases h; simp
  · split at h
    · cases h
    · rename_i e _ _
      cases hy : attributeArg e _ with
      | none => rw [hy] at h; cases h
      | some y => rw [hy] at h; cases h; exact ha
  · split at h
    · cases h
    · rename_i v _ _ _ _
      cases hy : elementArg v with
      | none => rw [hy] at h; cases h
      | some y => rw [hy] at h; cases h; exact ha
  all_goals (cases h; simp)

theorem trans_first {t : TransArg} {c : TransReq} (h : t.run {} = some c) : c.transformations ≠ [] := by
  unfold TransArg.run at h
  split at h
  · cases h; simp
  · cases h
  · cases h
  all_goals (cases h; simp)

theorem trans_empty {ts : List TransArg} {x : TransReq} (h : transArgs {} ts = some x) : x.transformations = [] ↔ ts = [] := by
  have keep : ∀ (ts : List TransArg) (a b : TransReq), transArgs a ts = some b → a.transformations ≠ [] → b.transformations ≠ [] := by
    intro ts
    induction ts with
    | nil => intro a b h ha; cases h; exact ha
    | cons t ts ih =>
      intro a b h ha
      simp only [transArgs] at h
      cases hx : t.run a with
      | none => rw [hx] at h; cases h
      | some c =>
        rw [hx] at h
        exact ih c b h (trans_keep hx ha)
  cases ts with
  | nil => cases h; simp
  | cons t ts =>
    simp only [reduceCtorEq, iff_false]
    simp only [transArgs] at h
    cases hx : t.run {} with
    | none => rw [hx] at h; cases h
    | some c =>
      rw [hx] at h
      exact keep ts c x h (trans_first hx)

theorem queries_unique {stat : Str → FileKind} {opts : List CliOpt} {a b : List TransArg} (h : Queries stat opts a) (h' : Queries stat opts b) : a = b := by
  induction h generalizing b with
  | nil => cases h'; rfl
  | @trans t os ts _ ih =>
    cases h' with
    | trans g => rw [ih g]
    | other _ g => exact absurd rfl (g t)
  | @xslt v i os ts h1 h2 _ ih =>
    cases h' with
    | xslt g1 g2 g => cases h1.symm.trans g1; rw [ih g]
    | relaxng g1 g2 g => cases h1.symm.trans g1; exact absurd (h2.symm.trans g2) (by decide)
    | input g1 g2 g3 g => cases h1.symm.trans g1; exact absurd h2 g2
    | other g => exact absurd rfl (g v)
  | @relaxng v i os ts h1 h2 _ ih =>
    cases h' with
    | xslt g1 g2 g => cases h1.symm.trans g1; exact absurd (h2.symm.trans g2) (by decide)
    | relaxng g1 g2 g => cases h1.symm.trans g1; rw [ih g]
    | input g1 g2 g3 g => cases h1.symm.trans g1; exact absurd h2 g3
    | other g => exact absurd rfl (g v)
  | @input v i os ts h1 h2 h3 _ ih =>
    cases h' with
    | xslt g1 g2 g => cases h1.symm.trans g1; exact absurd g2 h2
    | relaxng g1 g2 g => cases h1.symm.trans g1; exact absurd g2 h3
    | input g1 g2 g3 g => exact ih g
    | other g => exact absurd rfl (g v)
  | @other o os ts h1 h2 _ ih =>
    cases h' with
    | trans => exact absurd rfl (h2 _)
    | xslt => exact absurd rfl (h1 _)
    | relaxng => exact absurd rfl (h1 _)
    | input => exact absurd rfl (h1 _)
    | other _ _ g => exact ih g

/-- The options that show something about a srcML document. -/
def Spec.showing : List CliFlag :=
  [.fullInfo, .info, .list, .showUnitCount, .showLanguage, .showUrl, .showFilename, .showSrcVersion, .showEncoding, .showTimestamp, .showHash]

/-- C83: with `--version` only the version is shown. Else srcML is made when there is source code among the inputs, when the destination is srcML, or when srcML or a query or transformation is asked for;
metadata are shown when an option asks for them; source code is made when `--output-src` asks for it, or when nothing of this is done and the destination is not srcML; and the output is compressed when
its name says so: in this order. -/
theorem C83_steps (stat : Str → FileKind) (enc : Str → Bool) (opts : List CliOpt) (r : CliReq) (h : parseOpts stat enc opts = .val (some r)) (ts : List TransArg) (hts : Queries stat opts ts)
    (out : InputSrc) (hout : r.output = some out) :
    (given opts .version = true → r.steps = none) ∧ (given opts .version = false → ∃ l, r.steps = some l ∧ l.Sublist [.createSrcml, .displayMetadata, .createSrc, .compress] ∧
      (.createSrcml ∈ l ↔ (∃ f ∈ [CliFlag.parserTest, .cat, .outputSrcml, .outputSrcmlOuter, .outputSrcmlInner], .flag f ∈ opts) ∨ ts ≠ [] ∨ out.state = .srcml ∨ ∃ i ∈ r.mainInputs, i.state = .src) ∧
      (.displayMetadata ∈ l ↔ (∃ f ∈ showing, .flag f ∈ opts) ∨ lastOf showPrefixOf opts ≠ none ∨ lastOf prettyOf opts ≠ none) ∧
      (.createSrc ∈ l ↔ .flag .outputSrc ∈ opts ∨ (out.state ≠ .srcml ∧ .createSrcml ∉ l ∧ .displayMetadata ∉ l)) ∧
      (.compress ∈ l ↔ out.compressions ≠ [])) := by
  obtain ⟨r0, out', _, hr, _, _, _, he, _⟩ := parse_inv h
  have hc : r.command = r0.command := by rw [he]
  obtain ⟨ts', hq, htr⟩ := opts_trans hr
  cases queries_unique hts hq
  have htr : transArgs {} ts = some r.trans := by rw [htr, he]
  have bit : ∀ (f : CmdBits) (P : CliFlag → Prop) [DecidablePred P], (∀ y : CliFlag, cmdOption y.command f = decide (P y)) → cmdOption (COMMAND_TO_DIRECTORY ||| COMMAND_NOARCHIVE) f = false →
      (cmdOption r.command f = true ↔ ∃ x, P x ∧ .flag x ∈ opts) := by
    intro f P _ hx hd
    rw [hc, opts_command hr f hd]
    simp only [hx, decide_eq_true_eq]
    exact ⟨fun ⟨x, h1, h2⟩ => ⟨x, h2, h1⟩, fun ⟨x, h1, h2⟩ => ⟨x, h2, h1⟩⟩
  have b1 := bit COMMAND_VERSION (· = .version) (by intro y; cases y <;> decide) (by decide)
  have b2 := bit COMMAND_PARSER_TEST (· = .parserTest) (by intro y; cases y <;> decide) (by decide)
  have b3 := bit COMMAND_CAT_XML (· = .cat) (by intro y; cases y <;> decide) (by decide)
  have b4 := bit COMMAND_XML (· ∈ [CliFlag.outputSrcml, .outputSrcmlOuter, .outputSrcmlInner]) (by intro y; cases y <;> decide) (by decide)
  have b5 := bit COMMAND_SRC (· = .outputSrc) (by intro y; cases y <;> decide) (by decide)
  have b6 := bit COMMAND_INSRCML (fun y => y = .version ∨ y ∈ showing) (by intro y; cases y <;> decide) (by decide)
  have f1 : r.prefixQuery = _ := (show r.prefixQuery = r0.prefixQuery by rw [he]).trans (opts_prefix hr)
  have f2 : r.pretty = _ := (show r.pretty = r0.pretty by rw [he]).trans (opts_pretty hr)
  have hcs : request_create_srcml r.request = true ↔
      (∃ f ∈ [CliFlag.parserTest, .cat, .outputSrcml, .outputSrcmlOuter, .outputSrcmlInner], .flag f ∈ opts) ∨ ts ≠ [] ∨ out.state = .srcml ∨ ∃ i ∈ r.mainInputs, i.state = .src := by
    have hne : r.trans.transformations.length ≠ 0 ↔ ts ≠ [] := by
      rw [Ne, List.length_eq_zero_iff, trans_empty htr]
    unfold request_create_srcml CliReq.request
    dsimp only
    rw [hout]
    dsimp only [Option.getD]
    have e : ∀ (a b : Bool) (x : Bool), (if a = true then true else if b = true then true else x) = (a || b || x) := by intro a b x; cases a <;> cases b <;> rfl
    rw [e]
    simp only [Bool.or_eq_true, decide_eq_true_eq, List.any_eq_true, b2, b3, b4, hne, List.mem_cons, List.not_mem_nil, or_false]
    grind
  have hdm : given opts .version = false → (request_display_metadata r.request = true ↔ (∃ f ∈ showing, .flag f ∈ opts) ∨ lastOf showPrefixOf opts ≠ none ∨ lastOf prettyOf opts ≠ none) := by
    intro hv
    have hv : .flag .version ∉ opts := by intro hm; rw [given_iff.mpr hm] at hv; cases hv
    unfold request_display_metadata CliReq.request
    dsimp only
    rw [← f1, ← f2]
    simp only [Bool.or_eq_true, b6, Option.isSome_iff_ne_none]
    grind
  constructor
  · intro hv
    unfold CliReq.steps
    rw [if_pos (b1.mpr ⟨.version, rfl, given_iff.mp hv⟩)]
  · intro hv
    have hn : ¬ cmdOption r.command COMMAND_VERSION = true := by
      intro hb
      obtain ⟨x, hx, hm⟩ := b1.mp hb
      subst hx
      rw [given_iff.mpr hm] at hv; cases hv
    have hsrc : r.request.src = true ↔ .flag .outputSrc ∈ opts := by
      show cmdOption r.command COMMAND_SRC = true ↔ _
      rw [b5]
      exact ⟨fun ⟨x, h1, h2⟩ => h1 ▸ h2, fun h => ⟨_, rfl, h⟩⟩
    have ho : r.request.output = out := by
      show r.output.getD {} = out
      rw [hout]; rfl
    have m1 : .createSrcml ∈ pipeline r.request ↔ request_create_srcml r.request = true := by
      unfold pipeline; cases request_create_srcml r.request <;> cases request_display_metadata r.request <;> cases request_create_src r.request <;> cases request_output_compression r.request <;> decide
    have m2 : .displayMetadata ∈ pipeline r.request ↔ request_display_metadata r.request = true := by
      unfold pipeline; cases request_create_srcml r.request <;> cases request_display_metadata r.request <;> cases request_create_src r.request <;> cases request_output_compression r.request <;> decide
    have m3 : .createSrc ∈ pipeline r.request ↔ request_create_src r.request = true := by
      unfold pipeline; cases request_create_srcml r.request <;> cases request_display_metadata r.request <;> cases request_create_src r.request <;> cases request_output_compression r.request <;> decide
    have m4 : .compress ∈ pipeline r.request ↔ request_output_compression r.request = true := by
      unfold pipeline; cases request_create_srcml r.request <;> cases request_display_metadata r.request <;> cases request_create_src r.request <;> cases request_output_compression r.request <;> decide
    refine ⟨pipeline r.request, by unfold CliReq.steps; rw [if_neg hn], ?_, m1.trans hcs, m2.trans (hdm hv), ?_, ?_⟩
    · unfold pipeline; cases request_create_srcml r.request <;> cases request_display_metadata r.request <;> cases request_create_src r.request <;> cases request_output_compression r.request <;> decide
    · rw [m1, m2, m3]
      unfold request_create_src
      rw [ho, ← hsrc]
      simp
      grind
    · rw [m4]
      unfold request_output_compression
      rw [ho, decide_eq_true_eq]
      cases out.compressions <;> simp

/-! ### Which options are accepted -/

/-- A name that is not empty behind its protocol is an input. -/
theorem named_src (stat : Str → FileKind) (p v : Str) (hp : p = "text".toList ∨ p = "filelist".toList) : (∃ i, inputSrc stat (src_prefix_add_uri2 p v) = .val i) ↔ v ≠ [] := by
  have hc : ':' ∉ p := by rcases hp with rfl | rfl <;> decide
  have hs := C42_join p v hc
  have hf : src_prefix_add_uri (src_prefix_add_uri2 p v) = src_prefix_add_uri2 p v := by
    have : findSub PROTOCOL_SEPARATOR (src_prefix_add_uri2 p v) ≠ none := by
      intro hn
      unfold src_prefix_split_uri at hs
      rw [hn] at hs
      simp only [Prod.mk.injEq] at hs
      rcases hp with rfl | rfl <;> exact absurd hs.1 (by decide)
    unfold src_prefix_add_uri
    split
    · rfl
    · rename_i hn; exact absurd hn this
  have hr : inputResource (src_prefix_add_uri2 p v) = (p, v) := by
    unfold inputResource
    rw [hs]
    dsimp only
    rw [if_neg (by rcases hp with rfl | rfl <;> simp)]
  unfold inputSrc
  simp only [hf, hr]
  cases hv : v.getLast? with
  | none => simp [List.getLast?_eq_none_iff.mp hv]
  | some c =>
    simp only [Run.val.injEq, exists_eq', true_iff]
    intro e; subst e; cases hv

theorem eol_accepted (v : Str) : (∃ e, eolArg v = some e) ↔ ∃ e, EolName (v.map Char.toLower) e := by
  constructor
  · rintro ⟨e, h⟩
    exact ⟨e, eol_name h⟩
  · rintro ⟨e, h⟩
    have hm : v.map lowerAscii = v.map Char.toLower := List.map_congr_left (fun c _ => lower_ascii c)
    unfold eolArg
    rw [hm]
    generalize v.map Char.toLower = w at h
    cases h <;> exact ⟨_, rfl⟩

theorem language_accepted (v : Str) : ¬ (v = [] ∨ srcml_check_language (some v) = 0) ↔ v ∈ ["C", "C++", "C#", "Java", "Objective-C"].map String.toList := by
  constructor
  · intro h
    have := (C10_check_language v).mp (fun e => h (.inr e))
    simp only [IsLanguage] at this
    rcases this with rfl | rfl | rfl | rfl | rfl <;> decide
  · intro h
    simp only [List.map_cons, List.map_nil, List.mem_cons, List.not_mem_nil, or_false] at h
    rcases h with rfl | rfl | rfl | rfl | rfl <;> decide

theorem addInput_val (stat : Str → FileKind) (r : CliReq) (v : Str) : (∃ r', r.addInput stat v = .val r') ↔ ∃ i, inputSrc stat v = .val i := by
  unfold CliReq.addInput
  dsimp only
  cases hx : inputSrc stat v with
  | ub => exact ⟨fun ⟨_, h⟩ => (nomatch h), fun ⟨_, h⟩ => (nomatch h)⟩
  | val i => exact ⟨fun _ => ⟨_, rfl⟩, fun _ => ⟨_, rfl⟩⟩

/-- An option other than one for a query is accepted when its value is, whatever was before. -/
theorem run_accepted (stat : Str → FileKind) (enc : Str → Bool) (r : CliReq) (o : CliOpt) :
    (∃ r', o.run stat enc r = .val (some r')) ↔ ValidOpt stat enc o ∧ ∀ t, o = .trans t → ∃ x, t.run r.trans = some x := by
  have bind : ∀ (n : Str) (f : InputSrc → CliReq), (∃ r', (inputSrc stat n).bind (fun i => .val (some (f i))) = .val (some r')) ↔ ∃ i, inputSrc stat n = .val i := by
    intro n f
    cases inputSrc stat n with
    | ub => simp [Run.bind]
    | val i => simp [Run.bind]
  have ite : ∀ (c : Prop) [Decidable c] (x : CliReq), (∃ r', (if c then (.val none : Run (Option CliReq)) else .val (some x)) = .val (some r')) ↔ ¬ c := by
    intro c _ x
    by_cases h : c <;> simp [h]
  cases o with
  | input v =>
    simp only [CliOpt.run, ValidOpt, reduceCtorEq, false_implies, implies_true, and_true]
    rw [← addInput_val stat r v]
    cases r.addInput stat v with
    | ub => exact ⟨fun ⟨_, h⟩ => (nomatch h), fun ⟨_, h⟩ => (nomatch h)⟩
    | val i => exact ⟨fun _ => ⟨_, rfl⟩, fun _ => ⟨_, rfl⟩⟩
  | output v => simp only [CliOpt.run, ValidOpt, reduceCtorEq, false_implies, implies_true, and_true]; exact bind _ _
  | toDir v => simp only [CliOpt.run, ValidOpt, reduceCtorEq, false_implies, implies_true, and_true]; exact bind _ _
  | text v =>
    simp only [CliOpt.run, ValidOpt, reduceCtorEq, false_implies, implies_true, and_true]
    by_cases hd : v.head? = some '-'
    · simp [hd]
    · rw [if_neg hd, bind, named_src stat _ v (.inl rfl)]
      exact ⟨fun h => ⟨h, hd⟩, fun h => h.1⟩
  | filesFrom v =>
    simp only [CliOpt.run, ValidOpt, reduceCtorEq, false_implies, implies_true, and_true]
    rw [bind, named_src stat _ v (.inr rfl)]
  | language v =>
    simp only [CliOpt.run, ValidOpt, reduceCtorEq, false_implies, implies_true, and_true]
    rw [ite, language_accepted]
  | xmlEncoding v =>
    simp only [CliOpt.run, ValidOpt, reduceCtorEq, false_implies, implies_true, and_true]
    rw [ite]
    simp
  | tabs n =>
    simp only [CliOpt.run, ValidOpt, reduceCtorEq, false_implies, implies_true, and_true]
    by_cases h : 1 ≤ n ∧ n ≤ 8 <;> simp [h]
  | eol v =>
    simp only [CliOpt.run, ValidOpt, reduceCtorEq, false_implies, implies_true, and_true]
    rw [← eol_accepted]
    cases eolArg v <;> simp
  | trans t =>
    simp only [CliOpt.run, ValidOpt, true_and]
    have : (∀ t', CliOpt.trans t = .trans t' → ∃ x, t'.run r.trans = some x) ↔ ∃ x, t.run r.trans = some x := ⟨fun h => h t rfl, fun h t' e => by cases e; exact h⟩
    rw [this]
    cases t.run r.trans <;> simp
  | _ => exact ⟨fun _ => ⟨trivial, by simp⟩, fun _ => ⟨_, rfl⟩⟩

theorem queries_exist {stat : Str → FileKind} {enc : Str → Bool} {opts : List CliOpt} (h : ∀ o ∈ opts, ValidOpt stat enc o) : ∃ ts, Queries stat opts ts := by
  induction opts with
  | nil => exact ⟨[], .nil⟩
  | cons o os ih =>
    obtain ⟨ts, ih⟩ := ih (fun o ho => h o (by simp [ho]))
    cases o with
    | input v =>
      obtain ⟨i, hi⟩ := h _ (List.mem_cons_self ..)
      by_cases h1 : i.extension = ".xsl".toList
      · exact ⟨_, .xslt hi h1 ih⟩
      by_cases h2 : i.extension = ".rng".toList
      · exact ⟨_, .relaxng hi h2 ih⟩
      · exact ⟨_, .input hi h1 h2 ih⟩
    | trans t => exact ⟨_, .trans ih⟩
    | _ => exact ⟨_, .other (by simp) (by simp) ih⟩

theorem trans_step {stat : Str → FileKind} {r m : CliReq} {o : CliOpt} {os : List CliOpt} {ts ts' : List TransArg} (hm : Effect stat r o m) (h : Queries stat os ts) (h' : Queries stat (o :: os) ts') :
    transArgs r.trans ts' = transArgs m.trans ts := by
  cases o with
  | input v =>
    have hm' := hm
    unfold Effect CliReq.addInput at hm'
    cases hx : inputSrc stat v with
    | ub => simp only [hx, Run.bind] at hm'; cases hm'
    | val i =>
      simp only [hx, Run.bind] at hm'
      injection hm' with hm'
      by_cases h1 : i.extension = ".xsl".toList
      · rw [if_pos h1] at hm'
        cases queries_unique h' (.xslt hx h1 h)
        rw [← hm']
        simp only [transArgs, TransArg.run, Option.bind_some]
        split <;> rfl
      by_cases h2 : i.extension = ".rng".toList
      · rw [if_neg h1, if_pos h2] at hm'
        cases queries_unique h' (.relaxng hx h2 h)
        rw [← hm']
        simp only [transArgs, TransArg.run, Option.bind_some]
        split <;> rfl
      · rw [if_neg h1, if_neg h2] at hm'
        cases queries_unique h' (.input hx h1 h2 h)
        rw [← hm']
        split <;> rfl
  | trans t =>
    obtain ⟨x, hx, hm⟩ := hm
    subst hm
    cases queries_unique h' (.trans h)
    simp only [transArgs, hx, Option.bind_some]
  | text v =>
    obtain ⟨_, i, hx, hm⟩ := hm
    subst hm
    cases queries_unique h' (.other (by simp) (by simp) h)
    rfl
  | _ =>
    cases queries_unique h' (.other (by simp) (by simp) h)
    first
    | (have hm := (show _ = _ from hm); subst hm; rfl)
    | (obtain ⟨i, hx, hm⟩ := hm; subst hm; rfl)

theorem runOpts_accepted (stat : Str → FileKind) (enc : Str → Bool) (opts : List CliOpt) (r : CliReq) :
    (∃ r', runOpts stat enc r opts = .val (some r')) ↔ (∀ o ∈ opts, ValidOpt stat enc o) ∧ ∀ ts, Queries stat opts ts → ∃ x, transArgs r.trans ts = some x := by
  induction opts generalizing r with
  | nil => exact ⟨fun _ => ⟨by simp, fun ts h => by cases h; exact ⟨_, rfl⟩⟩, fun _ => ⟨r, rfl⟩⟩
  | cons o os ih =>
    constructor
    · rintro ⟨r', h⟩
      simp only [runOpts] at h
      cases ho : o.run stat enc r with
      | ub => rw [ho] at h; cases h
      | val x =>
        rw [ho] at h
        cases x with
        | none => cases h
        | some m =>
          obtain ⟨hv, hq⟩ := (ih m).mp ⟨r', h⟩
          obtain ⟨ts, hts⟩ := queries_exist hv
          refine ⟨?_, fun ts' h' => ?_⟩
          · intro o' ho'
            rcases List.mem_cons.mp ho' with rfl | ho'
            · exact ((run_accepted stat enc r _).mp ⟨m, ho⟩).1
            · exact hv _ ho'
          · rw [trans_step (opt_effect ho) hts h']
            exact hq ts hts
    · rintro ⟨hv, hq⟩
      obtain ⟨ts', hts'⟩ := queries_exist hv
      obtain ⟨ts, hts⟩ := queries_exist (fun o' h => hv o' (List.mem_cons_of_mem _ h))
      have ht : ∀ t, o = .trans t → ∃ x, t.run r.trans = some x := by
        intro t e
        subst e
        cases queries_unique hts' (.trans hts)
        obtain ⟨x, hx⟩ := hq _ hts'
        simp only [transArgs] at hx
        cases hy : t.run r.trans with
        | none => rw [hy] at hx; cases hx
        | some y => exact ⟨y, rfl⟩
      obtain ⟨m, hm⟩ := (run_accepted stat enc r o).mpr ⟨hv o (List.mem_cons_self ..), ht⟩
      obtain ⟨r', hr'⟩ := (ih m).mpr ⟨fun o' h => hv o' (List.mem_cons_of_mem _ h), fun ts2 h2 => by
        cases queries_unique hts h2
        rw [← trans_step (opt_effect hm) hts hts']
        exact hq _ hts'⟩
      refine ⟨r', ?_⟩
      simp only [runOpts, hm, Run.bind]
      exact hr'

theorem excluded_iff (opts : List CliOpt) : excluded opts = false ↔ ∀ a b, Excludes a b → ¬ (a ∈ opts ∧ b ∈ opts) := by
  have ho : opts.any CliOpt.isOutput = true ↔ ∃ v, .output v ∈ opts := by
    rw [List.any_eq_true]
    constructor
    · rintro ⟨x, hx, h⟩
      cases x <;> simp [CliOpt.isOutput] at h
      exact ⟨_, hx⟩
    · rintro ⟨v, h⟩; exact ⟨_, h, rfl⟩
  have hd : opts.any CliOpt.isToDir = true ↔ ∃ v, .toDir v ∈ opts := by
    rw [List.any_eq_true]
    constructor
    · rintro ⟨x, hx, h⟩
      cases x <;> simp [CliOpt.isToDir] at h
      exact ⟨_, hx⟩
    · rintro ⟨v, h⟩; exact ⟨_, h, rfl⟩
  rw [← Bool.not_eq_true]
  unfold excluded
  simp only [Bool.or_eq_true, Bool.and_eq_true, decide_eq_true_eq, ho, hd]
  constructor
  · intro h a b hab
    cases hab <;> grind
  · intro h h'
    have := h _ _ .src
    have := h _ _ .srcInner
    have := h _ _ .srcOuter
    have := h _ _ .inner
    have := h _ _ .outer
    have := h _ _ .both
    have h7 := fun v w => h _ _ (.output (v := v) (w := w))
    grind

theorem text_given (opts : List CliOpt) : hasText opts = true ↔ lastOf Spec.textOf opts ≠ none := by
  unfold hasText lastOf
  rw [List.any_eq_true, Ne, List.getLast?_eq_none_iff]
  constructor
  · rintro ⟨x, hx, h⟩ e
    cases x <;> simp [CliOpt.isText] at h
    have : _ ∈ opts.filterMap Spec.textOf := List.mem_filterMap.mpr ⟨_, hx, rfl⟩
    rw [e] at this
    cases this
  · intro h
    obtain ⟨y, hy⟩ := List.exists_mem_of_ne_nil _ h
    obtain ⟨x, hx, hxy⟩ := List.mem_filterMap.mp hy
    refine ⟨x, hx, ?_⟩
    cases x <;> simp [Spec.textOf] at hxy
    rfl

theorem default_kept {opts : List CliOpt} {ns uris : List (Str × Str)} (hn : ∀ p u, mapGet p ns = some u ↔ LastUri opts p u) (hu : ∀ p u, mapGet u uris = some p ↔ LastPrefix opts u p) :
    namespacesAccepted srcml_archive_create.namespaces ns uris = true ↔ DefaultKept opts := by
  have e : srcml_archive_create.namespaces = [⟨[], "http://www.srcML.org/srcML/src".toList, NS_STANDARD ||| NS_REQUIRED⟩] := rfl
  unfold DefaultKept
  simp only [← hn, ← hu]
  unfold namespacesAccepted
  rw [e]
  generalize "http://www.srcML.org/srcML/src".toList = src
  simp only [List.all_cons, List.all_nil, Bool.and_true]
  cases h1 : mapGet [] ns with
  | none => simp
  | some u =>
    simp only [Bool.or_eq_true, decide_eq_true_eq, Option.some.injEq]
    cases h2 : mapGet src uris with
    | none => simp
    | some p => simp

theorem stdout_src (stat : Str → FileKind) : ∃ i, inputSrc stat "stdout://-".toList = .val i := by
  have hf : src_prefix_add_uri "stdout://-".toList = "stdout://-".toList := by decide
  have hr : inputResource "stdout://-".toList = ("stdout".toList, "-".toList) := by decide
  unfold inputSrc
  simp only [hf, hr]
  exact ⟨_, rfl⟩

/-- C83: the options are accepted exactly when they can be: every value can be what it is for, no two of them exclude each other, the marks fit the queries (C82), a text has a language or a filename, and
the default namespace of srcML stays or srcML gets another prefix. -/
theorem C83_accepted (stat : Str → FileKind) (enc : Str → Bool) (opts : List CliOpt) : (∃ r, parseOpts stat enc opts = .val (some r)) ↔ Accepted stat enc opts := by
  constructor
  · rintro ⟨r, h⟩
    obtain ⟨r0, out, hx, hr, ht, _, hn, _⟩ := parse_inv h
    obtain ⟨hv, hq⟩ := (runOpts_accepted stat enc opts {}).mp ⟨r0, hr⟩
    refine ⟨hv, (excluded_iff opts).mp hx, hq, ?_, ?_⟩
    · intro hl
      rw [← opts_language hr, ← opts_filename hr]
      have hl := (text_given opts).mpr hl
      by_cases h1 : r0.attLanguage = none
      · by_cases h2 : r0.attFilename = none
        · exact absurd ⟨hl, h1, h2⟩ ht
        · exact .inr h2
      · exact .inl h1
    · exact (default_kept (opts_namespaces hr).2 (opts_uris hr).2).mp hn
  · intro h
    obtain ⟨r0, hr⟩ := (runOpts_accepted stat enc opts {}).mpr ⟨h.values, h.queries⟩
    have hx := (excluded_iff opts).mpr h.together
    have hn := (default_kept (opts_namespaces hr).2 (opts_uris hr).2).mpr h.namespaces
    have ht : ¬ (hasText opts = true ∧ r0.attLanguage = none ∧ r0.attFilename = none) := by
      rintro ⟨h1, h2, h3⟩
      have := h.text ((text_given opts).mp h1)
      rw [← opts_language hr, ← opts_filename hr] at this
      grind
    have hout : ∃ out, outputDest stat r0.output = .val out := by
      cases r0.output with
      | some i => exact ⟨i, rfl⟩
      | none => exact stdout_src stat
    obtain ⟨out, hout⟩ := hout
    unfold parseOpts
    rw [hx, if_neg (by decide), hr]
    simp only [Run.bind]
    unfold finishOpts
    have e : (opts.any CliOpt.isText) = hasText opts := rfl
    rw [e, if_neg ht, hout]
    simp only [Run.bind]
    by_cases hi : r0.inputs = []
    · rw [if_pos hi, stdin_src stat "stdin://-".toList (.inr rfl)]
      simp only [Run.bind]
      rw [hn, if_pos rfl]
      exact ⟨_, rfl⟩
    · rw [if_neg hi]
      simp only [Run.bind]
      rw [hn, if_pos rfl]
      exact ⟨_, rfl⟩

theorem run_defined (stat : Str → FileKind) (enc : Str → Bool) (r : CliReq) (o : CliOpt)
    (h : ∀ v, (o = .input v ∨ o = .output v ∨ o = .toDir v → ∃ i, inputSrc stat v = .val i) ∧ (o = .text v ∨ o = .filesFrom v → v ≠ [])) : ∃ x, o.run stat enc r = .val x := by
  cases o with
  | input v =>
    obtain ⟨m, hm⟩ := (addInput_val stat r v).mpr ((h v).1 (.inl rfl))
    exact ⟨_, by simp only [CliOpt.run, hm, Run.bind]; rfl⟩
  | output v => obtain ⟨m, hm⟩ := (h v).1 (.inr (.inl rfl)); exact ⟨_, by simp only [CliOpt.run, hm, Run.bind]; rfl⟩
  | toDir v => obtain ⟨m, hm⟩ := (h v).1 (.inr (.inr rfl)); exact ⟨_, by simp only [CliOpt.run, hm, Run.bind]; rfl⟩
  | text v =>
    obtain ⟨m, hm⟩ := (named_src stat _ v (.inl rfl)).mpr ((h v).2 (.inl rfl))
    simp only [CliOpt.run]
    split
    · exact ⟨_, rfl⟩
    · exact ⟨_, by simp only [hm, Run.bind]; rfl⟩
  | filesFrom v =>
    obtain ⟨m, hm⟩ := (named_src stat _ v (.inr rfl)).mpr ((h v).2 (.inr rfl))
    exact ⟨_, by simp only [CliOpt.run, hm, Run.bind]; rfl⟩
  | language v => simp only [CliOpt.run]; split <;> exact ⟨_, rfl⟩
  | xmlEncoding v => simp only [CliOpt.run]; split <;> exact ⟨_, rfl⟩
  | tabs v => simp only [CliOpt.run]; split <;> exact ⟨_, rfl⟩
  | _ => exact ⟨_, rfl⟩

/-- C83: with names and texts that are not empty the program goes on or is left with a message. -/
theorem C83_defined (stat : Str → FileKind) (enc : Str → Bool) (opts : List CliOpt) (hn : ∀ v, (.input v ∈ opts ∨ .output v ∈ opts ∨ .toDir v ∈ opts) → ∃ i, inputSrc stat v = .val i)
    (ht : ∀ v, (.text v ∈ opts ∨ .filesFrom v ∈ opts) → v ≠ []) : ∃ x, parseOpts stat enc opts = .val x := by
  have run : ∀ (os : List CliOpt) (r : CliReq), (∀ o ∈ os, o ∈ opts) → ∃ x, runOpts stat enc r os = .val x := by
    intro os
    induction os with
    | nil => intro r _; exact ⟨_, rfl⟩
    | cons o os ih =>
      intro r hs
      have ho := hs o (List.mem_cons_self ..)
      obtain ⟨x, hx⟩ := run_defined stat enc r o (fun v => ⟨fun e => hn v (by rcases e with rfl | rfl | rfl <;> simp [ho]), fun e => ht v (by rcases e with rfl | rfl <;> simp [ho])⟩)
      simp only [runOpts, hx, Run.bind]
      cases x with
      | none => exact ⟨_, rfl⟩
      | some m => exact ih m (fun o' h => hs o' (List.mem_cons_of_mem _ h))
  unfold parseOpts
  split
  · exact ⟨_, rfl⟩
  · obtain ⟨x, hx⟩ := run opts {} (fun _ h => h)
    rw [hx]
    simp only [Run.bind]
    cases x with
    | none => exact ⟨_, rfl⟩
    | some r0 =>
      dsimp only
      unfold finishOpts
      split
      · exact ⟨_, rfl⟩
      · have hout : ∃ out, outputDest stat r0.output = .val out := by
          cases r0.output with
          | some i => exact ⟨i, rfl⟩
          | none => exact stdout_src stat
        obtain ⟨out, hout⟩ := hout
        rw [hout]
        simp only [Run.bind]
        by_cases hi : r0.inputs = []
        · rw [if_pos hi, stdin_src stat "stdin://-".toList (.inr rfl)]
          exact ⟨_, rfl⟩
        · rw [if_neg hi]
          exact ⟨_, rfl⟩

/-- C83, finding: a text that is empty is not a defined case (src/client/srcml_cli.cpp:198-216, src/client/srcml_input_src.cpp:78). -/
theorem C83_finding_empty_text (stat : Str → FileKind) (enc : Str → Bool) : parseOpts stat enc [.language "C++".toList, .text []] = .ub := by
  rfl

/-- C83, finding: a text with a minus at the start is refused, though it is an expression (src/client/srcml_cli.cpp:204-209). -/
theorem C83_finding_text_dash (stat : Str → FileKind) (enc : Str → Bool) : parseOpts stat enc [.language "C++".toList, .text "-1;".toList] = .val none := by
  rfl

/-- C83, finding: with a single directory as the input, the value of `--url` is lost: the url is the name of the directory (src/client/srcml_cli.cpp:654-660). -/
theorem C83_finding_directory_url (stat : Str → FileKind) (enc : Str → Bool) (url : Str) (hd : stat "src".toList = .directory) (r : CliReq)
    (h : parseOpts stat enc [.url url, .input "src".toList] = .val (some r)) : r.attUrl = some "src".toList := by
  obtain ⟨r0, out, _, hr, _, _, _, he, hi⟩ := parse_inv h
  have hf : src_prefix_add_uri "src".toList = "file://src".toList := by decide
  have hs : inputResource "file://src".toList = ("file".toList, "src".toList) := by decide
  have hsrc : ∃ i, inputSrc stat "src".toList = .val i ∧ i.isdirectory = true ∧ i.resource = "src".toList ∧ i.extension = [] := by
    unfold inputSrc
    simp only [hf, hs, if_true, hd]
    exact ⟨_, rfl, rfl, rfl, rfl⟩
  obtain ⟨i, h1, h2, h3, h4⟩ := hsrc
  have hin := opts_inputs hr
  have : r0.inputs = [i] := inputs_unique hin (.other (by simp) (.input h1 (by rw [h4]; decide) (by rw [h4]; decide) .nil))
  rcases hi with hi | hi
  · have e : r.attUrl = directoryUrl r.inputs r0.attUrl := by rw [he]
    rw [e, hi.2.1, this]
    simp only [directoryUrl, h2, if_true, h3]
    decide
  · rw [this] at hi; cases hi.1

/-- C83, finding: the check for the prefixes of the namespaces of srcML is only made for the default one, so the prefix `cpp` can be given to another namespace (src/client/srcml_cli.cpp:662-682). -/
theorem C83_finding_cpp_prefix (stat : Str → FileKind) (enc : Str → Bool) : ∃ r, parseOpts stat enc [.xmlns "cpp=http://example.com".toList] = .val (some r) ∧ r.namespaces = [("cpp".toList, "http://example.com".toList)] := by
  have hd : DefaultKept [.xmlns "cpp=http://example.com".toList] := by
    refine .inl ?_
    rintro u ⟨before, after, v, h, hx, _⟩
    have hm : CliOpt.xmlns v ∈ [CliOpt.xmlns "cpp=http://example.com".toList] := by rw [h]; simp
    cases List.mem_singleton.mp hm
    have := (xmlns_value _ _ _).mp hx
    exact absurd (show ("cpp".toList : Str) = [] from congrArg Prod.fst this) (by decide)
  have ha : Accepted stat enc [.xmlns "cpp=http://example.com".toList] := by
    refine ⟨?_, ?_, ?_, ?_, hd⟩
    · intro o ho
      cases List.mem_singleton.mp ho
      trivial
    · intro a b h
      cases h <;> simp
    · intro ts h
      cases queries_unique h (.other (by simp) (by simp) .nil)
      exact ⟨_, rfl⟩
    · intro h; exact absurd rfl h
  obtain ⟨r, hr⟩ := (C83_accepted stat enc _).mpr ha
  refine ⟨r, hr, ?_⟩
  obtain ⟨r0, out, _, h0, _, _, _, he, _⟩ := parse_inv hr
  have : r.namespaces = r0.namespaces := by rw [he]
  rw [this, ← val_inj h0.symm]
  decide

/-- C83, finding: `--unit` is passed over when there are several inputs (src/client/srcml.cpp:81-83). -/
theorem C83_finding_unit_several (r : CliReq) (a b : InputSrc) (is : List InputSrc) (h : r.inputs = a :: b :: is) : r.unitOf = 0 := by
  unfold CliReq.unitOf
  rw [h, if_neg (by simp)]

/-- A command that is accepted: `srcml --language C++ --text "int a;" --output a.xml --position --xmlns s=http://www.srcML.org/srcML/src --xpath //src:name`. -/
example (stat : Str → FileKind) (enc : Str → Bool) : ∃ r, parseOpts stat enc [.language "C++".toList, .text "int a;".toList, .output "a.xml".toList, .flag .position,
    .xmlns "s=http://www.srcML.org/srcML/src".toList, .trans (.xpath "//src:name".toList)] = .val (some r) := by
  rw [C83_accepted]
  refine ⟨?_, ?_, ?_, ?_, ?_⟩
  · intro o ho
    simp only [List.mem_cons, List.not_mem_nil, or_false] at ho
    rcases ho with rfl | rfl | rfl | rfl | rfl | rfl
    · show _ ∈ _; decide
    · exact ⟨by decide, by decide⟩
    · exact ⟨_, rfl⟩
    all_goals trivial
  · intro a b h
    cases h <;> simp
  · intro ts h
    cases queries_unique h (.other (by simp) (by simp) (.other (by simp) (by simp) (.other (by simp) (by simp) (.other (by simp) (by simp) (.other (by simp) (by simp) (.trans .nil))))))
    exact ⟨_, rfl⟩
  · intro _; exact .inl (by decide)
  · refine .inr ⟨"s".toList, by decide, [.language "C++".toList, .text "int a;".toList, .output "a.xml".toList, .flag .position], [.trans (.xpath "//src:name".toList)],
      "s=http://www.srcML.org/srcML/src".toList, rfl, ?_, by simp⟩
    exact (xmlns_value _ _ _).mpr (by decide)

end Srcml
