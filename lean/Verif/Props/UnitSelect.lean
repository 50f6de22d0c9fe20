import Verif.Spec.UnitSelect
import Verif.Props.UnitApi
set_option linter.unusedSimpArgs false
namespace Srcml
open Spec

/-! ### Reading and skipping -/

theorem Spec.Holds.readUnit {s : ArchiveIO} {u : UnitData} {us : List UnitData} (h : Holds s (u :: us)) :
    s.readUnit = (some u, { s with reader := us }) ∧ Holds { s with reader := us } us := by
  refine ⟨?_, h.mode, rfl, fun v hv => h.read v (by simp [hv])⟩
  unfold ArchiveIO.readUnit
  simp [h.mode, h.units]

theorem Spec.Holds.readEnd {s : ArchiveIO} (h : Holds s []) : s.readUnit = (none, s) := by
  unfold ArchiveIO.readUnit
  simp [h.mode, h.units]

theorem Spec.Holds.setEncoding {s : ArchiveIO} {us : List UnitData} (h : Holds s us) (r : SrcRequest) : Holds (r.setEncoding s) us := by
  unfold SrcRequest.setEncoding
  split
  · exact h
  · exact ⟨h.mode, h.units, h.read⟩

theorem Spec.Holds.skipUnits {us : List UnitData} : ∀ {n : Nat} {s : ArchiveIO}, Holds s us →
    (n ≤ us.length → ∃ s', s.skipUnits n = some s' ∧ Holds s' (us.drop n)) ∧ (us.length < n → s.skipUnits n = none) := by
  intro n
  induction n generalizing us with
  | zero => intro s h; exact ⟨fun _ => ⟨s, rfl, h⟩, fun hn => absurd hn (by omega)⟩
  | succ n ih =>
    intro s h
    cases us with
    | nil =>
      refine ⟨fun hn => absurd hn (by simp), fun _ => ?_⟩
      unfold ArchiveIO.skipUnits ArchiveIO.skipUnit
      simp [h.mode, h.units]
    | cons u us =>
      have e : s.skipUnit = (true, { s with reader := us }) := by
        unfold ArchiveIO.skipUnit
        simp [h.mode, h.units]
      have hk := ih (us := us) h.readUnit.2
      unfold ArchiveIO.skipUnits
      rw [e]
      simp only [if_true, List.drop_succ_cons, List.length_cons]
      exact ⟨fun hn => hk.1 (by omega), fun hn => hk.2 (by omega)⟩

theorem setEol_fields (r : SrcRequest) (he : ∀ e, r.eol = some e → e ≤ 3) (u : UnitData) :
    (r.setEol u).readBody = u.readBody ∧ (r.setEol u).src = u.src ∧ (r.setEol u).eol = r.eol.getD u.eol := by
  unfold SrcRequest.setEol
  cases h : r.eol with
  | none => exact ⟨rfl, rfl, rfl⟩
  | some e =>
    have : ¬ e > EOL_CRLF := by have := he e h; simp [EOL_CRLF]; omega
    simp [UnitSet.run, this]

theorem unparse_source (sax : Sax) (s : ArchiveIO) (hm : s.mode = .read) (to : UnparseTo) (hto : Usable to) (eol : Option Nat)
    (u v : UnitData) (hb : u.readBody = true) (hs : u.src.isSome) (hv : v.readBody = u.readBody ∧ v.src = u.src ∧ v.eol = eol.getD u.eol) :
    ∃ t, SourceText eol u t ∧ srcml_unit_unparse sax s.archive some true to (some { data := v }) = .val (.ok, some { data := v }, some t) := by
  cases hx : u.src with
  | none => rw [hx] at hs; cases hs
  | some x =>
    have ht : s.archive.type = .read ∨ s.archive.type = .rw := by left; unfold ArchiveIO.archive; rw [hm]
    obtain ⟨out, h1, h2⟩ := C30_unparse sax s.archive some to { data := v } x hto ht (by rw [← hb]; exact hv.1) (by rw [← hx]; exact hv.2.1)
    refine ⟨out, ⟨x, hx, ?_⟩, h1⟩
    rw [← hv.2.2]
    exact h2

theorem sourceText_unique {eol : Option Nat} {u : UnitData} {t t' : Str} (h : SourceText eol u t) (h' : SourceText eol u t') : t = t' := by
  obtain ⟨x, h1, h2⟩ := h
  obtain ⟨y, h3, h4⟩ := h'
  rw [h1] at h3
  cases h3
  cases he : endingOf (eol.getD u.eol) with
  | none => rw [he] at h2 h4; exact h2.trans h4.symm
  | some e => rw [he] at h2 h4; exact h2.eq.trans h4.eq.symm

theorem stdout_one (sax : Sax) (r : SrcRequest) (he : ∀ e, r.eol = some e → e ≤ 3) (hu : r.unit ≠ 0) (s : ArchiveIO) (u : UnitData)
    (us : List UnitData) (h : Holds s (u :: us)) :
    ∃ t, SourceText r.eol u t ∧ srcToStdout sax r s false = .val { stdout := t } := by
  have hr := h.readUnit
  obtain ⟨t, h1, h2⟩ := unparse_source sax (r.setEncoding { s with reader := us }) (hr.2.setEncoding r).mode (.fd 1) (by simp [Usable]) r.eol u (r.setEol u)
    (h.read u (by simp)).1 (h.read u (by simp)).2 (setEol_fields r he u)
  refine ⟨t, h1, ?_⟩
  unfold srcToStdout
  split
  · next x hx => rw [hr.1] at hx; cases hx
  · next v s' hx =>
    rw [hr.1] at hx
    cases hx
    simp only [h2, hu, ne_eq, not_false_eq_true, if_true, Bool.false_eq_true, if_false, List.nil_append, Option.getD_some]

theorem nul_cons (t : Str) (ts : List Str) : nulSeparated (t :: ts) = t ++ ts.flatMap (fun t => Char.ofNat 0 :: t) := by
  induction ts generalizing t with
  | nil => simp [nulSeparated, List.intercalate, List.intersperse]
  | cons v ts ih =>
    have := ih v
    simp only [nulSeparated, List.intercalate, List.intersperse_cons_cons, List.flatten_cons, List.flatMap_cons] at this ⊢
    rw [this]
    simp

theorem stdout_all (sax : Sax) (r : SrcRequest) (he : ∀ e, r.eol = some e → e ≤ 3) (hu : r.unit = 0) : ∀ (us : List UnitData) (s : ArchiveIO)
    (sep : Bool), Holds s us →
    ∃ ts : List Str, ts.length = us.length ∧ (∀ i (hi : i < us.length) (hi' : i < ts.length), SourceText r.eol us[i] ts[i]) ∧
      srcToStdout sax r s sep = .val { stdout := if sep then ts.flatMap (fun t => Char.ofNat 0 :: t) else nulSeparated ts } := by
  intro us
  induction us with
  | nil =>
    intro s sep h
    refine ⟨[], rfl, by simp, ?_⟩
    unfold srcToStdout
    split
    · cases sep <;> simp [hu, nulSeparated, List.intercalate]
    · next hx => rw [h.readEnd] at hx; cases hx
  | cons u us ih =>
    intro s sep h
    have hr := h.readUnit
    have hk := hr.2.setEncoding r
    obtain ⟨t, h1, h2⟩ := unparse_source sax (r.setEncoding { s with reader := us }) hk.mode (.fd 1) (by simp [Usable]) r.eol u (r.setEol u)
      (h.read u (by simp)).1 (h.read u (by simp)).2 (setEol_fields r he u)
    obtain ⟨ts, e1, e2, e3⟩ := ih (r.setEncoding { s with reader := us }) true hk
    refine ⟨t :: ts, by simp [e1], ?_, ?_⟩
    · intro i hi hi'
      cases i with
      | zero => exact h1
      | succ i => exact e2 i (by simpa using hi) (by simpa using hi')
    · unfold srcToStdout
      split
      · next x hx => rw [hr.1] at hx; cases hx
      · next v s' hx =>
        rw [hr.1] at hx
        cases hx
        simp only [h2, hu, ne_eq, not_true, if_false, e3, Option.getD_some, if_true]
        cases sep <;> simp [nul_cons]

/-! ### C47: the selection of a unit -/

/-- Asking for unit `n` of an archive with at least `n` units: to the standard output goes the source text of the `n`-th unit and nothing
else; to a file goes the same text. -/
theorem C47_selected (sax : Sax) (r : SrcRequest) (s : ArchiveIO) (us : List UnitData) (n : Nat) (name : Str)
    (hu : r.unit = n) (hn : 0 < n) (hl : n ≤ us.length) (h : Holds s us) (he : ∀ e, r.eol = some e → e ≤ 3) :
    ∃ t, SourceText r.eol us[n - 1] t ∧ createSrc sax r s .stdout = .val { stdout := t } ∧
      createSrc sax r s (.file name true) = .val { files := [(name, t)] } := by
  have hk : (r.unit - 1).toNat = n - 1 := by omega
  obtain ⟨s', e1, e2⟩ := (h.skipUnits (n := n - 1)).1 (by omega)
  have hd : us.drop (n - 1) = us[n - 1] :: us.drop n := by
    rw [List.drop_eq_getElem_cons (by omega)]
    congr 2
    omega
  rw [hd] at e2
  obtain ⟨t, h1, h2⟩ := stdout_one sax r he (by omega) s' _ _ e2
  refine ⟨t, h1, ?_, ?_⟩
  · unfold createSrc
    rw [hk, e1]
    exact h2
  · unfold createSrc
    rw [hk, e1]
    simp only [srcToFile]
    rw [e2.readUnit.1]
    obtain ⟨t', h3, h4⟩ := unparse_source sax (r.setEncoding { s' with reader := us.drop n }) (e2.readUnit.2.setEncoding r).mode
      (.filename (some name)) (by simp [Usable]) r.eol us[n - 1] (r.setEol us[n - 1])
      (e2.read _ (by simp)).1 (e2.read _ (by simp)).2 (setEol_fields r he _)
    simp only [h4, sourceText_unique h1 h3, Option.getD_some]

/-- Asking for a unit that is not there: nothing is written, there is one error message, and the exit status is 1. -/
theorem C47_out_of_range (sax : Sax) (r : SrcRequest) (s : ArchiveIO) (us : List UnitData) (to : SrcTarget)
    (hu : (us.length : Int) < r.unit) (h : Holds s us) : Refused (createSrc sax r s to) := by
  unfold Refused createSrc
  by_cases hk : us.length < (r.unit - 1).toNat
  · rw [(h.skipUnits).2 hk]
  · obtain ⟨s', e1, e2⟩ := (h.skipUnits (n := (r.unit - 1).toNat)).1 (by omega)
    rw [e1]
    have : us.drop (r.unit - 1).toNat = [] := by
      apply List.drop_eq_nil_of_le
      omega
    rw [this] at e2
    cases to with
    | stdout =>
      simp only
      unfold srcToStdout
      split
      · simp [show r.unit ≠ 0 by omega]
      · next hx => rw [e2.readEnd] at hx; cases hx
    | file name o => simp only [srcToFile, e2.readEnd]

/-- Without a selection the source texts of all units go to the standard output, in order, with a NUL between two of them. -/
theorem C47_all_partial (sax : Sax) (r : SrcRequest) (s : ArchiveIO) (us : List UnitData) (hu : r.unit = 0) (h : Holds s us)
    (he : ∀ e, r.eol = some e → e ≤ 3) :
    ∃ ts : List Str, ts.length = us.length ∧ (∀ i (hi : i < us.length) (hi' : i < ts.length), SourceText r.eol us[i] ts[i]) ∧
      createSrc sax r s .stdout = .val { stdout := nulSeparated ts } := by
  obtain ⟨ts, h1, h2, h3⟩ := stdout_all sax r he hu us s false h
  refine ⟨ts, h1, h2, ?_⟩
  unfold createSrc
  rw [hu]
  show srcToStdout sax r s false = _
  rw [h3]
  simp

/-- A file that cannot be opened is an error, and nothing is written. -/
theorem C47_file_error (sax : Sax) (r : SrcRequest) (s : ArchiveIO) (us : List UnitData) (name : Str) (h : Holds s us)
    (he : ∀ e, r.eol = some e → e ≤ 3) : Refused (createSrc sax r s (.file name false)) := by
  by_cases hu : (us.length : Int) < r.unit
  · exact C47_out_of_range sax r s us _ hu h
  · unfold Refused createSrc
    obtain ⟨s', e1, e2⟩ := (h.skipUnits (n := (r.unit - 1).toNat)).1 (by omega)
    rw [e1]
    cases hd : us.drop (r.unit - 1).toNat with
    | nil => rw [hd] at e2; simp only [srcToFile, e2.readEnd]
    | cons u rest =>
      rw [hd] at e2
      simp only [srcToFile, e2.readUnit.1]
      have hm := (e2.readUnit.2.setEncoding r).mode
      have : srcml_unit_unparse sax (r.setEncoding { s' with reader := rest }).archive some false (.filename (some name))
          (some { data := r.setEol u }) = .val (.ioError, some { data := r.setEol u }, none) := by
        apply C30_refused
        unfold unparseRefusal ArchiveIO.archive
        simp only [hm, UnparseTo.valid, Option.isSome_some, (setEol_fields r he u).1, (e2.read u (by simp)).1]
        simp
      rw [this]

/-- Asking for an output in srcML: with a selection exactly the `n`-th unit is handed on; without, all units in their order. -/
theorem scheduled {language : Option Str} {unit : Int} : ∀ {us : List UnitData} {s : ArchiveIO}, Holds s us →
    scheduleUnits language unit s = (if unit = 0 then us else us.take 1).map (withLanguage language) := by
  intro us
  induction us with
  | nil =>
    intro s h
    unfold scheduleUnits
    split
    · simp
    · next hx => rw [h.readEnd] at hx; cases hx
  | cons u us ih =>
    intro s h
    unfold scheduleUnits
    split
    · next hx => rw [h.readUnit.1] at hx; cases hx
    · next hx =>
      rw [h.readUnit.1] at hx
      cases hx
      by_cases hu : unit = 0
      · simp [hu, ih h.readUnit.2]
        rw [← hu, ih h.readUnit.2, if_pos hu]
      · simp [hu]

theorem withLanguage_eq (language : Option Str) : withLanguage language = fun u => { u with language := language.or u.language } := by
  funext u; cases language <;> rfl

/-- An archive as input of a new archive: with the selection of unit `n` exactly the `n`-th unit is handed on, and there is an error if it is
not there; without a selection all units are handed on in their order. The language of a unit is replaced if one is requested. -/
theorem C47_srcml (language : Option Str) (unit : Int) (s : ArchiveIO) (us : List UnitData) (h : Holds s us) :
    (∀ (n : Nat) (hl : n < us.length), unit = n + 1 → srcmlInput language unit s = { units := [{ us[n] with language := language.or us[n].language }] }) ∧
    ((us.length : Int) < unit → srcmlInput language unit s = { errors := 1, exited := true }) ∧
    (unit = 0 → us ≠ [] → srcmlInput language unit s = { units := us.map (fun u => { u with language := language.or u.language }) }) := by
  simp only [← withLanguage_eq]
  have he : ∀ u : UnitData, ({ u with language := language.or u.language } : UnitData) = withLanguage language u :=
    fun u => (congrFun (withLanguage_eq language) u).symm
  simp only [he]
  refine ⟨?_, ?_, ?_⟩
  · intro n hl hu
    have hk : (unit - 1).toNat = n := by omega
    obtain ⟨s', e1, e2⟩ := (h.skipUnits (n := n)).1 (by omega)
    rw [List.drop_eq_getElem_cons hl] at e2
    unfold srcmlInput
    rw [hk, e1]
    simp only [scheduled e2, show unit ≠ 0 by omega, if_false, List.take_succ_cons, List.take_zero, List.map_cons, List.map_nil,
      List.isEmpty_cons, Bool.false_eq_true]
  · intro hu
    unfold srcmlInput
    by_cases hk : us.length < (unit - 1).toNat
    · rw [(h.skipUnits).2 hk]
    · obtain ⟨s', e1, e2⟩ := (h.skipUnits (n := (unit - 1).toNat)).1 (by omega)
      rw [e1, List.drop_eq_nil_of_le (by omega)] at *
      simp only [scheduled e2]
      simp
  · intro hu hne
    unfold srcmlInput
    rw [hu]
    show (if (scheduleUnits language 0 s).isEmpty = true then _ else _) = _
    rw [scheduled h]
    cases us with
    | nil => exact absurd rfl hne
    | cons u us => simp

/-! ### Instances and findings for C47 -/

/-- An archive with three units, open for reading. -/
def threeUnits : ArchiveIO where
  settings := srcml_archive_create
  mode := .read
  reader := [{ readBody := true, src := some "a\n".toList }, { readBody := true, src := some "b\n".toList },
    { readBody := true, src := some "c\n".toList }]

theorem three_holds : Holds threeUnits threeUnits.reader where
  mode := rfl
  units := rfl
  read := by decide +kernel

example : createSrc (fun _ => []) { unit := 2, eol := some 3 } threeUnits .stdout = .val { stdout := "b\r\n".toList } := by
  obtain ⟨t, h1, h2, _⟩ := C47_selected (fun _ => []) { unit := 2, eol := some 3 } threeUnits _ 2 [] rfl (by decide) (by decide) three_holds
    (by intro e he; cases he; decide)
  rw [h2]
  obtain ⟨x, h3, h4⟩ := h1
  cases h3
  have := Converted.eq h4
  rw [this]
  rfl

example : createSrc (fun _ => []) {} threeUnits .stdout = .val { stdout := "a\n\x00b\n\x00c\n".toList } := by
  obtain ⟨ts, h1, h2, h3⟩ := C47_all_partial (fun _ => []) {} threeUnits _ rfl three_holds (by intro e he; cases he)
  rw [h3]
  match ts, h1, h2 with
  | [x, y, z], _, h2 =>
    obtain ⟨_, e0, f0⟩ := h2 0 (by decide) (by simp)
    obtain ⟨_, e1, f1⟩ := h2 1 (by decide) (by simp)
    obtain ⟨_, e2, f2⟩ := h2 2 (by decide) (by simp)
    cases e0; cases e1; cases e2
    cases (show x = "a\n".toList from f0)
    cases (show y = "b\n".toList from f1)
    cases (show z = "c\n".toList from f2)
    rfl

example : Refused (createSrc (fun _ => []) { unit := 4 } threeUnits .stdout) :=
  C47_out_of_range _ _ _ _ _ (by decide) three_holds

example : srcmlInput (some "C".toList) 3 threeUnits =
    { units := [{ readBody := true, src := some "c\n".toList, language := some "C".toList }] } :=
  (C47_srcml (some "C".toList) 3 threeUnits _ three_holds).1 2 (by decide) rfl

/-- C47 is false for an output file: without a selection only the first unit is written to it, and this is not reported. -/
theorem C47_finding_file_first_only (sax : Sax) (r : SrcRequest) (s : ArchiveIO) (u : UnitData) (us : List UnitData) (name : Str)
    (hu : r.unit = 0) (h : Holds s (u :: us)) (he : ∀ e, r.eol = some e → e ≤ 3) :
    ∃ t, SourceText r.eol u t ∧ createSrc sax r s (.file name true) = .val { files := [(name, t)] } := by
  obtain ⟨t', h3, h4⟩ := unparse_source sax (r.setEncoding { s with reader := us }) (h.readUnit.2.setEncoding r).mode
    (.filename (some name)) (by simp [Usable]) r.eol u (r.setEol u)
    (h.read _ (by simp)).1 (h.read _ (by simp)).2 (setEol_fields r he _)
  refine ⟨t', h3, ?_⟩
  unfold createSrc
  rw [hu]
  simp only [ArchiveIO.skipUnits, srcToFile, h.readUnit.1, h4, show (0 - 1 : Int).toNat = 0 from rfl, Option.getD_some]

/-- C47 is false for a negative number: the first unit is output, and this is not reported. -/
theorem C47_finding_negative (sax : Sax) (r : SrcRequest) (s : ArchiveIO) (u : UnitData) (us : List UnitData) (hu : r.unit < 0)
    (h : Holds s (u :: us)) (he : ∀ e, r.eol = some e → e ≤ 3) :
    ∃ t, SourceText r.eol u t ∧ createSrc sax r s .stdout = .val { stdout := t } := by
  obtain ⟨t, h1, h2⟩ := stdout_one sax r he (by omega) s u us h
  refine ⟨t, h1, ?_⟩
  unfold createSrc
  rw [show (r.unit - 1).toNat = 0 by omega]
  exact h2

/-- Without a selection, an archive without units is an error for an output in srcML, and reported as a unit out of range; for the standard
output it is not. -/
theorem C47_finding_no_units (sax : Sax) (language : Option Str) (r : SrcRequest) (s : ArchiveIO) (hu : r.unit = 0) (h : Holds s []) :
    srcmlInput language 0 s = { errors := 1, exited := true } ∧ createSrc sax r s .stdout = .val {} := by
  constructor
  · unfold srcmlInput
    show (if (scheduleUnits language 0 s).isEmpty = true then _ else _) = _
    rw [scheduled h]
    rfl
  · unfold createSrc srcToStdout
    rw [hu]
    simp only [ArchiveIO.skipUnits, show (0 - 1 : Int).toNat = 0 from rfl]
    split
    · simp [hu]
    · next hx => rw [h.readEnd] at hx; cases hx

/-- With several inputs the selection is dropped: every unit of each input is handed on. -/
theorem C47_finding_many_inputs (inputs : Nat) (unit : Int) (hi : inputs ≠ 1) (language : Option Str) (s : ArchiveIO) (us : List UnitData)
    (h : Holds s us) (hne : us ≠ []) :
    srcmlInput language (inputUnit inputs unit) s = { units := us.map (fun u => { u with language := language.or u.language }) } := by
  have : inputUnit inputs unit = 0 := by simp [inputUnit, hi]
  rw [this]
  exact (C47_srcml language 0 s us h).2.2 rfl hne

/-! ### C57: extraction to a directory -/

/-- Extraction to a directory: every unit with a file name is written to the file of that name in the directory, with its source text and in
its order; units without a file name are left out. The directory is not `.` or `./`. -/
theorem C57_to_directory_partial (sax : Sax) (dir : Str) (hd : dir ≠ ".".toList ∧ dir ≠ "./".toList) : ∀ (us : List UnitData) (s : ArchiveIO), Holds s us →
    ∃ fs, srcToDirectory sax s dir (fun _ => true) = .val fs ∧
      fs.map (·.1) = (us.filterMap (·.filename)).map (inDirectory dir) ∧
      fs.length = (us.filter (·.filename.isSome)).length ∧
      ∀ i (hi : i < fs.length) (hi' : i < (us.filter (·.filename.isSome)).length),
        SourceText none (us.filter (·.filename.isSome))[i] (fs[i]).2 := by
  intro us
  induction us with
  | nil =>
    intro s h
    refine ⟨[], ?_, rfl, rfl, by intro i hi; simp at hi⟩
    unfold srcToDirectory
    split
    · rfl
    · next hx => rw [h.readEnd] at hx; cases hx
  | cons u us ih =>
    intro s h
    obtain ⟨fs, e1, e2, e3, e4⟩ := ih { s with reader := us } h.readUnit.2
    cases hf : u.filename with
    | none =>
      refine ⟨fs, ?_, by simp [e2, hf], by simp [e3, hf], ?_⟩
      · unfold srcToDirectory
        split
        · next hx => rw [h.readUnit.1] at hx; cases hx
        · next hx =>
          rw [h.readUnit.1] at hx
          cases hx
          simp only [hf]
          exact e1
      · simpa [hf] using e4
    | some f =>
      obtain ⟨t, h1, h2⟩ := unparse_source sax { s with reader := us } h.readUnit.2.mode (.filename (some (outputFileName dir f)))
        (by simp [Usable]) none u u (h.read u (by simp)).1 (h.read u (by simp)).2 ⟨rfl, rfl, rfl⟩
      refine ⟨(outputFileName dir f, t) :: fs, ?_, ?_, by simp [e3, hf], ?_⟩
      · unfold srcToDirectory
        split
        · next hx => rw [h.readUnit.1] at hx; cases hx
        · next hx =>
          rw [h.readUnit.1] at hx
          cases hx
          simp only [hf, h2, e1]
          rfl
      · simp only [List.map_cons, e2, hf, List.filterMap_cons, List.cons.injEq, and_true]
        unfold outputFileName inDirectory
        rw [if_pos hd]
      · intro i hi hi'
        simp only [hf, Option.isSome_some, List.filter_cons_of_pos] at hi' ⊢
        cases i with
        | zero => exact h1
        | succ i => exact e4 i (by simpa using hi) (by simpa using hi')

example : Holds { threeUnits with reader := [{ readBody := true, src := some "a".toList, filename := some "d/x.c".toList }] }
    [{ readBody := true, src := some "a".toList, filename := some "d/x.c".toList }] where
  mode := rfl
  units := rfl
  read := by decide +kernel

/-- C57 is false for the directory `.`: the files are written below the root of the file system. -/
theorem C57_finding_dot (f : Str) : outputFileName ".".toList f = '/' :: f ∧ outputFileName "./".toList f = '/' :: f := ⟨rfl, rfl⟩

/-- A file name of a unit can lead out of the directory. -/
theorem C57_finding_leaves_directory : outputFileName "out".toList "../../x.c".toList = "out/../../x.c".toList := rfl

/-! ### C58: extraction to an archive of another kind -/

/-- A unit to be put into an archive of another kind, and its entry. -/
structure Spec.Entry (n : Nat) (u : UnitData) (e : Str × Str) : Prop where
  named : ∀ f, u.filename = some f → f ≠ [] → e.1 = f
  numbered : u.filename.getD [] = [] → ∃ ext, e.1 = "srcml_unit_".toList ++ (toString n).toList ++ ext
  text : ∃ t, SourceText none u t ∧ (Char.ofNat 0 ∉ t → e.2 = t)

/-- Extraction to an archive of another kind: one entry for each unit, in order, with the file name of the unit or else a name with the number
of the unit, and the source text of the unit. Every unit without a file name has a language. -/
theorem C58_entries_partial (sax : Sax) : ∀ (us : List UnitData) (s : ArchiveIO) (n : Nat), Holds s us →
    (∀ u ∈ us, u.filename.getD [] = [] → u.language ≠ none) →
    ∃ es, srcToEntries sax s n = .val es ∧ es.length = us.length ∧
      ∀ i (hi : i < us.length) (hi' : i < es.length), Entry (n + i + 1) us[i] es[i] := by
  intro us
  induction us with
  | nil =>
    intro s n h _
    refine ⟨[], ?_, rfl, by simp⟩
    unfold srcToEntries
    split
    · rfl
    · next hx => rw [h.readEnd] at hx; cases hx
  | cons u us ih =>
    intro s n h hl
    obtain ⟨es, e1, e2, e3⟩ := ih { s with reader := us } (n + 1) h.readUnit.2 (fun v hv => hl v (by simp [hv]))
    obtain ⟨t, h1, h2⟩ := unparse_source sax { s with reader := us } h.readUnit.2.mode (.memory true true)
      (by simp [Usable]) none u u (h.read u (by simp)).1 (h.read u (by simp)).2 ⟨rfl, rfl, rfl⟩
    have hname : ∃ name, entryName (n + 1) u = .val name ∧ (∀ f, u.filename = some f → f ≠ [] → name = f) ∧
        (u.filename.getD [] = [] → ∃ ext, name = "srcml_unit_".toList ++ (toString (n + 1)).toList ++ ext) := by
      unfold entryName
      by_cases hf : u.filename.getD [] = []
      · rw [if_pos hf]
        cases hg : u.language with
        | none => exact absurd hg (hl u (by simp) hf)
        | some l =>
          refine ⟨_, rfl, ?_, fun _ => ⟨_, rfl⟩⟩
          intro f hfn hne
          rw [hfn] at hf
          exact absurd hf hne
      · rw [if_neg hf]
        refine ⟨_, rfl, ?_, fun h => absurd h hf⟩
        intro f hfn _
        rw [hfn]
        rfl
    obtain ⟨name, k1, k2, k3⟩ := hname
    refine ⟨(name, t.take (memoryResult t).2) :: es, ?_, by simp [e2], ?_⟩
    · unfold srcToEntries
      split
      · next hx => rw [h.readUnit.1] at hx; cases hx
      · next hx =>
        rw [h.readUnit.1] at hx
        cases hx
        simp only [k1, h2, e1]
    · intro i hi hi'
      cases i with
      | zero =>
        refine ⟨k2, k3, t, h1, ?_⟩
        intro hz
        simp [memoryResult, findFirst_none.mpr hz]
      | succ i =>
        have := e3 i (by simpa using hi) (by simpa using hi')
        rw [show n + (i + 1) + 1 = n + 1 + i + 1 by omega]
        exact this

/-- A unit without a file name and without a language: a null pointer is made a string. -/
theorem C58_finding_no_language (n : Nat) (u : UnitData) (hf : u.filename = none) (hl : u.language = none) : entryName n u = .ub := by
  unfold entryName
  rw [hf, hl]
  rfl

/-- The numbers start again with each input: the first units of two inputs, both without file name and with the same language, get entries
of the same name. -/
theorem C58_finding_same_name (sax : Sax) (l : Str) (s s' : ArchiveIO) (u u' : UnitData) (h : Holds s [u]) (h' : Holds s' [u'])
    (hf : u.filename = none ∧ u'.filename = none) (hl : u.language = some l ∧ u'.language = some l) :
    ∃ name t t', inputsToEntries sax [s, s'] = .val [(name, t), (name, t')] := by
  have key : ∀ (s : ArchiveIO) (u : UnitData), Holds s [u] → u.filename = none → u.language = some l →
      ∃ t, srcToEntries sax s 0 = .val [("srcml_unit_".toList ++ (toString 1).toList ++
        (match stdExtension (some l) with | .val e => e | .ub => []), t)] := by
    intro s u h hf hl
    obtain ⟨t, h1, h2⟩ := unparse_source sax { s with reader := [] } h.readUnit.2.mode (.memory true true)
      (by simp [Usable]) none u u (h.read u (by simp)).1 (h.read u (by simp)).2 ⟨rfl, rfl, rfl⟩
    refine ⟨t.take (memoryResult t).2, ?_⟩
    have e1 : srcToEntries sax { s with reader := [] } 1 = .val [] := by
      unfold srcToEntries
      split
      · rfl
      · next hx => rw [h.readUnit.2.readEnd] at hx; cases hx
    have e2 : entryName 1 u = .val ("srcml_unit_".toList ++ (toString 1).toList ++
        (match stdExtension (some l) with | .val e => e | .ub => [])) := by
      unfold entryName
      rw [hf, hl]
      rfl
    unfold srcToEntries
    split
    · next hx => rw [h.readUnit.1] at hx; cases hx
    · next hx =>
      rw [h.readUnit.1] at hx
      cases hx
      simp only [e2, h2, e1, Nat.zero_add]
  obtain ⟨t, h1⟩ := key s u h hf.1 hl.1
  obtain ⟨t', h2⟩ := key s' u' h' hf.2 hl.2
  refine ⟨"srcml_unit_".toList ++ (toString 1).toList ++ (match stdExtension (some l) with | .val e => e | .ub => []), t, t', ?_⟩
  simp only [inputsToEntries, h1, h2]
  rfl

/-- The text of an entry ends before the first NUL. -/
theorem C58_finding_nul : ("ab\x00c".toList).take (memoryResult "ab\x00c".toList).2 = "ab".toList := by decide +kernel

/-! ### C59: messages -/

theorem fill_plain (v : Str) : ∀ (s : Str), '%' ∉ s → ∀ (c : Char) (rest : Str), c ≠ '%' →
    statusFill v (s ++ '%' :: c :: rest) = .val (s ++ v ++ rest) := by
  intro s
  induction s with
  | nil => intro _ c rest hc; simp [statusFill, hc]
  | cons x xs ih =>
    intro h c rest hc
    simp only [List.mem_cons, not_or] at h
    have hx : x ≠ '%' := Ne.symm h.1
    show statusFill v (x :: (xs ++ '%' :: c :: rest)) = _
    have hu : statusFill v (x :: (xs ++ '%' :: c :: rest)) = (match statusFill v (xs ++ '%' :: c :: rest) with
        | .ub => .ub
        | .val r => .val (x :: r)) := by
      rw [statusFill.eq_def]
      split
      · next he => cases he
      · next he => injection he with he _; exact absurd he hx
      · next he => injection he with he _; exact absurd he hx
      · next he => cases he; rfl
    rw [hu, ih h.2 c rest hc]
    rfl

/-- A message is its format with the arguments in their places, for a format with as many places as arguments, and arguments of which only the
last one may contain a `%`. -/
theorem C59_message_partial (f : Format) (args : List Str) (hf : f.Plain) (hn : args.length = f.2.length)
    (ha : ∀ a ∈ args.dropLast, '%' ∉ a) : statusText f.text args = .val (f.fill args) := by
  obtain ⟨first, rest⟩ := f
  induction args generalizing first rest with
  | nil =>
    cases rest with
    | nil => simp [statusText, Format.text, Format.fill]
    | cons => cases hn
  | cons v vs ih =>
    cases rest with
    | nil => cases hn
    | cons p ps =>
      have hp := hf.rest p (by simp)
      unfold statusText
      have e : Format.text (first, p :: ps) = first ++ '%' :: p.1 :: (p.2 ++ ps.flatMap (fun p => '%' :: p.1 :: p.2)) := by
        simp [Format.text]
      rw [e, fill_plain v first hf.first p.1 _ hp.1]
      simp only
      cases vs with
      | nil =>
        cases ps with
        | nil => simp [statusText, Format.fill]
        | cons => simp at hn
      | cons w ws =>
        have hv : '%' ∉ v := ha v (by simp)
        have := ih (fun a h => ha a (by simp only [List.dropLast_cons_cons, List.mem_cons]; right; exact h)) (first ++ v ++ p.2) ps
          ⟨by simp [hf.first, hv, hp.2], fun q hq => hf.rest q (by simp [hq])⟩ (by simpa using hn)
        have e2 : Format.text (first ++ v ++ p.2, ps) = first ++ v ++ (p.2 ++ ps.flatMap (fun p => '%' :: p.1 :: p.2)) := by
          simp [Format.text]
        rw [← e2, this]
        simp [Format.fill]

example : statusText "Requested unit %s out of range.".toList ["4".toList] = .val "Requested unit 4 out of range.".toList := by
  decide +kernel

example : Format.Plain ("srcml: unable to register namespace '".toList, [('s', ":".toList), ('s', "' for srcml archive".toList)]) where
  first := by decide +kernel
  rest := by decide +kernel

theorem fill_percent (v : Str) : ∀ (s : Str), '%' ∉ s → ∀ (rest r : Str), statusFill v rest = .val r →
    statusFill v (s ++ '%' :: '%' :: rest) = .val (s ++ '%' :: r) := by
  intro s
  induction s with
  | nil => intro _ rest r hr; simp [statusFill, hr]
  | cons x xs ih =>
    intro h rest r hr
    simp only [List.mem_cons, not_or] at h
    have hx : x ≠ '%' := Ne.symm h.1
    have hu : statusFill v (x :: (xs ++ '%' :: '%' :: rest)) = (match statusFill v (xs ++ '%' :: '%' :: rest) with
        | .ub => .ub
        | .val r => .val (x :: r)) := by
      rw [statusFill.eq_def]
      split
      · next he => cases he
      · next he => injection he with he _; exact absurd he hx
      · next he => injection he with he _; exact absurd he hx
      · next he => cases he; rfl
    show statusFill v (x :: (xs ++ '%' :: '%' :: rest)) = _
    rw [hu, ih h.2 rest r hr]
    rfl

/-- In a message with one argument, each `%%` before the place of the argument is written as one `%`. -/
theorem C59_percent (texts : List Str) (last : Str) (c : Char) (tail v : Str) (ht : ∀ t ∈ texts, '%' ∉ t) (hl : '%' ∉ last) (hc : c ≠ '%') :
    statusText ((texts.flatMap (· ++ "%%".toList)) ++ last ++ '%' :: c :: tail) [v] =
      .val ((texts.flatMap (· ++ "%".toList)) ++ last ++ v ++ tail) := by
  have key : statusFill v ((texts.flatMap (· ++ "%%".toList)) ++ last ++ '%' :: c :: tail) =
      .val ((texts.flatMap (· ++ "%".toList)) ++ last ++ v ++ tail) := by
    induction texts with
    | nil => simpa using fill_plain v last hl c tail hc
    | cons t ts ih =>
      have := fill_percent v t (ht t (by simp)) _ _ (ih (fun x hx => ht x (by simp [hx])))
      simpa using this
  simp only [statusText, key]

example : statusText "100%% of %s".toList ["a".toList] = .val "100% of a".toList := by decide +kernel

/-- Finding: with more arguments, a `%%` is undone once more for each further argument; and without an argument it is not undone. -/
theorem C59_finding_percent_percent : statusText "%%x %s %s".toList ["a".toList, "b".toList] = .val "b a %s".toList ∧
    statusText "%%x".toList [] = .val "%%x".toList := by
  constructor <;> decide +kernel

/-- A `%` in an argument that is not the last one is taken for the place of the next argument. -/
theorem C59_finding_percent_in_argument :
    statusText "srcml: unable to register namespace '%s:%s' for srcml archive".toList ["a%b".toList, "U".toList] =
      .val "srcml: unable to register namespace 'aU:%s' for srcml archive".toList := by decide +kernel

/-- A format that ends with a `%` before the place of an argument was found: the text behind its end is read. -/
theorem C59_finding_percent_last (v : Str) : statusText "%s%".toList [v] = .val (v ++ ['%']) ∧ statusText "100%".toList [v] = .ub := ⟨rfl, rfl⟩

end Srcml
