import Verif.Spec.Metadata
import Verif.Model.Metadata
import Verif.Props.Pretty
import Verif.Props.UnitSelect
/-
C81: the metadata that the command shows.
-/
set_option linter.unusedSimpArgs false
namespace Srcml
open Spec

/-! ### Values -/

/-- The parts of the format of one value. -/
def showPieces (only : Bool) (x : Str × Char) : List FormatPiece :=
  if only then [.field [x.2], .char '\n'] else x.1.map .char ++ [.char '=', .char '"', .field [x.2], .char '"', .char '\n']

theorem formatText_append (p q : List FormatPiece) : formatText (p ++ q) = formatText p ++ formatText q := by
  unfold formatText; rw [List.flatMap_append]

theorem formatText_chars (s : Str) : formatText (s.map .char) = s := by
  unfold formatText
  induction s with
  | nil => rfl
  | cons c s ih => rw [List.map_cons, List.flatMap_cons, ih]; rfl

theorem showPieces_text (only : Bool) (x : Str × Char) : formatText (showPieces only x) = showFormat only true x.1 x.2 := by
  unfold showPieces showFormat
  cases only with
  | true => rfl
  | false =>
    simp only [Bool.false_eq_true, if_false, if_true, formatText_append, formatText_chars]
    rfl

theorem showPieces_fields (only : Bool) (x : Str × Char) : fields (showPieces only x) = [[x.2]] := by
  unfold showPieces
  cases only with
  | true => rfl
  | false =>
    simp only [Bool.false_eq_true, if_false]
    have h1 : fields (x.1.map FormatPiece.char) = [] := by
      unfold fields
      rw [List.filterMap_eq_nil_iff]
      intro p hp
      obtain ⟨c, _, rfl⟩ := List.mem_map.mp hp
      rfl
    have h2 : ∀ p q, fields (p ++ q) = fields p ++ fields q := by intro p q; unfold fields; rw [List.filterMap_append]
    rw [h2, h1]
    rfl

theorem printed_append (value : Str → Str) (p q : List FormatPiece) : printed value (p ++ q) = printed value p ++ printed value q := by
  unfold printed; rw [List.flatMap_append]

theorem printed_chars (value : Str → Str) (s : Str) : printed value (s.map .char) = s := by
  unfold printed
  induction s with
  | nil => rfl
  | cons c s ih => rw [List.map_cons, List.flatMap_cons, ih]; rfl

theorem showPieces_printed (only : Bool) (x : Str × Char) (value : Str → Str) : printed value (showPieces only x) = valueLine only x.1 (value [x.2]) := by
  unfold showPieces valueLine
  cases only with
  | true => simp [printed]
  | false =>
    simp only [Bool.false_eq_true, if_false, printed_append, printed_chars]
    simp [printed]

/-- The section of the values `xs`. -/
theorem showPieces_shown (only : Bool) (xs : List (Str × Char)) (value : Str → Option Str) :
    shown value (xs.flatMap (showPieces only)) = match xs.map (fun x => (x.1, value [x.2])) with
      | [(_, none)] => []
      | vs => vs.flatMap (fun v => valueLine only v.1 (v.2.getD [])) := by
  have hf : fields (xs.flatMap (showPieces only)) = xs.map (fun x => [x.2]) := by
    induction xs with
    | nil => rfl
    | cons x xs ih =>
      have : ∀ p q, fields (p ++ q) = fields p ++ fields q := by intro p q; unfold fields; rw [List.filterMap_append]
      rw [List.flatMap_cons, this, showPieces_fields, ih]
      rfl
  have hp : ∀ (xs : List (Str × Char)) (f : Str → Str), printed f (xs.flatMap (showPieces only)) = xs.flatMap (fun x => valueLine only x.1 (f [x.2])) := by
    intro xs f
    induction xs with
    | nil => rfl
    | cons x xs ih => rw [List.flatMap_cons, printed_append, showPieces_printed, ih, List.flatMap_cons]
  unfold shown
  rw [hf]
  match xs with
  | [] => rfl
  | [x] =>
    simp only [List.map_cons, List.map_nil]
    cases hv : value [x.2] with
    | none => simp
    | some v =>
      rw [if_neg (by simp), hp]
      simp [hv]
  | x :: y :: xs =>
    simp only [List.map_cons, hp]
    simp [List.flatMap_map]

theorem wellFormed_append (names : List Str) (p q : List FormatPiece) (hp : WellFormed names p) (hq : WellFormed names q) (h1 : ∀ x ∈ p, x ≠ .percent)
    (h2 : ∀ n, FormatPiece.field n ∈ p → n.head? ≠ some 'N') : WellFormed names (p ++ q) := by
  induction p with
  | nil => exact hq
  | cons x p ih =>
    cases x with
    | char c => exact ⟨hp.1, ih hp.2 (fun y hy => h1 y (by simp [hy])) (fun n hn => h2 n (by simp [hn]))⟩
    | percent => exact absurd rfl (h1 _ (by simp))
    | field n => exact ⟨hp.1, fun h => absurd h (h2 n (by simp)), ih hp.2.2 (fun y hy => h1 y (by simp [hy])) (fun n hn => h2 n (by simp [hn]))⟩

/-- The names of values are plain, and the letters are fields. -/
structure PlainField (names : List Str) (x : Str × Char) : Prop where
  name : '%' ∉ x.1 ∧ '{' ∉ x.1 ∧ '}' ∉ x.1
  letter : [x.2] ∈ names ∧ x.2 ≠ 'N' ∧ x.2 ≠ '{' ∧ x.2 ≠ '}'

theorem showPieces_mem {only : Bool} {x : Str × Char} {p : FormatPiece} (h : p ∈ showPieces only x) : (∃ c, p = .char c ∧ (c ∈ x.1 ∨ c = '=' ∨ c = '"' ∨ c = '\n')) ∨ p = .field [x.2] := by
  unfold showPieces at h
  cases only with
  | true =>
    simp only [if_true, List.mem_cons, List.not_mem_nil, or_false] at h
    rcases h with rfl | rfl
    · exact .inr rfl
    · exact .inl ⟨_, rfl, by simp⟩
  | false =>
    simp only [Bool.false_eq_true, if_false, List.mem_append, List.mem_map, List.mem_cons, List.not_mem_nil, or_false] at h
    rcases h with ⟨c, hc, rfl⟩ | rfl | rfl | rfl | rfl | rfl
    · exact .inl ⟨c, rfl, .inl hc⟩
    · exact .inl ⟨_, rfl, by simp⟩
    · exact .inl ⟨_, rfl, by simp⟩
    · exact .inr rfl
    · exact .inl ⟨_, rfl, by simp⟩
    · exact .inl ⟨_, rfl, by simp⟩

theorem wellFormed_mem (names : List Str) (ps : List FormatPiece) (h : ∀ p ∈ ps, (∃ c, p = .char c ∧ c ≠ '%') ∨ ∃ n, p = .field n ∧ n ∈ names ∧ n.head? ≠ some 'N') : WellFormed names ps := by
  induction ps with
  | nil => trivial
  | cons p ps ih =>
    have ih := ih (fun q hq => h q (by simp [hq]))
    rcases h p (by simp) with ⟨c, rfl, hc⟩ | ⟨n, rfl, hn, hN⟩
    · exact ⟨hc, ih⟩
    · exact ⟨hn, fun e => absurd e hN, ih⟩

theorem pieces_wellFormed (names : List Str) (only : Bool) (xs : List (Str × Char)) (h : ∀ x ∈ xs, PlainField names x) : WellFormed names (xs.flatMap (showPieces only)) := by
  apply wellFormed_mem
  intro p hp
  obtain ⟨x, hx, hp⟩ := List.mem_flatMap.mp hp
  have hx := h x hx
  rcases showPieces_mem hp with ⟨c, rfl, hc⟩ | rfl
  · refine .inl ⟨c, rfl, ?_⟩
    rintro rfl
    rcases hc with hc | hc | hc | hc
    · exact hx.name.1 hc
    · cases hc
    · cases hc
    · cases hc
  · exact .inr ⟨_, rfl, hx.letter.1, by simpa using hx.letter.2.1⟩

theorem pieces_text_mem (names : List Str) (only : Bool) (xs : List (Str × Char)) (h : ∀ x ∈ xs, PlainField names x) :
    '{' ∉ formatText (xs.flatMap (showPieces only)) ∧ '}' ∉ formatText (xs.flatMap (showPieces only)) := by
  have key : ∀ c : Char, (∀ x ∈ xs, c ∉ x.1 ∧ c ≠ x.2) → c ≠ '=' → c ≠ '"' → c ≠ '\n' → c ≠ '%' → c ∉ formatText (xs.flatMap (showPieces only)) := by
    intro c hx h1 h2 h3 h4 hc
    unfold formatText at hc
    obtain ⟨p, hp, hc⟩ := List.mem_flatMap.mp hc
    obtain ⟨x, hx', hp⟩ := List.mem_flatMap.mp hp
    have hx := hx x hx'
    rcases showPieces_mem hp with ⟨d, rfl, hd⟩ | rfl
    · simp only [FormatPiece.text, List.mem_singleton] at hc
      subst hc
      rcases hd with hd | hd | hd | hd
      · exact hx.1 hd
      · exact h1 hd
      · exact h2 hd
      · exact h3 hd
    · simp only [FormatPiece.text, List.mem_cons, List.not_mem_nil, or_false] at hc
      rcases hc with hc | hc
      · exact h4 hc
      · exact hx.2 hc
  constructor
  · exact key _ (fun x hx => ⟨(h x hx).name.2.1, fun e => (h x hx).letter.2.2.1 e.symm⟩) (by decide) (by decide) (by decide) (by decide)
  · exact key _ (fun x hx => ⟨(h x hx).name.2.2, fun e => (h x hx).letter.2.2.2 e.symm⟩) (by decide) (by decide) (by decide) (by decide)

/-- The values of the archive. -/
def headerAsked (r : ShowReq) : List (Bool × Str × Char) := [(r.encoding, "encoding".toList, 'X'), (r.url, "url".toList, 'U')]
/-- The values of a unit. -/
def bodyAsked (r : ShowReq) : List (Bool × Str × Char) :=
  [(r.filename, "filename".toList, 'f'), (r.language, "language".toList, 'l'), (r.version, "version".toList, 'v'), (r.hash, "hash".toList, 'h'), (r.timestamp, "timestamp".toList, 't')]

theorem asked_text (only : Bool) (xs : List (Bool × Str × Char)) : formatText (((xs.filter (·.1)).map (·.2)).flatMap (showPieces only)) = xs.flatMap (fun x => showFormat only x.1 x.2.1 x.2.2) := by
  induction xs with
  | nil => rfl
  | cons x xs ih =>
    obtain ⟨b, x⟩ := x
    cases b with
    | true =>
      simp only [List.filter_cons, if_true, List.map_cons, List.flatMap_cons, formatText_append, showPieces_text, ih]
    | false =>
      simp only [List.filter_cons, Bool.false_eq_true, if_false, List.flatMap_cons, ih]
      rfl

theorem asked_shown (only : Bool) (xs : List (Bool × Str × Char)) (value : Str → Option Str) :
    shown value (((xs.filter (·.1)).map (·.2)).flatMap (showPieces only)) = valueLines only (xs.map (fun x => (x.1, x.2.1, value [x.2.2]))) := by
  rw [showPieces_shown]
  unfold valueLines
  have : (((xs.filter (·.1)).map (·.2)).map (fun x => (x.1, value [x.2]))) = ((xs.map (fun x => (x.1, x.2.1, value [x.2.2]))).filter (·.1)).map (·.2) := by
    rw [List.filter_map, List.map_map, List.map_map]
    rfl
  rw [this]
  rfl

theorem show_header (r : ShowReq) : formatText (((((headerAsked r).filter (·.1)).map (·.2))).flatMap (showPieces r.only)) = r.header := by
  rw [asked_text]
  simp [headerAsked, ShowReq.header]

theorem show_body (r : ShowReq) : formatText (((((bodyAsked r).filter (·.1)).map (·.2))).flatMap (showPieces r.only)) = r.body := by
  rw [asked_text]
  simp [bodyAsked, ShowReq.body]

theorem asked_plain (names : List Str) (xs : List (Bool × Str × Char)) (h : ∀ x ∈ xs, PlainField names x.2) : ∀ x ∈ (xs.filter (·.1)).map (·.2), PlainField names x := by
  intro x hx
  obtain ⟨y, hy, rfl⟩ := List.mem_map.mp hx
  exact h y (List.mem_filter.mp hy).1

theorem header_plain (r : ShowReq) : ∀ x ∈ headerAsked r, PlainField headerFields x.2 := by
  intro x hx
  simp only [headerAsked, List.mem_cons, List.not_mem_nil, or_false] at hx
  rcases hx with rfl | rfl <;> exact ⟨by dsimp only; decide, by dsimp only; decide⟩

theorem body_plain (r : ShowReq) : ∀ x ∈ bodyAsked r, PlainField bodyFields x.2 := by
  intro x hx
  simp only [bodyAsked, List.mem_cons, List.not_mem_nil, or_false] at hx
  rcases hx with rfl | rfl | rfl | rfl | rfl <;> exact ⟨by dsimp only; decide, by dsimp only; decide⟩

/-- The lines for the values of the archive. -/
def Spec.archiveLines (r : ShowReq) (alone : Bool) (a : Archive) : Str :=
  valueLines alone [(r.encoding, "encoding".toList, srcml_archive_get_xml_encoding (some a)), (r.url, "url".toList, srcml_archive_get_url (some a))]

/-- The lines for the values of a unit. -/
def Spec.unitLines (r : ShowReq) (alone : Bool) (u : UnitData) : Str :=
  valueLines alone [(r.filename, "filename".toList, srcml_unit_get_filename (some u)), (r.language, "language".toList, srcml_unit_get_language (some u)),
    (r.version, "version".toList, srcml_unit_get_version (some u)), (r.hash, "hash".toList, srcml_unit_get_hash (some u)), (r.timestamp, "timestamp".toList, srcml_unit_get_timestamp (some u))]

theorem flatMap_zipIdx {α β : Type} (f : α → List β) (us : List α) : ∀ k, (us.zipIdx k).flatMap (fun x => f x.1) = us.flatMap f := by
  induction us with
  | nil => intro k; rfl
  | cons u us ih => intro k; rw [List.zipIdx_cons, List.flatMap_cons, List.flatMap_cons, ih]

theorem show_pretty (stray : Run Char) (r : ShowReq) (a : Archive) (hn : a.namespaces ≠ []) (hsel : r.unit ≤ 0 ∨ r.xml = true) (us : List UnitData) :
    srcml_pretty stray a (r.header ++ " { ".toList ++ r.body ++ " } ".toList) r.unit r.xml us = .val (archiveLines r r.only a ++ us.flatMap (unitLines r r.only), 0) := by
  have hh := asked_plain _ _ (header_plain r)
  have hb := asked_plain _ _ (body_plain r)
  have h := C49_sections_partial stray a hn (((headerAsked r).filter (·.1)).map (·.2) |>.flatMap (showPieces r.only)) (((bodyAsked r).filter (·.1)).map (·.2) |>.flatMap (showPieces r.only)) []
    (pieces_wellFormed _ _ _ hh) (pieces_wellFormed _ _ _ hb) trivial (pieces_text_mem _ _ _ hh).1 (pieces_text_mem _ _ _ hh).2 (pieces_text_mem _ _ _ hb).2 r.unit r.xml hsel us (.inr rfl)
  rw [show_header, show_body, show formatText [] = [] from rfl, List.append_nil] at h
  rw [h]
  have e1 : shown (archiveValue a) (((headerAsked r).filter (·.1)).map (·.2) |>.flatMap (showPieces r.only)) = archiveLines r r.only a := asked_shown _ _ _
  have e2 : ∀ (u : UnitData) (i : Nat), shown (unitValue a u i) (((bodyAsked r).filter (·.1)).map (·.2) |>.flatMap (showPieces r.only)) = unitLines r r.only u := fun u i => asked_shown _ _ _
  have e3 : shown (footerValue a us.length) [] = [] := rfl
  rw [e1, e3, List.append_nil]
  simp only [e2]
  rw [flatMap_zipIdx (unitLines r r.only)]

/-! ### Units -/

theorem no_reader {s : ArchiveIO} (h : s.reader = []) : { s with reader := [] } = s := by
  cases s; cases h; rfl

theorem count_units {s : ArchiveIO} {us : List UnitData} (hm : s.mode = .read) (hu : s.reader = us) : srcml_unit_count s = ((us.filter (fun u => u.language.isSome)).length, { s with reader := [] }) := by
  induction us generalizing s with
  | nil =>
    have e : s.readUnit = (none, s) := by unfold ArchiveIO.readUnit; simp [hm, hu]
    unfold srcml_unit_count
    split
    · rename_i s' h
      rw [e] at h
      cases h
      rw [no_reader hu]
      rfl
    · rename_i u s' h
      rw [e] at h
      cases h
  | cons u us ih =>
    have e : s.readUnit = (some u, { s with reader := us }) := by unfold ArchiveIO.readUnit; simp [hm, hu]
    unfold srcml_unit_count
    split
    · rename_i s' h
      rw [e] at h
      cases h
    · rename_i u' s' h
      rw [e] at h
      cases h
      rw [ih (s := { s with reader := us }) hm rfl]
      cases hl : u.language with
      | none => simp [srcml_unit_get_language, hl]
      | some l => simp [srcml_unit_get_language, hl, Nat.add_comm]

theorem skip_count {s : ArchiveIO} {us : List UnitData} (hm : s.mode = .read) (hu : s.reader = us) : ∀ fuel, us.length ≤ fuel → skipCount s fuel = (us.length, { s with reader := [] }) := by
  intro fuel
  induction fuel generalizing s us with
  | zero =>
    intro h
    have : us = [] := List.length_eq_zero_iff.mp (by omega)
    subst this
    rw [no_reader hu]
    rfl
  | succ n ih =>
    intro h
    cases us with
    | nil =>
      have e : s.skipUnit = (false, s) := by unfold ArchiveIO.skipUnit; simp [hm, hu]
      rw [no_reader hu]
      simp [skipCount, e]
    | cons u us =>
      have e : s.skipUnit = (true, { s with reader := us }) := by unfold ArchiveIO.skipUnit; simp [hm, hu]
      simp only [skipCount, e, if_true]
      rw [ih (s := { s with reader := us }) hm rfl (by simpa using h)]
      simp

theorem list_units {s : ArchiveIO} {us : List UnitData} (hm : s.mode = .read) (hu : s.reader = us) (n : Nat) (loc : Int) :
    listUnits s n loc = ((us.zipIdx (n + 1)).flatMap (fun x => listLine x.2 x.1), n + us.length, loc + (us.map (·.loc)).sum) := by
  induction us generalizing s n loc with
  | nil =>
    have e : s.readUnit = (none, s) := by unfold ArchiveIO.readUnit; simp [hm, hu]
    unfold listUnits
    split
    · simp
    · rename_i u s' h
      rw [e] at h
      cases h
  | cons u us ih =>
    have e : s.readUnit = (some u, { s with reader := us }) := by unfold ArchiveIO.readUnit; simp [hm, hu]
    unfold listUnits
    split
    · rename_i s' h
      rw [e] at h
      cases h
    · rename_i u' s' h
      rw [e] at h
      cases h
      simp only [ih (s := { s with reader := us }) hm rfl]
      simp only [List.zipIdx_cons, List.flatMap_cons, List.length_cons, List.map_cons, List.sum_cons, srcml_unit_get_loc, Option.map_some, Option.getD_some, Prod.mk.injEq, true_and]
      omega

theorem column_pad (s : Str) : Column s (padLeft 5 s) := by
  unfold padLeft
  refine ⟨?_, ?_⟩
  · intro h
    rw [show 5 - s.length = 0 by omega]
    rfl
  · intro h
    exact ⟨by simp; omega, _, rfl⟩

theorem list_line (n : Nat) (u : UnitData) : ListLine n u (listLine n u) := by
  refine ⟨_, _, _, column_pad _, column_pad _, column_pad _, ?_⟩
  unfold listLine
  simp [srcml_unit_get_language, srcml_unit_get_loc, srcml_unit_get_hash, srcml_unit_get_filename]

theorem list_lines (us : List UnitData) (n : Nat) : ListLines n us ((us.zipIdx n).map (fun x => listLine x.2 x.1)) := by
  induction us generalizing n with
  | nil => exact .nil n
  | cons u us ih => exact .cons (list_line n u) (ih (n + 1))

/-! ### C81 -/

/-- What remains to be read after the values have been shown. -/
theorem display_plain (stray : Run Char) (r : ShowReq) (s : ArchiveIO) (hv : [r.encoding, r.url, r.filename, r.language, r.version, r.hash, r.timestamp] = List.replicate 7 false) (hp : r.prefixOf = none) :
    displayOne stray r s = .val ((if r.units then (toString (srcml_unit_count s).1).toList ++ ['\n'] else []) ++
      (let s1 := if r.units then (srcml_unit_count s).2 else s
       (if r.info then (srcml_display_info s1 false).1 else []) ++
        (let s2 := if r.info then (srcml_display_info s1 false).2 else s1
         (if r.longinfo then (srcml_display_info s2 true).1 else []) ++
          (let s3 := if r.longinfo then (srcml_display_info s2 true).2 else s2
           if r.list then srcml_list s3 else [])))) := by
  simp only [List.replicate, List.cons.injEq, and_true] at hv
  obtain ⟨h1, h2, h3, h4, h5, h6, h7⟩ := hv
  have hh : r.header = [] := by simp [ShowReq.header, showFormat, h1, h2]
  have hb : r.body = [] := by simp [ShowReq.body, showFormat, h3, h4, h5, h6, h7]
  unfold displayOne
  simp only [hp, hh, hb, and_self, if_true, Run.bind]
  cases r.units <;> cases r.info <;> cases r.longinfo <;> cases r.list <;> simp

/-- Only values are asked for. -/
structure Spec.ValuesOnly (r : ShowReq) : Prop where
  prefixOf : r.prefixOf = none
  units : r.units = false
  info : r.info = false
  longinfo : r.longinfo = false
  list : r.list = false

/-- The values that are asked for. -/
def Spec.valuesShown (r : ShowReq) : List String :=
  (if r.encoding then ["encoding"] else []) ++ (if r.url then ["url"] else []) ++ (if r.filename then ["filename"] else []) ++ (if r.language then ["language"] else []) ++
    (if r.version then ["version"] else []) ++ (if r.hash then ["hash"] else []) ++ (if r.timestamp then ["timestamp"] else [])

theorem only_one (r : ShowReq) : r.only = decide ((valuesShown r).length = 1) := by
  unfold ShowReq.only valuesShown
  generalize r.encoding = a, r.url = b, r.filename = c, r.language = d, r.version = e, r.hash = f, r.timestamp = g
  revert a b c d e f g
  decide

/-- C81, the options that show values (`--show-encoding`, `--show-url`, `--show-filename`, `--show-language`, `--show-version`, `--show-hash`, `--show-timestamp`), in any combination: the lines for the archive, then for each unit in order its lines. Each line has the name of the value unless it is the only option. A unit is not selected with `--unit`, except for `--xml`. -/
theorem C81_show (stray : Run Char) (r : ShowReq) (hr : ValuesOnly r) (hsel : r.unit ≤ 0 ∨ r.xml = true) (s : ArchiveIO) (hn : s.settings.namespaces ≠ []) :
    displayOne stray r s = .val (archiveLines r (decide ((valuesShown r).length = 1)) s.settings ++ s.reader.flatMap (unitLines r (decide ((valuesShown r).length = 1)))) := by
  rw [← only_one]
  unfold displayOne
  simp only [hr.prefixOf, hr.units, hr.info, hr.longinfo, hr.list, Bool.false_eq_true, if_false, List.nil_append, List.append_nil]
  split
  · rename_i h
    have hf : ∀ (o a : Bool) (n : Str) (c : Char), showFormat o a n c = [] → a = false := by
      intro o a n c h
      cases a with
      | false => rfl
      | true => cases o <;> simp [showFormat] at h
    simp only [ShowReq.header, ShowReq.body, List.append_eq_nil_iff] at h
    obtain ⟨⟨h1, h2⟩, ⟨⟨⟨h3, h4⟩, h5⟩, h6⟩, h7⟩ := h
    have e1 : archiveLines r r.only s.settings = [] := by
      simp [archiveLines, valueLines, hf _ _ _ _ h1, hf _ _ _ _ h2]
    have e2 : ∀ u, unitLines r r.only u = [] := by
      intro u
      simp [unitLines, valueLines, hf _ _ _ _ h3, hf _ _ _ _ h4, hf _ _ _ _ h5, hf _ _ _ _ h6, hf _ _ _ _ h7]
    rw [e1]
    simp [Run.bind, e2]
  · rw [show_pretty stray r s.settings hn hsel s.reader]
    rfl

/-- C81, `--show-unit-count`: the number of the units that have a language, in a line of its own. -/
theorem C81_units (stray : Run Char) (s : ArchiveIO) (hm : s.mode = .read) :
    displayOne stray { units := true } s = .val ((toString (s.reader.filter (fun u => u.language.isSome)).length).toList ++ "\n".toList) := by
  rw [display_plain stray { units := true } s rfl rfl]
  simp only [if_true, Bool.false_eq_true, if_false, List.append_nil]
  rw [count_units hm rfl]
  rfl

/-- What `--info` shows of an archive. -/
def Spec.infoText (a : Archive) (first : Option UnitData) : Str :=
  a.namespaces.flatMap (fun n => xmlnsLine n.prefix_ n.uri) ++ namedLine "encoding".toList a.encoding ++
    namedLine "language".toList (if isoption a.options OPTION_ARCHIVE then none else first.bind (·.language)) ++ namedLine "url".toList a.url ++
    namedLine "filename".toList (if isoption a.options OPTION_ARCHIVE then none else first.bind (·.filename))

theorem info_line (name : Str) (v : Option Str) : infoLine name v = namedLine name v := by
  cases v with
  | none => rfl
  | some v => simp [infoLine, namedLine]

theorem info_namespace (n : Namespace) : infoNamespace n = xmlnsLine n.prefix_ n.uri := by
  unfold infoNamespace xmlnsLine
  by_cases h : n.prefix_ = []
  · simp [h]
  · simp [h]

theorem read_first {s : ArchiveIO} (hm : s.mode = .read) : s.readUnit = (s.reader.head?, { s with reader := s.reader.tail }) := by
  unfold ArchiveIO.readUnit
  cases hu : s.reader with
  | nil =>
    rw [show ({ s with reader := ([] : List UnitData).tail } : ArchiveIO) = s from no_reader hu]
    simp [hm, hu]
  | cons u us => simp [hm, hu]

theorem info_text {s : ArchiveIO} (hm : s.mode = .read) : srcml_display_info s false = (infoText s.settings s.reader.head?, { s with reader := s.reader.tail }) := by
  unfold srcml_display_info
  rw [read_first hm]
  dsimp only
  simp only [Bool.false_eq_true, if_false, info_line, infoText, Prod.mk.injEq, and_true]
  have : infoNamespace = fun n => xmlnsLine n.prefix_ n.uri := funext info_namespace
  rw [this]
  cases isoption s.settings.options OPTION_ARCHIVE <;> simp

theorem longinfo_text {s : ArchiveIO} (hm : s.mode = .read) :
    srcml_display_info s true = (infoText s.settings s.reader.head? ++ "units=\"".toList ++ (toString (1 + s.reader.tail.length)).toList ++ "\"\n".toList, { s with reader := [] }) := by
  have h := info_text hm
  unfold srcml_display_info at h ⊢
  rw [read_first hm] at h ⊢
  dsimp only at h ⊢
  simp only [Bool.false_eq_true, if_false, Prod.mk.injEq, and_true] at h
  rw [h]
  simp only [if_true]
  rw [skip_count (s := { s with reader := s.reader.tail }) hm rfl _ (Nat.le_refl _)]
  simp

/-- C81, `--info`: the namespaces of the archive in order, its encoding and its url, and for a single unit also its language and its filename; nothing for what is not set. -/
theorem C81_info (stray : Run Char) (s : ArchiveIO) (hm : s.mode = .read) : displayOne stray { info := true } s = .val (infoText s.settings s.reader.head?) := by
  rw [display_plain stray { info := true } s rfl rfl]
  simp only [if_true, Bool.false_eq_true, if_false, List.append_nil, List.nil_append]
  rw [info_text hm]

/-- C81, `--full-info` of an archive with units: what `--info` shows, and then the number of units. -/
theorem C81_longinfo (stray : Run Char) (s : ArchiveIO) (hm : s.mode = .read) (hu : s.reader ≠ []) :
    displayOne stray { longinfo := true } s = .val (infoText s.settings s.reader.head? ++ "units=\"".toList ++ (toString s.reader.length).toList ++ "\"\n".toList) := by
  rw [display_plain stray { longinfo := true } s rfl rfl]
  simp only [if_true, Bool.false_eq_true, if_false, List.append_nil, List.nil_append]
  rw [longinfo_text hm]
  cases h : s.reader with
  | nil => exact absurd h hu
  | cons u us => simp [Nat.add_comm]

/-- C81, `--list`: the encoding, a line for every unit in order with its number, language, lines of code, hash and filename, and the number of units and the sum of their lines of code. -/
theorem C81_list (stray : Run Char) (s : ArchiveIO) (hm : s.mode = .read) :
    ∃ lines, ListLines 1 s.reader lines ∧
      displayOne stray { list := true } s = .val ("XML encoding: ".toList ++ s.settings.encoding.getD "(null)".toList ++ "\n".toList ++ lines.flatten ++
        "units: ".toList ++ (toString s.reader.length).toList ++ "\nLOC: ".toList ++ (toString (s.reader.map (·.loc)).sum).toList ++ "\n".toList) := by
  refine ⟨_, list_lines s.reader 1, ?_⟩
  rw [display_plain stray { list := true } s rfl rfl]
  simp only [if_true, Bool.false_eq_true, if_false, List.append_nil, List.nil_append]
  unfold srcml_list
  rw [list_units hm rfl]
  simp only [Nat.zero_add, Int.zero_add, List.flatMap_def]
  simp

/-- C81, `--prefix`: the prefix under which the archive has the namespace, in a line of its own; nothing if it does not have it. -/
theorem C81_prefix (stray : Run Char) (s : ArchiveIO) (uri : Str) :
    (∀ n ∈ s.settings.namespaces, n.uri = uri → ∃ m ∈ s.settings.namespaces, m.uri = uri ∧ displayOne stray { prefixOf := some uri } s = .val (m.prefix_ ++ "\n".toList)) ∧
    ((∀ n ∈ s.settings.namespaces, n.uri ≠ uri) → displayOne stray { prefixOf := some uri } s = .val []) := by
  have e : displayOne stray { prefixOf := some uri } s = .val (match srcml_archive_get_prefix_from_uri s.settings (some uri) with | none => [] | some p => p ++ ['\n']) := by
    unfold displayOne
    simp only [ShowReq.header, ShowReq.body, showFormat, Bool.false_eq_true, if_false, List.append_nil, and_self, if_true, Run.bind]
    rfl
  rw [e]
  have e' : srcml_archive_get_prefix_from_uri s.settings (some uri) = (findUri s.settings.namespaces uri).map (·.prefix_) := rfl
  rw [e']
  constructor
  · intro n hn hu
    cases hf : findUri s.settings.namespaces uri with
    | none => exact absurd (List.mem_map.mpr ⟨n, hn, hu⟩) ((findUri_none _ _).mp hf)
    | some m => exact ⟨m, List.mem_of_find?_eq_some hf, findUri_uri hf, by simp⟩
  · intro h
    have hf : findUri s.settings.namespaces uri = none := (findUri_none _ _).mpr (by
      intro hm
      obtain ⟨n, hn, hu⟩ := List.mem_map.mp hm
      exact h n hn hu)
    rw [hf]
    rfl

/-- C81, several inputs that can be opened: what is shown is what is shown of each, in order, and there is no message. -/
theorem C81_inputs (stray : Run Char) (r : ShowReq) (hr : r.pretty = none) (xs : List (ArchiveIO × Str)) (h : ∀ x ∈ xs, displayOne stray r x.1 = .val x.2) :
    srcml_display_metadata stray r (xs.map (fun x => some x.1)) = .val ((xs.map (·.2)).flatten, 0) := by
  induction xs with
  | nil => rfl
  | cons x xs ih =>
    simp only [List.map_cons, srcml_display_metadata, hr]
    rw [h x (by simp), ih (fun y hy => h y (by simp [hy]))]
    rfl

/-- C81, an input that cannot be opened: what is shown is what is shown of the inputs before it, and there is one message. The inputs after it are not looked at. -/
theorem C81_unopened (stray : Run Char) (r : ShowReq) (hr : r.pretty = none) (xs : List (ArchiveIO × Str)) (h : ∀ x ∈ xs, displayOne stray r x.1 = .val x.2) (rest : List (Option ArchiveIO)) :
    srcml_display_metadata stray r (xs.map (fun x => some x.1) ++ none :: rest) = .val ((xs.map (·.2)).flatten, 1) := by
  induction xs with
  | nil => rfl
  | cons x xs ih =>
    simp only [List.map_cons, List.cons_append, srcml_display_metadata, hr]
    rw [h x (by simp), ih (fun y hy => h y (by simp [hy]))]
    rfl

/-- C81, finding: with `--pretty` only the first of several inputs is shown, whatever the others are (src/client/srcml_display_metadata.cpp:171-174). -/
theorem C81_finding_pretty_first_input (stray : Run Char) (r : ShowReq) (f : Str) (hr : r.pretty = some f) (s : ArchiveIO) (rest : List (Option ArchiveIO)) :
    srcml_display_metadata stray r (some s :: rest) = srcml_display_metadata stray r [some s] := by
  simp only [srcml_display_metadata, hr]

/-- C81, finding: `--full-info` of an archive without units shows `units="1"` (src/client/srcml_display_metadata.cpp:112-121). -/
theorem C81_finding_empty_count (stray : Run Char) (s : ArchiveIO) (hm : s.mode = .read) (hu : s.reader = []) :
    displayOne stray { longinfo := true } s = .val (infoText s.settings none ++ "units=\"1\"\n".toList) := by
  rw [display_plain stray { longinfo := true } s rfl rfl]
  simp only [if_true, Bool.false_eq_true, if_false, List.append_nil, List.nil_append]
  rw [longinfo_text hm]
  simp [hu]
  decide

/-- C81, finding: `--show-unit-count` together with an option that shows values shows 0, as the units have been read by then (src/client/srcml_display_metadata.cpp:237-242). -/
theorem C81_finding_combined (stray : Run Char) (s : ArchiveIO) (hm : s.mode = .read) (hn : s.settings.namespaces ≠ []) :
    displayOne stray { url := true, units := true } s = .val (archiveLines { url := true, units := true } true s.settings ++ "0\n".toList) := by
  unfold displayOne
  rw [if_neg (by simp [ShowReq.header, showFormat, ShowReq.only])]
  rw [show_pretty stray { url := true, units := true } s.settings hn (.inl (by decide)) s.reader]
  have e : ({ url := true, units := true } : ShowReq).only = true := rfl
  have e2 : prettyLeft ({ url := true, units := true } : ShowReq).unit ({ url := true, units := true } : ShowReq).xml s.reader = [] := rfl
  have e3 : ∀ u, unitLines { url := true, units := true } true u = [] := by
    intro u; simp [unitLines, valueLines]
  simp only [Run.bind, if_true, Bool.false_eq_true, if_false, e, e2, List.nil_append, List.append_nil]
  rw [count_units (s := { s with reader := [] }) hm rfl]
  simp [e3]

/-- C81, finding: `--info` together with `--full-info` counts one unit less, or one unit for none (src/client/srcml_display_metadata.cpp:244-250). -/
theorem C81_finding_info_longinfo (stray : Run Char) (s : ArchiveIO) (hm : s.mode = .read) (u1 u2 u3 : UnitData) (us : List UnitData) (hu : s.reader = u1 :: u2 :: u3 :: us) :
    ∃ t, displayOne stray { info := true, longinfo := true } s = .val (t ++ "units=\"".toList ++ (toString (us.length + 2)).toList ++ "\"\n".toList) := by
  refine ⟨infoText s.settings (some u1) ++ infoText s.settings (some u2), ?_⟩
  rw [display_plain stray { info := true, longinfo := true } s rfl rfl]
  simp only [if_true, Bool.false_eq_true, if_false, List.append_nil, List.nil_append]
  rw [info_text hm]
  dsimp only
  rw [longinfo_text (s := { s with reader := s.reader.tail }) hm]
  simp only [hu]
  simp [show 1 + (us.length + 1) = us.length + 2 by omega]

/-- C81, finding: a unit without a language is listed and counted by `--list` and `--full-info` but not by `--show-unit-count` (src/client/srcml_display_metadata.cpp:133). -/
theorem C81_finding_no_language (stray : Run Char) (s : ArchiveIO) (hm : s.mode = .read) (u : UnitData) (hu : s.reader = [u]) (hl : u.language = none) :
    displayOne stray { units := true } s = .val "0\n".toList ∧
    displayOne stray { longinfo := true } s = .val (infoText s.settings (some u) ++ "units=\"1\"\n".toList) := by
  refine ⟨?_, ?_⟩
  · rw [C81_units stray s hm, hu]
    simp [hl]
  · rw [C81_longinfo stray s hm (by simp [hu]), hu]
    simp
    decide

/-- C81, finding: for a unit without a filename `--show-filename` alone shows no line, so the lines cannot be matched with the units, while together with another option it is shown as empty (src/client/srcml_pretty.cpp:236-301). -/
theorem C81_finding_unset (stray : Run Char) (s : ArchiveIO) (hn : s.settings.namespaces ≠ []) (u : UnitData) (hu : s.reader = [u]) (hf : u.filename = none) (hl : u.language = none) :
    displayOne stray { filename := true } s = .val [] ∧
    displayOne stray { filename := true, language := true } s = .val "filename=\"\"\nlanguage=\"\"\n".toList := by
  refine ⟨?_, ?_⟩
  · rw [C81_show stray { filename := true } ⟨rfl, rfl, rfl, rfl, rfl⟩ (.inl (by decide)) s hn, hu]
    simp [archiveLines, unitLines, valueLines, srcml_unit_get_filename, hf]
  · rw [C81_show stray { filename := true, language := true } ⟨rfl, rfl, rfl, rfl, rfl⟩ (.inl (by decide)) s hn, hu]
    simp [archiveLines, unitLines, valueLines, valueLine, srcml_unit_get_filename, srcml_unit_get_language, hf, hl, ShowReq.only, valuesShown]

/-- A document with two units that is read. -/
def shownSample : ArchiveIO :=
  { settings := { srcml_archive_create with url := some "here".toList, encoding := some "UTF-8".toList }, mode := .read, reader := [{ language := some "C++".toList, filename := some "a.cpp".toList, loc := 12 }, { language := some "C".toList, loc := 3, hash := some "ab".toList }] }

/-- C81_show, C81_units, C81_list and C81_longinfo: the conditions hold for a document with two units. -/
example (stray : Run Char) : displayOne stray { filename := true, url := true } shownSample = .val "url=\"here\"\nfilename=\"a.cpp\"\n".toList := by
  rw [C81_show stray _ ⟨rfl, rfl, rfl, rfl, rfl⟩ (.inl (by decide)) shownSample (by decide)]
  decide +kernel
example (stray : Run Char) : displayOne stray { language := true } shownSample = .val "C++\nC\n".toList := by
  rw [C81_show stray _ ⟨rfl, rfl, rfl, rfl, rfl⟩ (.inl (by decide)) shownSample (by decide)]
  decide +kernel
example (stray : Run Char) : displayOne stray { units := true } shownSample = .val "2\n".toList := by
  rw [C81_units stray shownSample rfl]
  decide +kernel
example : ListLine 1 { language := some "C++".toList, filename := some "a.cpp".toList, loc := 12 } "    1  C++    12  a.cpp\n".toList :=
  ⟨"    1".toList, "  C++".toList, "   12".toList, ⟨by decide, fun _ => ⟨by decide, 4, by decide⟩⟩, ⟨by decide, fun _ => ⟨by decide, 2, by decide⟩⟩, ⟨by decide, fun _ => ⟨by decide, 3, by decide⟩⟩, by decide⟩
example (stray : Run Char) : ∃ t, displayOne stray { longinfo := true } shownSample = .val (t ++ "units=\"2\"\n".toList) :=
  ⟨infoText shownSample.settings shownSample.reader.head?, by rw [C81_longinfo stray shownSample rfl (by decide)]; decide +kernel⟩

end Srcml
