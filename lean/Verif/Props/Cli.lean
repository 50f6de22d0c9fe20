import Verif.Model.Cli
/-
C50: the clean-up of the command line arguments.
-/
set_option linter.unusedSimpArgs false
namespace Srcml

/-- The documented changes of one argument: `--xmlns:PRE…` is `--xmlns=PRE…`, and a long option with an empty value is
the option and an empty argument. Everything else stays. -/
inductive Documented : Str → List Str → Prop where
  | same (arg : Str) (h1 : ¬ "--xmlns:".toList <+: arg) (h2 : ¬ ['='] <:+ arg) : Documented arg [arg]
  | xmlns (r : Str) (h : ¬ ['='] <:+ r) (hr : r ≠ []) : Documented ("--xmlns:".toList ++ r) ["--xmlns=".toList ++ r]
  | empty (name : Str) (h1 : '=' ∉ name) (h2 : ¬ "xmlns:".toList <+: name ++ ['=']) :
      Documented ("--".toList ++ name ++ ['=']) ["--".toList ++ name, []]
  | both (pre : Str) (h : '=' ∉ pre) : Documented ("--xmlns:".toList ++ pre ++ ['=']) ["--xmlns=".toList ++ pre, []]

/-- An argument for which the rewriting is documented: not empty, not `--xmlns:` alone, and a last equals sign is that of
a long option. -/
def PlainArg (arg : Str) : Prop :=
  arg ≠ [] ∧ arg ≠ "--xmlns:".toList ∧ (['='] <:+ arg → ∃ name, '=' ∉ name ∧ arg = "--".toList ++ name ++ ['='])

theorem xmlnsArg_prefix (r : Str) : xmlnsArg ("--xmlns:".toList ++ r) = "--xmlns=".toList ++ r := by
  simp [xmlnsArg]

theorem xmlnsArg_other (arg : Str) (h : ¬ "--xmlns:".toList <+: arg) : xmlnsArg arg = arg := by
  rw [xmlnsArg, if_neg]
  intro he
  exact h ⟨arg.drop 8, by rw [show "--xmlns:".toList = arg.take 8 from he.symm]; simp⟩

theorem getLast_equals (l : Str) (c : Char) (h : l.getLast? = some c) : c = '=' ↔ ['='] <:+ l := by
  constructor
  · rintro rfl
    obtain ⟨ys, rfl⟩ := List.getLast?_eq_some_iff.1 h
    exact ⟨ys, rfl⟩
  · rintro ⟨t, rfl⟩
    simpa using h.symm

theorem cleanArg_last (x : Str) (arg : Str) (h : xmlnsArg arg = x ++ ['=']) : cleanArg arg = .val [x, []] := by
  simp [cleanArg, h]

theorem cleanArg_nolast (arg : Str) (h : xmlnsArg arg ≠ []) (h2 : ¬ ['='] <:+ xmlnsArg arg) :
    cleanArg arg = .val [xmlnsArg arg] := by
  unfold cleanArg
  cases hl : (xmlnsArg arg).getLast? with
  | none => exact absurd (List.getLast?_eq_none_iff.1 hl) h
  | some c =>
    simp only
    rw [if_neg (fun hc => h2 ((getLast_equals _ _ hl).1 hc))]

theorem cleanArg_documented (arg : Str) (h : PlainArg arg) : ∃ out, cleanArg arg = .val out ∧ Documented arg out := by
  obtain ⟨h1, h2, h3⟩ := h
  by_cases hx : "--xmlns:".toList <+: arg
  · obtain ⟨r, rfl⟩ := hx
    by_cases hl : ['='] <:+ r
    · obtain ⟨pre, rfl⟩ := hl
      obtain ⟨name, hn, he⟩ := h3 ⟨"--xmlns:".toList ++ pre, by simp⟩
      have hname : name = "xmlns:".toList ++ pre := by
        have : "--xmlns:".toList ++ (pre ++ ['=']) = "--".toList ++ ("xmlns:".toList ++ pre) ++ ['='] := by simp
        rw [this] at he
        have h' := List.append_cancel_right he
        exact (List.append_cancel_left h').symm
      refine ⟨["--xmlns=".toList ++ pre, []], cleanArg_last _ _ ?_, ?_⟩
      · rw [xmlnsArg_prefix]; simp
      · have := Documented.both pre (fun hm => hn (by simp [hname, hm]))
        simpa using this
    · have hr : r ≠ [] := fun e => h2 (by simp [e])
      refine ⟨["--xmlns=".toList ++ r], ?_, .xmlns r hl hr⟩
      rw [cleanArg_nolast _ (by rw [xmlnsArg_prefix]; simp), xmlnsArg_prefix]
      rw [xmlnsArg_prefix]
      rintro ⟨t, ht⟩
      apply hl
      obtain ⟨ys, y, rfl⟩ : ∃ ys y, r = ys ++ [y] := ⟨r.dropLast, r.getLast hr, (List.dropLast_concat_getLast hr).symm⟩
      have := congrArg List.getLast? ht
      rw [← List.append_assoc, List.getLast?_concat, List.getLast?_concat] at this
      exact ⟨ys, by rw [Option.some.inj this]⟩
  · by_cases hl : ['='] <:+ arg
    · obtain ⟨name, hn, rfl⟩ := h3 hl
      refine ⟨["--".toList ++ name, []], cleanArg_last _ _ (xmlnsArg_other _ hx), .empty name hn ?_⟩
      rintro ⟨t, ht⟩
      exact hx ⟨t, by rw [List.append_assoc "--".toList, ← ht]; simp⟩
    · refine ⟨[arg], ?_, .same arg hx hl⟩
      rw [cleanArg_nolast arg (by rwa [xmlnsArg_other _ hx]) (by rwa [xmlnsArg_other _ hx]), xmlnsArg_other _ hx]

/-- A documented change is the only one. -/
theorem C50_unique (arg : Str) (x y : List Str) (h : Documented arg x) (h' : Documented arg y) : x = y := by
  cases h with
  | same _ h1 h2 =>
    generalize ha : arg = b at h'
    cases h' with
    | same => simp [ha]
    | xmlns r => subst ha; exact absurd ⟨r, rfl⟩ h1
    | empty n => subst ha; exact absurd ⟨_, rfl⟩ h2
    | both p => subst ha; exact absurd ⟨_, rfl⟩ h2
  | xmlns r h1 h2 =>
    generalize ha : "--xmlns:".toList ++ r = b at h'
    cases h' with
    | same _ g => subst ha; exact absurd ⟨r, rfl⟩ g
    | xmlns r' => simp at ha; simp [ha]
    | empty n _ g => exact absurd ⟨r, by simp at ha ⊢; exact ha⟩ g
    | both p => exact absurd ⟨p, by simp at ha; exact ha.symm⟩ h1
  | empty n h1 h2 =>
    generalize ha : "--".toList ++ n ++ ['='] = b at h'
    cases h' with
    | same _ _ g => subst ha; exact absurd ⟨_, rfl⟩ g
    | xmlns r => exact absurd ⟨r, by simp at ha ⊢; exact ha.symm⟩ h2
    | empty n' => simp at ha; simp [ha]
    | both p => exact absurd ⟨p ++ ['='], by simp at ha ⊢; rw [ha]⟩ h2
  | both p h1 =>
    generalize ha : "--xmlns:".toList ++ p ++ ['='] = b at h'
    cases h' with
    | same _ _ g => subst ha; exact absurd ⟨_, rfl⟩ g
    | xmlns r g => exact absurd ⟨p, by simp at ha; exact ha⟩ g
    | empty n _ g => exact absurd ⟨p ++ ['='], by simp at ha ⊢; rw [← ha]⟩ g
    | both p' => simp at ha; simp [ha]

/-- **C50** (partial: an argument that ends in an equals sign is a long option with an empty value) The option parser
gets the arguments in order, each one changed only as documented. -/
theorem C50_arguments_partial (args : List Str) (h : ∀ a ∈ args, PlainArg a) :
    ∃ outs : List (Str × List Str), outs.map (·.1) = args ∧ (∀ o ∈ outs, Documented o.1 o.2) ∧
      cliArguments args = .val (outs.flatMap (·.2)).reverse := by
  suffices hs : ∃ outs : List (Str × List Str), outs.map (·.1) = args ∧ (∀ o ∈ outs, Documented o.1 o.2) ∧
      cleanArgs args = .val (outs.flatMap (·.2)) by
    obtain ⟨o, h1, h2, h3⟩ := hs
    exact ⟨o, h1, h2, by simp [cliArguments, h3, bind, Run.bind, pure]⟩
  induction args with
  | nil => exact ⟨[], rfl, by simp, rfl⟩
  | cons a as ih =>
    obtain ⟨o, h1, h2, h3⟩ := ih (fun x hx => h x (by simp [hx]))
    obtain ⟨out, e, d⟩ := cleanArg_documented a (h a (by simp))
    refine ⟨(a, out) :: o, by simp [h1], ?_, by simp [cleanArgs, e, h3, bind, Run.bind, pure]⟩
    intro x hx
    rcases List.mem_cons.1 hx with rfl | hx
    · exact d
    · exact h2 x hx

example : cliArguments ["--xmlns:pre=http://a".toList, "--text=".toList, "a=b.c".toList] =
    .val ["a=b.c".toList, [], "--text".toList, "--xmlns=pre=http://a".toList] := by decide +kernel

example : PlainArg "--xmlns:pre=http://a".toList ∧ PlainArg "--text=".toList ∧ PlainArg "a=b.c".toList := by
  refine ⟨⟨by decide, by decide, ?_⟩, ⟨by decide, by decide, fun _ => ⟨"text".toList, by decide, rfl⟩⟩,
    ⟨by decide, by decide, ?_⟩⟩ <;> (rintro ⟨t, ht⟩; have := congrArg List.getLast? ht; simp at this)

/-- **C50, finding.** An empty argument reads the last character of an empty string. -/
theorem C50_finding_empty (as bs : List Str) (h : ∀ a ∈ as, a ≠ []) : cliArguments (as ++ [] :: bs) = .ub := by
  have : cleanArgs (as ++ [] :: bs) = .ub := by
    induction as with
    | nil => rfl
    | cons a as ih =>
      simp only [List.cons_append, cleanArgs, ih (fun x hx => h x (by simp [hx])), bind, Run.bind]
      cases cleanArg a <;> rfl
  simp [cliArguments, this, bind, Run.bind]

/-- **C50, finding.** Any argument that ends in an equals sign is cut in two, also a value or the name of a file: the
equals sign is lost and there is one empty argument more. -/
theorem C50_finding_last_equals (x : Str) (h : ¬ "--xmlns:".toList <+: x ++ ['=']) :
    cliArguments [x ++ ['=']] = .val [[], x] := by
  simp [cliArguments, cleanArgs, cleanArg_last x _ (xmlnsArg_other _ h), bind, Run.bind, pure]

end Srcml
