import Verif.Model.CppZero
import Verif.Spec.CppZero
set_option linter.unusedSimpArgs false
/-
The parser's state for conditional directives follows their grammar.
-/
namespace Srcml
open Spec

theorem cppRun_append (o : CppOptions) (g : Bool) (a b : List CppLine) (s : CppState) :
    cppRun o g (a ++ b) s = ((cppRun o g a s).1 ++ (cppRun o g b (cppRun o g a s).2).1, (cppRun o g b (cppRun o g a s).2).2) := by
  induction a generalizing s with
  | nil => rfl
  | cons l ls ih => simp [cppRun, ih]

/-- No mode skips its `#else`. -/
def CppState.Plain (s : CppState) : Prop := ∀ m ∈ s.cppmode, m.skipelse = false

theorem markblockzero_ifdef : markblockzero .ifdef = false ∧ markblockzero .ifndef = false := ⟨rfl, rfl⟩

/-- Only `#if 0` starts with a 0. -/
def ZeroAlone (d : CppDirective) : Prop := ∀ c, d = .ifDir c → c.head? = some ['0'] → c = [['0']]

theorem opens_zero {d : CppDirective} (ho : Opens d) (hz : ZeroAlone d) : markblockzero d = true ↔ IsZero d := by
  cases d with
  | ifDir c =>
    constructor
    · intro h
      have : c.head? = some ['0'] := by simpa [markblockzero] using h
      rw [hz c rfl this]
      rfl
    · rintro h
      cases h
      rfl
  | ifdef => simp [markblockzero, IsZero]
  | ifndef => simp [markblockzero, IsZero]
  | elifDir c => exact ho.elim
  | elseDir => exact ho.elim
  | endif => exact ho.elim
  | other => exact ho.elim

theorem step_opens (o : CppOptions) (ht : o.textElse = false) (g : Bool) (n : Nat) {d : CppDirective} (ho : Opens d) (s : CppState) (hp : s.Plain) :
    (cppDirective o g n d s).Plain ∧
      (cppDirective o g n d s).zeromode = (s.zeromode || markblockzero d) ∧
      (s.zeromode = true → (cppDirective o g n d s).ifcount = s.ifcount + 1) ∧
      (s.zeromode = false → markblockzero d = true → (cppDirective o g n d s).ifcount = 1) := by
  have key : cppDirective o g n d s = cppIf o g n (markblockzero d) s := by
    cases d <;> first | rfl | exact ho.elim
  rw [key]
  unfold cppIf
  cases hz : s.zeromode <;> cases hm : markblockzero d <;> cases g <;>
    simp [ht, hz, CppState.Plain] <;> first | exact hp | (intro m hm; exact hp m hm) | skip

theorem step_branch (o : CppOptions) (ht : o.textElse = false) (g : Bool) (n : Nat) {d : CppDirective} (hb : Branches d) (s : CppState) (hp : s.Plain) :
    (cppDirective o g n d s).Plain ∧
      (s.zeromode = false ∨ s.ifcount = 1 → (cppDirective o g n d s).zeromode = false) ∧
      (s.zeromode = true → 1 < s.ifcount → (cppDirective o g n d s).zeromode = true ∧ (cppDirective o g n d s).ifcount = s.ifcount) := by
  have key : cppDirective o g n d s = cppElse o g n s := by
    cases d <;> first | rfl | exact hb.elim
  rw [key]
  unfold cppElse
  simp only [ht, Bool.false_and, Bool.false_eq_true, if_false]
  unfold cppElseFlags
  refine ⟨?_, ?_, ?_⟩
  · unfold CppState.Plain
    simp [apply_ite CppState.cppmode]
    exact hp
  · rintro (h | h)
    · simp [h]
    · cases hz : s.zeromode <;> simp [h, hz]
  · intro h1 h2
    have : s.ifcount ≠ 1 := by omega
    simp [h1, this]

theorem step_endif (o : CppOptions) (ht : o.textElse = false) (g : Bool) (n : Nat) (s : CppState) (hp : s.Plain) :
    (cppDirective o g n .endif s).Plain ∧
      (s.zeromode = false ∨ s.ifcount = 1 → (cppDirective o g n .endif s).zeromode = false) ∧
      (s.zeromode = true → 1 < s.ifcount → (cppDirective o g n .endif s).zeromode = true ∧ (cppDirective o g n .endif s).ifcount = s.ifcount - 1) := by
  show (cppEndif o g n s).Plain ∧ _
  show _ ∧ (_ → (cppEndif o g n s).zeromode = false) ∧ (_ → _ → (cppEndif o g n s).zeromode = true ∧ (cppEndif o g n s).ifcount = s.ifcount - 1)
  unfold cppEndif
  simp only [ht, Bool.false_and, Bool.false_eq_true, if_false]
  unfold cppEndifFlags
  refine ⟨hp, ?_, ?_⟩
  · rintro (h | h)
    · simp [h]
    · cases hz : s.zeromode <;> simp [h, hz]
  · intro h1 h2
    have h3 : s.ifcount - 1 ≠ 0 := by omega
    simp [h1, h3]

theorem skips_plain (o : CppOptions) (ht : o.textElse = false) (hm : o.markupIf0 = false) (g : Bool) (s : CppState) (hp : s.Plain) :
    cppSkips o g s = s.zeromode := by
  unfold cppSkips
  cases hq : s.cppmode with
  | nil => simp [ht, hm]
  | cons m ms => simp [ht, hm, hp m (by simp [hq])]

/-- Where the state is for a group in a text that is dead or not. -/
def GroupState (dead : Bool) (s : CppState) : Prop := if dead then s.zeromode = true ∧ 1 ≤ s.ifcount else s.zeromode = false

/-- And for the rest of a conditional. -/
def RestState (dead : Bool) (s : CppState) : Prop :=
  if dead then s.zeromode = true ∧ 2 ≤ s.ifcount else s.zeromode = false ∨ s.ifcount = 1

mutual

theorem group_run (o : CppOptions) (ht : o.textElse = false) (hm : o.markupIf0 = false) (g : Bool) {dead : Bool} {l : List (CppDirective × Bool)}
    (h : Group dead l) (hz : ∀ x ∈ l, ZeroAlone x.1) (ls : List CppLine) (e : ls.map (·.directive) = l.map (·.1)) (s : CppState) (hp : s.Plain)
    (hs : GroupState dead s) :
    (cppRun o g ls s).1 = l.map (·.2) ∧ (cppRun o g ls s).2.Plain ∧ GroupState dead (cppRun o g ls s).2 ∧
      (dead = true → (cppRun o g ls s).2.ifcount = s.ifcount) := by
  match h with
  | .nil _ =>
    cases ls with
    | nil => exact ⟨rfl, hp, hs, fun _ => rfl⟩
    | cons l ls => cases e
  | .other _ r h1 =>
    cases ls with
    | nil => cases e
    | cons l ls =>
      simp only [List.map_cons, List.cons.injEq] at e
      obtain ⟨e1, e2⟩ := e
      have hst : cppDirective o g l.size l.directive s = s := by rw [e1]; rfl
      obtain ⟨i1, i2, i3, i4⟩ := group_run o ht hm g h1 (fun x hx => hz x (by simp [hx])) ls e2 s hp hs
      simp only [cppRun, hst, List.map_cons]
      refine ⟨?_, i2, i3, i4⟩
      rw [i1, skips_plain o ht hm g s hp]
      congr 1
      cases dead
      · exact hs
      · exact hs.1
  | .zero _ d body r h1 h2 h3 =>
    cases ls with
    | nil => cases e
    | cons l ls =>
      simp only [List.cons_append, List.map_cons, List.map_append, List.cons.injEq] at e
      obtain ⟨e1, e2⟩ := e
      obtain ⟨la, lb, rfl, ea, eb⟩ := List.map_eq_append_iff.mp e2
      have hd : Opens d := by cases h1; trivial
      have hmz : markblockzero d = true := (opens_zero hd (hz (d, true) (by simp))).mpr h1
      obtain ⟨p1, p2, p3, p4⟩ := step_opens o ht g l.size hd s hp
      rw [← e1] at p1 p2 p3 p4 hmz
      have hg : GroupState true (cppDirective o g l.size l.directive s) := by
        refine ⟨by rw [p2, hmz]; simp, ?_⟩
        cases dead
        · rw [p4 hs hmz]; omega
        · rw [p3 hs.1]; have := hs.2; omega
      obtain ⟨i1, i2, i3, i4⟩ := group_run o ht hm g h2 (fun x hx => hz x (by simp [hx])) la ea _ p1 hg
      have hr : RestState dead (cppRun o g la (cppDirective o g l.size l.directive s)).2 := by
        cases dead
        · right
          rw [i4 rfl, p4 hs hmz]
        · refine ⟨i3.1, ?_⟩
          rw [i4 rfl, p3 hs.1]; have := hs.2; omega
      obtain ⟨j1, j2, j3, j4⟩ := rest_run o ht hm g h3 (fun x hx => hz x (by simp [hx])) lb eb _ i2 hr
      rw [cppRun, cppRun_append]
      refine ⟨?_, j2, j3, ?_⟩
      · simp only [i1, j1, skips_plain o ht hm g _ p1, hg.1]
        simp
      · rintro rfl
        rw [j4 rfl, i4 rfl, p3 hs.1]
        omega
  | .cond _ d body r h1 hnz h2 h3 =>
    cases ls with
    | nil => cases e
    | cons l ls =>
      simp only [List.cons_append, List.map_cons, List.map_append, List.cons.injEq] at e
      obtain ⟨e1, e2⟩ := e
      obtain ⟨la, lb, rfl, ea, eb⟩ := List.map_eq_append_iff.mp e2
      have hmz : markblockzero d = false := by
        cases hq : markblockzero d
        · rfl
        · exact absurd ((opens_zero h1 (hz (d, dead) (by simp))).mp hq) hnz
      obtain ⟨p1, p2, p3, -⟩ := step_opens o ht g l.size h1 s hp
      rw [← e1] at p1 p2 p3 hmz
      have hg : GroupState dead (cppDirective o g l.size l.directive s) := by
        cases dead
        · show _ = false
          rw [p2, hmz, show s.zeromode = false from hs]
          rfl
        · refine ⟨by rw [p2, hs.1]; rfl, ?_⟩
          rw [p3 hs.1]; have := hs.2; omega
      obtain ⟨i1, i2, i3, i4⟩ := group_run o ht hm g h2 (fun x hx => hz x (by simp [hx])) la ea _ p1 hg
      have hr : RestState dead (cppRun o g la (cppDirective o g l.size l.directive s)).2 := by
        cases dead
        · exact .inl i3
        · refine ⟨i3.1, ?_⟩
          rw [i4 rfl, p3 hs.1]; have := hs.2; omega
      obtain ⟨j1, j2, j3, j4⟩ := rest_run o ht hm g h3 (fun x hx => hz x (by simp [hx])) lb eb _ i2 hr
      rw [cppRun, cppRun_append]
      refine ⟨?_, j2, j3, ?_⟩
      · simp only [i1, j1, skips_plain o ht hm g _ p1]
        have : (cppDirective o g l.size l.directive s).zeromode = dead := by
          cases dead
          · exact hg
          · exact hg.1
        simp [this]
      · rintro rfl
        rw [j4 rfl, i4 rfl, p3 hs.1]
        omega

theorem rest_run (o : CppOptions) (ht : o.textElse = false) (hm : o.markupIf0 = false) (g : Bool) {dead : Bool} {l : List (CppDirective × Bool)}
    (h : Rest dead l) (hz : ∀ x ∈ l, ZeroAlone x.1) (ls : List CppLine) (e : ls.map (·.directive) = l.map (·.1)) (s : CppState) (hp : s.Plain)
    (hs : RestState dead s) :
    (cppRun o g ls s).1 = l.map (·.2) ∧ (cppRun o g ls s).2.Plain ∧ GroupState dead (cppRun o g ls s).2 ∧
      (dead = true → (cppRun o g ls s).2.ifcount = s.ifcount - 1) := by
  match h with
  | .branch _ d body r h1 h2 h3 =>
    cases ls with
    | nil => cases e
    | cons l ls =>
      simp only [List.cons_append, List.map_cons, List.map_append, List.cons.injEq] at e
      obtain ⟨e1, e2⟩ := e
      obtain ⟨la, lb, rfl, ea, eb⟩ := List.map_eq_append_iff.mp e2
      obtain ⟨p1, p2, p3⟩ := step_branch o ht g l.size h1 s hp
      rw [← e1] at p1 p2 p3
      have hg : GroupState dead (cppDirective o g l.size l.directive s) := by
        cases dead
        · exact p2 hs
        · obtain ⟨q1, q2⟩ := p3 hs.1 (by have := hs.2; omega)
          exact ⟨q1, by rw [q2]; have := hs.2; omega⟩
      obtain ⟨i1, i2, i3, i4⟩ := group_run o ht hm g h2 (fun x hx => hz x (by simp [hx])) la ea _ p1 hg
      have hr : RestState dead (cppRun o g la (cppDirective o g l.size l.directive s)).2 := by
        cases dead
        · exact .inl i3
        · obtain ⟨q1, q2⟩ := p3 hs.1 (by have := hs.2; omega)
          exact ⟨i3.1, by rw [i4 rfl, q2]; exact hs.2⟩
      obtain ⟨j1, j2, j3, j4⟩ := rest_run o ht hm g h3 (fun x hx => hz x (by simp [hx])) lb eb _ i2 hr
      rw [cppRun, cppRun_append]
      refine ⟨?_, j2, j3, ?_⟩
      · simp only [i1, j1, skips_plain o ht hm g _ p1]
        have : (cppDirective o g l.size l.directive s).zeromode = dead := by
          cases dead
          · exact hg
          · exact hg.1
        simp [this]
      · rintro rfl
        obtain ⟨q1, q2⟩ := p3 hs.1 (by have := hs.2; omega)
        rw [j4 rfl, i4 rfl, q2]
  | .endif _ r h1 =>
    cases ls with
    | nil => cases e
    | cons l ls =>
      simp only [List.map_cons, List.cons.injEq] at e
      obtain ⟨e1, e2⟩ := e
      obtain ⟨p1, p2, p3⟩ := step_endif o ht g l.size s hp
      rw [← e1] at p1 p2 p3
      have hg : GroupState dead (cppDirective o g l.size l.directive s) := by
        cases dead
        · exact p2 hs
        · obtain ⟨q1, q2⟩ := p3 hs.1 (by have := hs.2; omega)
          exact ⟨q1, by rw [q2]; have := hs.2; omega⟩
      obtain ⟨i1, i2, i3, i4⟩ := group_run o ht hm g h1 (fun x hx => hz x (by simp [hx])) ls e2 _ p1 hg
      rw [cppRun]
      refine ⟨?_, i2, i3, ?_⟩
      · simp only [i1, skips_plain o ht hm g _ p1]
        have : (cppDirective o g l.size l.directive s).zeromode = dead := by
          cases dead
          · exact hg
          · exact hg.1
        simp [this]
      · rintro rfl
        obtain ⟨q1, q2⟩ := p3 hs.1 (by have := hs.2; omega)
        rw [i4 rfl, q2]

end

theorem grouped_run (o : CppOptions) (ht : o.textElse = false) (hm : o.markupIf0 = false) (g : Bool) {l : List (CppDirective × Bool)}
    (h : Grouped l) (hz : ∀ x ∈ l, ZeroAlone x.1) (ls : List CppLine) (e : ls.map (·.directive) = l.map (·.1)) (s : CppState) (hp : s.Plain)
    (hs : s.zeromode = false) :
    (cppRun o g ls s).1 = l.map (·.2) ∧ (cppRun o g ls s).2.Plain ∧ (cppRun o g ls s).2.zeromode = false := by
  induction h generalizing ls s with
  | group l h =>
    obtain ⟨h1, h2, h3, -⟩ := group_run o ht hm g h hz ls e s hp hs
    exact ⟨h1, h2, h3⟩
  | stray a d r ha hd hr ih =>
    rw [List.map_append, List.map_cons] at e
    obtain ⟨la, lb, rfl, ea, eb⟩ := List.map_eq_append_iff.mp e
    obtain ⟨h1, h2, h3, -⟩ := group_run o ht hm g ha (fun x hx => hz x (by simp [hx])) la ea s hp hs
    cases lb with
    | nil => cases eb
    | cons l lb =>
      simp only [List.map_cons, List.cons.injEq] at eb
      obtain ⟨e1, e2⟩ := eb
      have hq : (cppDirective o g l.size l.directive (cppRun o g la s).2).Plain ∧
          (cppDirective o g l.size l.directive (cppRun o g la s).2).zeromode = false := by
        rcases hd with hd | rfl
        · obtain ⟨p1, p2, -⟩ := step_branch o ht g l.size hd _ h2
          rw [← e1] at p1 p2
          exact ⟨p1, p2 (.inl h3)⟩
        · obtain ⟨p1, p2, -⟩ := step_endif o ht g l.size _ h2
          rw [e1]
          exact ⟨p1, p2 (.inl h3)⟩
      obtain ⟨i1, i2, i3⟩ := ih (fun x hx => hz x (by simp [hx])) lb e2 _ hq.1 hq.2
      rw [cppRun_append, cppRun]
      refine ⟨?_, i2, i3⟩
      simp only [h1, i1, skips_plain o ht hm g _ hq.1, hq.2]
      simp

/-! ### Every sequence of directives is part of a file -/

/-- The directive belongs to an `#if` before it. -/
def Continues (d : CppDirective) : Prop := Branches d ∨ d = .endif

theorem directive_cases (d : CppDirective) : Opens d ∨ Continues d ∨ d = .other := by
  cases d
  · exact .inl trivial
  · exact .inl trivial
  · exact .inl trivial
  · exact .inr (.inl (.inl trivial))
  · exact .inr (.inl (.inl trivial))
  · exact .inr (.inl (.inr rfl))
  · exact .inr (.inr rfl)

/-- The directives are those of `l`, or `l` and then some that belong to an `#if` before, or they stop inside of `l`. -/
def Covers (l : List (CppDirective × Bool)) (ds : List CppDirective) : Prop :=
  (∃ r, ds = l.map (·.1) ++ r ∧ ∀ d, r.head? = some d → Continues d) ∨
    ∃ t, ds ++ t = l.map (·.1) ∧ ∀ d ∈ t, d = .endif

theorem cover (n : Nat) : ∀ ds : List CppDirective, ds.length ≤ n → ∀ dead,
    (∃ l, Group dead l ∧ Covers l ds) ∧ ((∃ d, ds.head? = some d ∧ Continues d) → ∃ l, Rest dead l ∧ Covers l ds) := by
  induction n with
  | zero =>
    intro ds h dead
    have : ds = [] := List.length_eq_zero_iff.mp (by omega)
    subst this
    exact ⟨⟨[], .nil _, .inr ⟨[], rfl, by simp⟩⟩, by rintro ⟨d, h, -⟩; cases h⟩
  | succ n ih =>
    intro ds h dead
    cases ds with
    | nil => exact ⟨⟨[], .nil _, .inr ⟨[], rfl, by simp⟩⟩, by rintro ⟨d, h, -⟩; cases h⟩
    | cons d ds =>
      have hl : ds.length ≤ n := by simpa using h
      -- the rest of a conditional behind its first part, or a part that nothing follows
      have finish : ∀ (dead' : Bool) (m : Bool), ∃ body r, Group dead' body ∧ Rest dead r ∧ Covers (((d, m) :: body) ++ r) (d :: ds) := by
        intro dead' m
        obtain ⟨body, hb, hc⟩ := (ih ds hl dead').1
        rcases hc with ⟨r, e, hr⟩ | hpre
        · cases r with
          | nil =>
            refine ⟨body, [(.endif, dead)], hb, .endif dead [] (.nil _), .inr ⟨[.endif], ?_, by simp⟩⟩
            rw [e]
            simp
          | cons c r =>
            have hlen : (c :: r).length ≤ n := by
              have := congrArg List.length e
              simp only [List.length_append, List.length_map] at this
              omega
            obtain ⟨l2, h2, hc2⟩ := (ih (c :: r) hlen dead).2 ⟨c, rfl, hr c rfl⟩
            refine ⟨body, l2, hb, h2, ?_⟩
            rcases hc2 with ⟨r2, e2, hr2⟩ | hp2
            · left
              refine ⟨r2, ?_, hr2⟩
              rw [e, e2]
              simp
            · right
              rw [e]
              obtain ⟨t, ht, hte⟩ := hp2
              exact ⟨t, by simp [← ht], hte⟩
        · refine ⟨body, [(.endif, dead)], hb, .endif dead [] (.nil _), .inr ?_⟩
          obtain ⟨t, ht, hte⟩ := hpre
          exact ⟨t ++ [.endif], by simp [← ht], by rintro d hd; rcases List.mem_append.mp hd with h | h; exact hte d h; simpa using h⟩
      constructor
      · rcases directive_cases d with ho | hc | rfl
        · by_cases hz : IsZero d
          · obtain ⟨body, r, h1, h2, h3⟩ := finish true true
            exact ⟨_, .zero dead d body r hz h1 h2, h3⟩
          · obtain ⟨body, r, h1, h2, h3⟩ := finish dead dead
            exact ⟨_, .cond dead d body r ho hz h1 h2, h3⟩
        · exact ⟨[], .nil _, .inl ⟨d :: ds, rfl, by rintro e ⟨⟩; exact hc⟩⟩
        · obtain ⟨l, h1, h2⟩ := (ih ds hl dead).1
          refine ⟨_, .other dead l h1, ?_⟩
          rcases h2 with ⟨r, e, hr⟩ | hp
          · exact .inl ⟨r, by simp [e], hr⟩
          · obtain ⟨t, ht, hte⟩ := hp
            exact .inr ⟨t, by simp [← ht], hte⟩
      · rintro ⟨d', e, hc⟩
        cases e
        rcases hc with hb | rfl
        · obtain ⟨body, r, h1, h2, h3⟩ := finish dead dead
          exact ⟨_, .branch dead d body r hb h1 h2, h3⟩
        · obtain ⟨l, h1, h2⟩ := (ih ds hl dead).1
          refine ⟨_, .endif dead l h1, ?_⟩
          rcases h2 with ⟨r, e, hr⟩ | hp
          · exact .inl ⟨r, by simp [e], hr⟩
          · obtain ⟨t, ht, hte⟩ := hp
            exact .inr ⟨t, by simp [← ht], hte⟩

/-- Every sequence of directives is that of a file, or with some `#endif` behind it. -/
theorem grouped_total (ds : List CppDirective) : ∃ l t, Grouped l ∧ ds ++ t = l.map (·.1) ∧ ∀ d ∈ t, d = .endif := by
  induction hk : ds.length using Nat.strongRecOn generalizing ds with
  | _ k ih =>
  subst hk
  obtain ⟨l, h1, h2⟩ := (cover ds.length ds (Nat.le_refl _) false).1
  rcases h2 with ⟨r, e, hr⟩ | hp
  · cases r with
    | nil =>
      rw [List.append_nil] at e
      exact ⟨l, [], .group l h1, by rw [e]; simp, by simp⟩
    | cons d r =>
      obtain ⟨l2, t, g2, ht, hte⟩ := ih r.length (by rw [e]; simp; omega) r rfl
      refine ⟨l ++ (d, false) :: l2, t, .stray l d l2 h1 (hr d rfl) g2, ?_, hte⟩
      rw [e]
      simp [← ht]
  · obtain ⟨t, ht, hte⟩ := hp
    exact ⟨l, t, .group l h1, ht, hte⟩

theorem cppRun_length (o : CppOptions) (g : Bool) (ls : List CppLine) (s : CppState) : (cppRun o g ls s).1.length = ls.length := by
  induction ls generalizing s with
  | nil => rfl
  | cons l ls ih => simp [cppRun, ih]

end Srcml
