import Verif.Proofs.CppZero
import Verif.Spec.CppElse
set_option linter.unusedSimpArgs false
/-
The parser's state for conditional directives with the option for text in `#else`.
-/
namespace Srcml
open Spec

/-- All modes were put on the stack at the same depth, and none of them skips. -/
def CppState.Level (n : Nat) (s : CppState) : Prop := ∀ m ∈ s.cppmode, m.skipelse = false ∧ ∀ x ∈ m.statesize, x = n

theorem level_skips {n : Nat} {s : CppState} (h : s.Level n) (o : CppOptions) (g : Bool) :
    cppSkips o g s = ((!o.markupIf0 && s.zeromode) || (o.textElse && s.skipelse)) := by
  unfold cppSkips
  cases hq : s.cppmode with
  | nil => cases o.textElse <;> cases g <;> cases s.skipelse <;> simp
  | cons m ms =>
    simp only [(h m (by simp [hq])).1]
    cases o.textElse <;> cases g <;> cases s.skipelse <;> simp

theorem cleanup_sub (ms : List CppMode) : ∀ m ∈ cppmodeCleanup ms, m ∈ ms := by
  intro m h
  cases ms with
  | nil => exact h
  | cons x xs =>
    rw [cppmodeCleanup] at h
    split at h
    · exact List.mem_cons_of_mem _ h
    · exact h

theorem if_level (o : CppOptions) (g : Bool) (n : Nat) (z : Bool) {s : CppState} (h : s.Level n) : (cppIf o g n z s).Level n := by
  unfold cppIf
  simp only
  have h2 : (if (!s.zeromode && z) = true then { s with zeromode := true, ifcount := 0 } else s).cppmode = s.cppmode := by split <;> rfl
  split
  · intro m hm
    rcases List.mem_cons.mp hm with rfl | hm
    · simp
    · rw [h2] at hm
      exact h m hm
  · intro m hm
    simp only [h2] at hm
    exact h m hm

theorem elseTop_level (n : Nat) (z : Bool) {ms : List CppMode} (h : ∀ m ∈ ms, m.skipelse = false ∧ ∀ x ∈ m.statesize, x = n) :
    (cppElseTop n z ms).skipelse = false ∧ ∀ x ∈ (cppElseTop n z ms).statesize, x = n := by
  have key : ∀ m : CppMode, (m.skipelse = false ∧ ∀ x ∈ m.statesize, x = n) → ¬ ((m.statesize ++ [n]).headD 0 > n) := by
    rintro m ⟨-, h2⟩
    cases hq : m.statesize with
    | nil => simp
    | cons x xs => simp [h2 x (by simp [hq])]
  unfold cppElseTop
  cases ms with
  | nil =>
    have := key { statesize := [n] } ⟨rfl, by simp⟩
    simp only
    rw [if_neg (by simp)]
    simp
  | cons m ms =>
    have hm := h m (by simp)
    have := key m hm
    simp only
    rw [if_neg (by rw [Bool.and_eq_true, decide_eq_true_eq]; exact fun e => this e.2)]
    refine ⟨hm.1, ?_⟩
    intro x hx
    rcases List.mem_append.mp hx with hx | hx
    · exact hm.2 x hx
    · simpa using hx

theorem else_level (o : CppOptions) (g : Bool) (n : Nat) {s : CppState} (h : s.Level n) : (cppElse o g n s).Level n := by
  unfold cppElse
  simp only
  have h2 : (cppElseFlags s).cppmode = s.cppmode := by
    unfold cppElseFlags
    split
    · rfl
    · split <;> rfl
  have hkl : (cppElseFlags s).Level n := by
    intro m hm
    rw [h2] at hm
    exact h m hm
  split
  · intro m hm
    rcases List.mem_cons.mp hm with rfl | hm
    · exact elseTop_level n _ hkl
    · exact hkl m (List.mem_of_mem_tail hm)
  · exact hkl

theorem endif_level (o : CppOptions) (g : Bool) (n : Nat) {s : CppState} (h : s.Level n) : (cppEndif o g n s).Level n := by
  unfold cppEndif
  simp only
  split
  · intro x hx
    have hx : x ∈ cppEndifModes n s.cppmode := hx
    cases hq : s.cppmode with
    | nil => rw [hq] at hx; cases hx
    | cons m ms =>
      rw [hq, cppEndifModes] at hx
      have := cleanup_sub _ x hx
      rcases List.mem_cons.mp this with rfl | hx
      · obtain ⟨h3, h4⟩ := h m (by simp [hq])
        refine ⟨h3, ?_⟩
        intro y hy
        rcases List.mem_append.mp hy with hy | hy
        · exact h4 y hy
        · simpa using hy
      · exact h x (by simp [hq, hx])
  · exact h

/-! ### The counters -/

theorem if_flags (o : CppOptions) (g : Bool) (n : Nat) (z : Bool) (s : CppState) :
    (cppIf o g n z s).zeromode = (s.zeromode || z) ∧ (cppIf o g n z s).skipelse = s.skipelse ∧
      (cppIf o g n z s).ifcount = if !s.zeromode && z then 1 else s.ifcount + 1 := by
  unfold cppIf
  cases hz : s.zeromode <;> cases z <;> cases hg : (!o.textElse && !g) <;> simp [hz, hg]

theorem else_flags (o : CppOptions) (g : Bool) (n : Nat) (s : CppState) :
    (cppElse o g n s).zeromode = (s.zeromode && decide (s.ifcount ≠ 1)) ∧ (cppElse o g n s).skipelse = (s.skipelse || !s.zeromode) ∧
      (cppElse o g n s).ifcount = if s.zeromode then s.ifcount else 1 := by
  unfold cppElse cppElseFlags
  cases hz : s.zeromode <;> cases hg : (o.textElse && !g) <;> by_cases h1 : s.ifcount = 1 <;> simp [hz, hg, h1]

theorem endif_flags (o : CppOptions) (g : Bool) (n : Nat) (s : CppState) :
    (cppEndif o g n s).zeromode = (s.zeromode && decide (s.ifcount ≠ 1)) ∧ (cppEndif o g n s).skipelse = (s.skipelse && decide (s.ifcount ≠ 1)) ∧
      (cppEndif o g n s).ifcount = s.ifcount - 1 := by
  have h0 : (s.ifcount - 1 = 0) ↔ (s.ifcount = 1) := by omega
  unfold cppEndif cppEndifFlags
  cases hz : s.zeromode <;> cases hk : s.skipelse <;> cases hg : (o.textElse && !g) <;> by_cases h1 : s.ifcount = 1 <;> simp [hz, hk, hg, h1, h0]

/-! ### In `#if 0` -/

theorem dir_opens (o : CppOptions) (g : Bool) (n : Nat) {d : CppDirective} (ho : Opens d) (s : CppState) :
    cppDirective o g n d s = cppIf o g n (markblockzero d) s := by
  cases d <;> first | rfl | exact ho.elim

theorem dir_branches (o : CppOptions) (g : Bool) (n : Nat) {d : CppDirective} (hb : Branches d) (s : CppState) :
    cppDirective o g n d s = cppElse o g n s := by
  cases d <;> first | rfl | exact hb.elim

/-- The flags and the count. -/
structure CppState.Is (n : Nat) (s : CppState) (zero skip : Bool) (k : Int) : Prop where
  zero : s.zeromode = zero
  skip : s.skipelse = skip
  count : s.ifcount = k
  level : s.Level n

variable {o : CppOptions} {n : Nat}

mutual

theorem zero_group (hm : o.markupIf0 = false) (g : Bool) {dead : Bool} {l : List (CppDirective × Bool)} (h : Group dead l) (hd : dead = true)
    (ls : List CppLine) (hn : ∀ x ∈ ls, x.size = n) (e : ls.map (·.directive) = l.map (·.1)) (s : CppState) {b : Bool} {k : Int} (hk : 1 ≤ k)
    (hs : s.Is n true b k) : (cppRun o g ls s).1 = l.map (·.2) ∧ (cppRun o g ls s).2.Is n true b k := by
  match h with
  | .nil _ =>
    cases ls with
    | nil => exact ⟨rfl, hs⟩
    | cons l ls => cases e
  | .other _ r h1 =>
    cases ls with
    | nil => cases e
    | cons l ls =>
      simp only [List.map_cons, List.cons.injEq] at e
      obtain ⟨e1, e2⟩ := e
      have hst : cppDirective o g l.size l.directive s = s := by rw [e1]; rfl
      obtain ⟨i1, i2⟩ := zero_group hm g h1 hd ls (fun x hx => hn x (by simp [hx])) e2 s hk hs
      simp only [cppRun, hst, List.map_cons]
      refine ⟨?_, i2⟩
      rw [i1, level_skips hs.level, hs.zero, hm, hd]
      simp
  | .zero _ d body r h1 h2 h3 =>
    cases ls with
    | nil => cases e
    | cons l ls =>
      simp only [List.cons_append, List.map_cons, List.map_append, List.cons.injEq] at e
      obtain ⟨e1, e2⟩ := e
      obtain ⟨la, lb, rfl, ea, eb⟩ := List.map_eq_append_iff.mp e2
      have ho : Opens d := by cases h1; trivial
      have hst : (cppDirective o g l.size l.directive s).Is n true b (k + 1) := by
        rw [e1, dir_opens o g _ ho, hn l (by simp)]
        obtain ⟨f1, f2, f3⟩ := if_flags o g n (markblockzero d) s
        exact ⟨by rw [f1, hs.zero]; rfl, by rw [f2, hs.skip], by rw [f3, hs.zero, hs.count]; rfl, if_level o g n _ hs.level⟩
      obtain ⟨i1, i2⟩ := zero_group hm g h2 rfl la (fun x hx => hn x (by simp [hx])) ea _ (by omega) hst
      obtain ⟨j1, j2⟩ := zero_rest hm g h3 hd lb (fun x hx => hn x (by simp [hx])) eb _ hk i2
      rw [cppRun, cppRun_append]
      refine ⟨?_, j2⟩
      simp only [i1, j1, level_skips hst.level, hst.zero, hm]
      simp
  | .cond _ d body r h1 hnz h2 h3 =>
    cases ls with
    | nil => cases e
    | cons l ls =>
      simp only [List.cons_append, List.map_cons, List.map_append, List.cons.injEq] at e
      obtain ⟨e1, e2⟩ := e
      obtain ⟨la, lb, rfl, ea, eb⟩ := List.map_eq_append_iff.mp e2
      have hst : (cppDirective o g l.size l.directive s).Is n true b (k + 1) := by
        rw [e1, dir_opens o g _ h1, hn l (by simp)]
        obtain ⟨f1, f2, f3⟩ := if_flags o g n (markblockzero d) s
        exact ⟨by rw [f1, hs.zero]; rfl, by rw [f2, hs.skip], by rw [f3, hs.zero, hs.count]; rfl, if_level o g n _ hs.level⟩
      obtain ⟨i1, i2⟩ := zero_group hm g h2 hd la (fun x hx => hn x (by simp [hx])) ea _ (by omega) hst
      obtain ⟨j1, j2⟩ := zero_rest hm g h3 hd lb (fun x hx => hn x (by simp [hx])) eb _ hk i2
      rw [cppRun, cppRun_append]
      refine ⟨?_, j2⟩
      simp only [i1, j1, level_skips hst.level, hst.zero, hm, hd]
      simp

theorem zero_rest (hm : o.markupIf0 = false) (g : Bool) {dead : Bool} {l : List (CppDirective × Bool)} (h : Rest dead l) (hd : dead = true)
    (ls : List CppLine) (hn : ∀ x ∈ ls, x.size = n) (e : ls.map (·.directive) = l.map (·.1)) (s : CppState) {b : Bool} {k : Int} (hk : 1 ≤ k)
    (hs : s.Is n true b (k + 1)) : (cppRun o g ls s).1 = l.map (·.2) ∧ (cppRun o g ls s).2.Is n true b k := by
  have hk1 : k + 1 ≠ 1 := by omega
  match h with
  | .branch _ d body r h1 h2 h3 =>
    cases ls with
    | nil => cases e
    | cons l ls =>
      simp only [List.cons_append, List.map_cons, List.map_append, List.cons.injEq] at e
      obtain ⟨e1, e2⟩ := e
      obtain ⟨la, lb, rfl, ea, eb⟩ := List.map_eq_append_iff.mp e2
      have hst : (cppDirective o g l.size l.directive s).Is n true b (k + 1) := by
        rw [e1, dir_branches o g _ h1, hn l (by simp)]
        obtain ⟨f1, f2, f3⟩ := else_flags o g n s
        exact ⟨by rw [f1, hs.zero, hs.count]; simp [hk1], by rw [f2, hs.skip, hs.zero]; simp, by rw [f3, hs.zero, hs.count]; rfl,
          else_level o g n hs.level⟩
      obtain ⟨i1, i2⟩ := zero_group hm g h2 hd la (fun x hx => hn x (by simp [hx])) ea _ (by omega) hst
      obtain ⟨j1, j2⟩ := zero_rest hm g h3 hd lb (fun x hx => hn x (by simp [hx])) eb _ hk i2
      rw [cppRun, cppRun_append]
      refine ⟨?_, j2⟩
      simp only [i1, j1, level_skips hst.level, hst.zero, hm, hd]
      simp
  | .endif _ r h1 =>
    cases ls with
    | nil => cases e
    | cons l ls =>
      simp only [List.map_cons, List.cons.injEq] at e
      obtain ⟨e1, e2⟩ := e
      have hst : (cppDirective o g l.size l.directive s).Is n true b k := by
        rw [e1, hn l (by simp)]
        obtain ⟨f1, f2, f3⟩ := endif_flags o g n s
        exact ⟨by show (cppEndif o g n s).zeromode = _; rw [f1, hs.zero, hs.count]; simp [hk1],
          by show (cppEndif o g n s).skipelse = _; rw [f2, hs.skip, hs.count]; simp [hk1],
          by show (cppEndif o g n s).ifcount = _; rw [f3, hs.count]; omega, endif_level o g n hs.level⟩
      obtain ⟨i1, i2⟩ := zero_group hm g h1 hd ls (fun x hx => hn x (by simp [hx])) e2 _ hk hst
      rw [cppRun]
      refine ⟨?_, i2⟩
      simp only [i1, level_skips hst.level, hst.zero, hm, hd]
      simp

end

/-- In the part of an `#else` that is left out. -/
theorem flat_run (ht : o.textElse = true) (g : Bool) {l : List (CppDirective × Bool)} (h : Flat l) (hz : ∀ x ∈ l, ZeroAlone x.1)
    (ls : List CppLine) (hn : ∀ x ∈ ls, x.size = n) (e : ls.map (·.directive) = l.map (·.1)) (s : CppState) {k : Int} (hk : 1 ≤ k)
    (hs : s.Is n false true k) : (cppRun o g ls s).1 = l.map (·.2) ∧ (cppRun o g ls s).2.Is n false true k := by
  induction h generalizing ls s k with
  | nil =>
    cases ls with
    | nil => exact ⟨rfl, hs⟩
    | cons l ls => cases e
  | other r h1 ih =>
    cases ls with
    | nil => cases e
    | cons l ls =>
      simp only [List.map_cons, List.cons.injEq] at e
      obtain ⟨e1, e2⟩ := e
      have hst : cppDirective o g l.size l.directive s = s := by rw [e1]; rfl
      obtain ⟨i1, i2⟩ := ih (fun x hx => hz x (by simp [hx])) ls (fun x hx => hn x (by simp [hx])) e2 s hk hs
      simp only [cppRun, hst, List.map_cons]
      refine ⟨?_, i2⟩
      rw [i1, level_skips hs.level, hs.zero, hs.skip, ht]
      simp
  | cond d body r ho hnz h1 h2 ih1 ih2 =>
    cases ls with
    | nil => cases e
    | cons l ls =>
      simp only [List.cons_append, List.map_cons, List.map_append, List.cons.injEq] at e
      obtain ⟨e1, e2⟩ := e
      obtain ⟨la, lb, rfl, ea, eb⟩ := List.map_eq_append_iff.mp e2
      have hmz : markblockzero d = false := by
        cases hq : markblockzero d
        · rfl
        · exact absurd ((opens_zero ho (hz (d, true) (by simp))).mp hq) hnz
      have hst : (cppDirective o g l.size l.directive s).Is n false true (k + 1) := by
        rw [e1, dir_opens o g _ ho, hn l (by simp), hmz]
        obtain ⟨f1, f2, f3⟩ := if_flags o g n false s
        exact ⟨by rw [f1, hs.zero]; rfl, by rw [f2, hs.skip], by rw [f3, hs.count]; simp, if_level o g n _ hs.level⟩
      obtain ⟨i1, i2⟩ := ih1 (fun x hx => hz x (by simp [hx])) la (fun x hx => hn x (by simp [hx])) ea _ (by omega) hst
      cases lb with
      | nil => cases eb
      | cons l' lb =>
        simp only [List.map_cons, List.cons.injEq] at eb
        obtain ⟨e3, e4⟩ := eb
        have hk1 : k + 1 ≠ 1 := by omega
        have hst2 : (cppDirective o g l'.size l'.directive (cppRun o g la (cppDirective o g l.size l.directive s)).2).Is n false true k := by
          rw [e3, hn l' (by simp)]
          obtain ⟨f1, f2, f3⟩ := endif_flags o g n (cppRun o g la (cppDirective o g l.size l.directive s)).2
          exact ⟨by show (cppEndif o g n _).zeromode = _; rw [f1, i2.zero]; rfl,
            by show (cppEndif o g n _).skipelse = _; rw [f2, i2.skip, i2.count]; simp [hk1],
            by show (cppEndif o g n _).ifcount = _; rw [f3, i2.count]; omega, endif_level o g n i2.level⟩
        obtain ⟨j1, j2⟩ := ih2 (fun x hx => hz x (by simp [hx])) lb (fun x hx => hn x (by simp [hx])) e4 _ hk hst2
        rw [cppRun, cppRun_append, cppRun]
        refine ⟨?_, j2⟩
        simp only [i1, j1, level_skips hst.level, level_skips hst2.level, hst.skip, hst2.skip, ht]
        simp

/-- Neither in `#if 0` nor in an `#else` that is left out. -/
structure CppState.Live (n : Nat) (s : CppState) : Prop where
  zero : s.zeromode = false
  skip : s.skipelse = false
  level : s.Level n

/-- Where a part with markup ends, or one of `#else` that is left out. -/
structure CppState.PartEnd (n : Nat) (s : CppState) : Prop where
  zero : s.zeromode = false
  skip : s.skipelse = true → s.ifcount = 1
  level : s.Level n

mutual

theorem onePart_run (ht : o.textElse = true) (hm : o.markupIf0 = false) (g : Bool) {l : List (CppDirective × Bool)} (h : OnePart Flat l)
    (hz : ∀ x ∈ l, ZeroAlone x.1) (ls : List CppLine) (hn : ∀ x ∈ ls, x.size = n) (e : ls.map (·.directive) = l.map (·.1)) (s : CppState)
    (hs : s.Live n) : (cppRun o g ls s).1 = l.map (·.2) ∧ (cppRun o g ls s).2.Live n := by
  match h with
  | .nil =>
    cases ls with
    | nil => exact ⟨rfl, hs⟩
    | cons l ls => cases e
  | .other r h1 =>
    cases ls with
    | nil => cases e
    | cons l ls =>
      simp only [List.map_cons, List.cons.injEq] at e
      obtain ⟨e1, e2⟩ := e
      have hst : cppDirective o g l.size l.directive s = s := by rw [e1]; rfl
      obtain ⟨i1, i2⟩ := onePart_run ht hm g h1 (fun x hx => hz x (by simp [hx])) ls (fun x hx => hn x (by simp [hx])) e2 s hs
      simp only [cppRun, hst, List.map_cons]
      refine ⟨?_, i2⟩
      rw [i1, level_skips hs.level, hs.zero, hs.skip]
      simp
  | .zero d body r h1 h2 h3 =>
    cases ls with
    | nil => cases e
    | cons l ls =>
      simp only [List.cons_append, List.map_cons, List.map_append, List.cons.injEq] at e
      obtain ⟨e1, e2⟩ := e
      obtain ⟨la, lb, rfl, ea, eb⟩ := List.map_eq_append_iff.mp e2
      have ho : Opens d := by cases h1; trivial
      have hmz : markblockzero d = true := by cases h1; rfl
      have hst : (cppDirective o g l.size l.directive s).Is n true false 1 := by
        rw [e1, dir_opens o g _ ho, hn l (by simp), hmz]
        obtain ⟨f1, f2, f3⟩ := if_flags o g n true s
        exact ⟨by rw [f1]; simp, by rw [f2, hs.skip], by rw [f3, hs.zero]; rfl, if_level o g n _ hs.level⟩
      obtain ⟨i1, i2⟩ := zero_group hm g h2 rfl la (fun x hx => hn x (by simp [hx])) ea _ (by omega) hst
      obtain ⟨j1, j2⟩ := afterZero_run ht hm g h3 (fun x hx => hz x (by simp [hx])) lb (fun x hx => hn x (by simp [hx])) eb _ i2
      rw [cppRun, cppRun_append]
      refine ⟨?_, j2⟩
      simp only [i1, j1, level_skips hst.level, hst.zero, hm]
      simp
  | .cond d body r h1 hnz h2 h3 =>
    cases ls with
    | nil => cases e
    | cons l ls =>
      simp only [List.cons_append, List.map_cons, List.map_append, List.cons.injEq] at e
      obtain ⟨e1, e2⟩ := e
      obtain ⟨la, lb, rfl, ea, eb⟩ := List.map_eq_append_iff.mp e2
      have hmz : markblockzero d = false := by
        cases hq : markblockzero d
        · rfl
        · exact absurd ((opens_zero h1 (hz (d, false) (by simp))).mp hq) hnz
      have hst : (cppDirective o g l.size l.directive s).Live n := by
        rw [e1, dir_opens o g _ h1, hn l (by simp), hmz]
        obtain ⟨f1, f2, f3⟩ := if_flags o g n false s
        exact ⟨by rw [f1, hs.zero]; rfl, by rw [f2, hs.skip], if_level o g n _ hs.level⟩
      obtain ⟨i1, i2⟩ := onePart_run ht hm g h2 (fun x hx => hz x (by simp [hx])) la (fun x hx => hn x (by simp [hx])) ea _ hst
      obtain ⟨j1, j2⟩ := afterPart_run ht hm g h3 (fun x hx => hz x (by simp [hx])) lb (fun x hx => hn x (by simp [hx])) eb _
        ⟨i2.zero, by rw [i2.skip]; simp, i2.level⟩
      rw [cppRun, cppRun_append]
      refine ⟨?_, j2⟩
      simp only [i1, j1, level_skips hst.level, hst.zero, hst.skip]
      simp

theorem afterZero_run (ht : o.textElse = true) (hm : o.markupIf0 = false) (g : Bool) {l : List (CppDirective × Bool)} (h : AfterZero Flat l)
    (hz : ∀ x ∈ l, ZeroAlone x.1) (ls : List CppLine) (hn : ∀ x ∈ ls, x.size = n) (e : ls.map (·.directive) = l.map (·.1)) (s : CppState)
    (hs : s.Is n true false 1) : (cppRun o g ls s).1 = l.map (·.2) ∧ (cppRun o g ls s).2.Live n := by
  match h with
  | .branch d body r h1 h2 h3 =>
    cases ls with
    | nil => cases e
    | cons l ls =>
      simp only [List.cons_append, List.map_cons, List.map_append, List.cons.injEq] at e
      obtain ⟨e1, e2⟩ := e
      obtain ⟨la, lb, rfl, ea, eb⟩ := List.map_eq_append_iff.mp e2
      have hst : (cppDirective o g l.size l.directive s).Live n := by
        rw [e1, dir_branches o g _ h1, hn l (by simp)]
        obtain ⟨f1, f2, f3⟩ := else_flags o g n s
        exact ⟨by rw [f1, hs.count]; simp, by rw [f2, hs.skip, hs.zero]; rfl, else_level o g n hs.level⟩
      obtain ⟨i1, i2⟩ := onePart_run ht hm g h2 (fun x hx => hz x (by simp [hx])) la (fun x hx => hn x (by simp [hx])) ea _ hst
      obtain ⟨j1, j2⟩ := afterPart_run ht hm g h3 (fun x hx => hz x (by simp [hx])) lb (fun x hx => hn x (by simp [hx])) eb _
        ⟨i2.zero, by rw [i2.skip]; simp, i2.level⟩
      rw [cppRun, cppRun_append]
      refine ⟨?_, j2⟩
      simp only [i1, j1, level_skips hst.level, hst.zero, hst.skip]
      simp
  | .endif r h1 =>
    cases ls with
    | nil => cases e
    | cons l ls =>
      simp only [List.map_cons, List.cons.injEq] at e
      obtain ⟨e1, e2⟩ := e
      have hst : (cppDirective o g l.size l.directive s).Live n := by
        rw [e1, hn l (by simp)]
        obtain ⟨f1, f2, f3⟩ := endif_flags o g n s
        exact ⟨by show (cppEndif o g n s).zeromode = _; rw [f1, hs.count]; simp,
          by show (cppEndif o g n s).skipelse = _; rw [f2, hs.skip]; rfl, endif_level o g n hs.level⟩
      obtain ⟨i1, i2⟩ := onePart_run ht hm g h1 (fun x hx => hz x (by simp [hx])) ls (fun x hx => hn x (by simp [hx])) e2 _ hst
      rw [cppRun]
      refine ⟨?_, i2⟩
      simp only [i1, level_skips hst.level, hst.zero, hst.skip]
      simp

theorem afterPart_run (ht : o.textElse = true) (hm : o.markupIf0 = false) (g : Bool) {l : List (CppDirective × Bool)} (h : AfterPart Flat l)
    (hz : ∀ x ∈ l, ZeroAlone x.1) (ls : List CppLine) (hn : ∀ x ∈ ls, x.size = n) (e : ls.map (·.directive) = l.map (·.1)) (s : CppState)
    (hs : s.PartEnd n) : (cppRun o g ls s).1 = l.map (·.2) ∧ (cppRun o g ls s).2.Live n := by
  match h with
  | .branch d body r h1 h2 h3 =>
    cases ls with
    | nil => cases e
    | cons l ls =>
      simp only [List.cons_append, List.map_cons, List.map_append, List.cons.injEq] at e
      obtain ⟨e1, e2⟩ := e
      obtain ⟨la, lb, rfl, ea, eb⟩ := List.map_eq_append_iff.mp e2
      have hst : (cppDirective o g l.size l.directive s).Is n false true 1 := by
        rw [e1, dir_branches o g _ h1, hn l (by simp)]
        obtain ⟨f1, f2, f3⟩ := else_flags o g n s
        exact ⟨by rw [f1, hs.zero]; rfl, by rw [f2, hs.zero]; simp, by rw [f3, hs.zero]; rfl, else_level o g n hs.level⟩
      obtain ⟨i1, i2⟩ := flat_run ht g h2 (fun x hx => hz x (by simp [hx])) la (fun x hx => hn x (by simp [hx])) ea _ (by omega) hst
      obtain ⟨j1, j2⟩ := afterPart_run ht hm g h3 (fun x hx => hz x (by simp [hx])) lb (fun x hx => hn x (by simp [hx])) eb _
        ⟨i2.zero, fun _ => i2.count, i2.level⟩
      rw [cppRun, cppRun_append]
      refine ⟨?_, j2⟩
      simp only [i1, j1, level_skips hst.level, hst.skip, ht]
      simp
  | .endif r h1 =>
    cases ls with
    | nil => cases e
    | cons l ls =>
      simp only [List.map_cons, List.cons.injEq] at e
      obtain ⟨e1, e2⟩ := e
      have hst : (cppDirective o g l.size l.directive s).Live n := by
        rw [e1, hn l (by simp)]
        obtain ⟨f1, f2, f3⟩ := endif_flags o g n s
        refine ⟨by show (cppEndif o g n s).zeromode = _; rw [f1, hs.zero]; rfl, ?_, endif_level o g n hs.level⟩
        show (cppEndif o g n s).skipelse = _
        rw [f2]
        cases hk : s.skipelse
        · rfl
        · rw [hs.skip hk]; rfl
      obtain ⟨i1, i2⟩ := onePart_run ht hm g h1 (fun x hx => hz x (by simp [hx])) ls (fun x hx => hn x (by simp [hx])) e2 _ hst
      rw [cppRun]
      refine ⟨?_, i2⟩
      simp only [i1, level_skips hst.level, hst.zero, hst.skip]
      simp

end

end Srcml
