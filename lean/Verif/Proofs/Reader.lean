import Verif.Spec.Reader
set_option linter.unusedSimpArgs false
set_option linter.unusedVariables false
namespace Srcml
open Spec

namespace ReaderProof

def tail (d : Doc) (k : Nat) : List SaxCall :=
  (List.replicate (d.units - k) [SaxCall.startUnit, .endUnit]).flatten ++
    (if d.complete then [.endRoot] else if d.cut then [.startUnit] else [])

def inside (d : Doc) (k : Nat) : List SaxCall := if k < d.units then .endUnit :: tail d (k + 1) else []

def Valid (d : Doc) (k : Nat) : Prop := k < d.units ∨ (k = d.units ∧ d.cut = true ∧ d.complete = false)

theorem tail_cases (d : Doc) (k : Nat) (h : k ≤ d.units) :
    (Valid d k ∧ tail d k = .startUnit :: inside d k) ∨
    (k = d.units ∧ d.complete = true ∧ tail d k = [.endRoot]) ∨
    (k = d.units ∧ d.complete = false ∧ d.cut = false ∧ tail d k = []) := by
  by_cases hk : k < d.units
  · left
    refine ⟨Or.inl hk, ?_⟩
    have : d.units - k = (d.units - (k + 1)) + 1 := by omega
    simp [tail, inside, hk, this, List.replicate_succ]
  · have hk : k = d.units := by omega
    subst hk
    cases hc : d.complete <;> cases hx : d.cut <;> simp [tail, inside, Valid, hc, hx]

theorem inside_cases (d : Doc) (k : Nat) (h : Valid d k) :
    (k < d.units ∧ inside d k = .endUnit :: tail d (k + 1)) ∨
    (k = d.units ∧ d.cut = true ∧ d.complete = false ∧ inside d k = []) := by
  rcases h with h | ⟨h, h1, h2⟩
  · left; simp [inside, h]
  · right; simp [inside, h, h1, h2]

/-- Where the parser waits when the user has the turn and `j` calls are finished. -/
inductive Here (d : Doc) (j : Nat) : ParserPc → Bool → List SaxCall → Nat → Prop where
  | root (hj : j = 0) (hv : Valid d 0) : Here d j .rootWait false (inside d 0) 1
  | head (k : Nat) (hj : j = k + 1) (hv : Valid d k) : Here d j .headWait true (inside d k) j
  | body (k : Nat) (hj : j = k + 1) (hv : k < d.units) : Here d j .bodyWait true (tail d j) j

/-- What is left when the parser runs on to the next unit. -/
inductive Ahead (d : Doc) (j : Nat) : List SaxCall → Prop where
  | tail (hj : j ≤ d.units) : Ahead d j (tail d j)
  | inside (k : Nat) (hj : j = k + 1) (hv : Valid d k) : Ahead d j (inside d k)

/-- No further call gives anything. -/
def Finished (d : Doc) (j : Nat) : Prop := ∀ i, j ≤ i → ∀ c, delivered d i c = none

/-- The current call and the ones after it give nothing. -/
def Failing (d : Doc) (j : Nat) (c : ReadCall) : Prop := delivered d j c = none ∧ Finished d (j + 1)

/-- The user's thread when the parse is over. -/
inductive After (d : Doc) (j : Nat) : ParserPc → UserPc → Prop where
  | opening (p : ParserPc) (h : Finished d j) : After d j p .opening
  | openWoken (p : ParserPc) (h : Finished d j) : After d j p .openWoken
  | idle (p : ParserPc) (h : Finished d j) : After d j p .idle
  | head (p : ParserPc) (c : ReadCall) (h : Failing d j c) : After d j p (.head c)
  | headWait (c : ReadCall) (h : Failing d j c) : After d j .failing (.headWait c)
  | headWoken (p : ParserPc) (c : ReadCall) (h : Failing d j c) : After d j p (.headWoken c)
  | headBack (p : ParserPc) (c : ReadCall) (h : Failing d j c) : After d j p (.headBack c)
  | body (p : ParserPc) (h : Failing d j .read) : After d j p .body
  | bodyWait (h : Failing d j .read) : After d j .failing .bodyWait
  | bodyWoken (p : ParserPc) (h : Failing d j .read) : After d j p .bodyWoken
  | bodyBack (p : ParserPc) (h : Failing d j .read) : After d j p .bodyBack

/-- The parser thread while the reader is closed. -/
inductive Stopping : UserPc → ParserPc → List SaxCall → Prop where
  | wait (p : ParserPc) (t : List SaxCall) (h : p = .rootWait ∨ p = .headWait ∨ p = .bodyWait) : Stopping .stopping p t
  | woken (p : ParserPc) (t : List SaxCall) (h : p = .rootWoken ∨ p = .headWoken ∨ p = .bodyWoken) : Stopping .joining p t
  | over (u : UserPc) (hu : u = .stopping ∨ u = .joining) (p : ParserPc) (h : p = .run ∨ p = .failing ∨ p = .ended) :
      Stopping u p []
  | closed : Stopping .closed .ended []

/-- The calls that are finished have their results. -/
def LogOk (d : Doc) (log : List (ReadCall × Option (Option Nat × Option Nat))) : Prop :=
  ∀ i (h : i < log.length), (log[i]).2 = delivered d i (log[i]).1

theorem LogOk.snoc {d : Doc} {log : List (ReadCall × Option (Option Nat × Option Nat))} (h : LogOk d log) (c : ReadCall)
    (r : Option (Option Nat × Option Nat)) (hr : r = delivered d log.length c) : LogOk d (log ++ [(c, r)]) := by
  intro i hi
  by_cases hl : i < log.length
  · simp [List.getElem_append, hl, h i hl]
  · have : i = log.length := by simp at hi; omega
    subst this
    simp [hr]

/-- The states that can be reached, grouped by whose turn it is. -/
inductive Phase (d : Doc) (fin : Finish) : Reader → Prop where
  | opening (todo : List SaxCall) (u : UserPc) (ht : todo = tail d 0 ∨ todo = .endUnit :: tail d 0)
      (hu : u = .opening ∨ u = .openHolds ∨ u = .openWait) : Phase d fin { todo := todo, finish := fin, user := u }
  | root (u : UserPc) (hv : Valid d 0) (hu : u = .opening ∨ u = .openHolds ∨ u = .openWait) :
      Phase d fin { todo := inside d 0, finish := fin, started := 1, parser := .root, user := u }
  | turnOpen (u : UserPc) (hv : Valid d 0) (hu : u = .opening ∨ u = .openWoken) :
      Phase d fin { todo := inside d 0, finish := fin, started := 1, parser := .rootWait, waitRoot := false, user := u }
  | turnIdle (todo started p rr ptr hd ct log) (hp : Here d (List.length log) p rr todo started) (hl : LogOk d log) :
      Phase d fin { todo := todo, finish := fin, started := started, parser := p, readRoot := rr, waitRoot := false,
                    ptr := ptr, header := hd, content := ct, user := .idle, log := log }
  | turnHead (todo started p rr log c) (hp : Here d (List.length log) p rr todo started) (hl : LogOk d log) :
      Phase d fin { todo := todo, finish := fin, started := started, parser := p, readRoot := rr, waitRoot := false,
                    ptr := .current, user := .head c, log := log }
  | turnLock (todo started p rr log c) (hp : Here d (List.length log) p rr todo started) (hl : LogOk d log) :
      Phase d fin { todo := todo, finish := fin, started := started, parser := p, readRoot := rr, waitRoot := false,
                    wantHeader := true, ptr := .current, user := .headLock c, log := log }
  | woken (todo started p rr log c u) (hu : u = .headHolds c ∨ u = .headWait c)
      (hp : Here d (List.length log) p rr todo started) (hl : LogOk d log) :
      Phase d fin { todo := todo, finish := fin, started := started, parser := p.notified, readRoot := rr,
                    waitRoot := false, wantHeader := true, ptr := .current, user := u, log := log }
  | run (todo log c) (ha : Ahead d (List.length log) todo) (hl : LogOk d log) :
      Phase d fin { todo := todo, finish := fin, started := log.length, parser := .run, readRoot := true,
                    waitRoot := false, wantHeader := true, ptr := .current, user := .headWait c, log := log }
  | attributes (log c) (hv : Valid d (List.length log)) (hl : LogOk d log) :
      Phase d fin { todo := inside d log.length, finish := fin, started := log.length + 1, parser := .attributes,
                    readRoot := true, waitRoot := false, wantHeader := true, ptr := .current, user := .headWait c,
                    log := log }
  | head (log c) (hv : Valid d (List.length log)) (hl : LogOk d log) :
      Phase d fin { todo := inside d log.length, finish := fin, started := log.length + 1, parser := .head,
                    readRoot := true, waitRoot := false, wantHeader := true, ptr := .current,
                    header := some log.length, user := .headWait c, log := log }
  | ready (log c u) (hu : u = .headWoken c ∨ u = .headBack c) (hv : Valid d (List.length log)) (hl : LogOk d log) :
      Phase d fin { todo := inside d log.length, finish := fin, started := log.length + 1, parser := .headWait,
                    readRoot := true, waitRoot := false, wantHeader := true, ptr := .current,
                    header := some log.length, user := u, log := log }
  | body (log) (hv : Valid d (List.length log)) (hl : LogOk d log) :
      Phase d fin { todo := inside d log.length, finish := fin, started := log.length + 1, parser := .headWait,
                    readRoot := true, waitRoot := false, ptr := .null,
                    header := some log.length, user := .body, log := log }
  | bodyLock (log) (hv : Valid d (List.length log)) (hl : LogOk d log) :
      Phase d fin { todo := inside d log.length, finish := fin, started := log.length + 1, parser := .headWait,
                    readRoot := true, waitRoot := false, wantBody := true, ptr := .current,
                    header := some log.length, user := .bodyLock, log := log }
  | bodyGo (log u) (hu : u = .bodyHolds ∨ u = .bodyWait) (hv : Valid d (List.length log)) (hl : LogOk d log) :
      Phase d fin { todo := inside d log.length, finish := fin, started := log.length + 1, parser := .headWoken,
                    readRoot := true, waitRoot := false, wantBody := true, ptr := .current,
                    header := some log.length, user := u, log := log }
  | bodyRun (log) (hv : Valid d (List.length log)) (hl : LogOk d log) :
      Phase d fin { todo := inside d log.length, finish := fin, started := log.length + 1, parser := .run,
                    readRoot := true, waitRoot := false, wantBody := true, ptr := .current,
                    header := some log.length, user := .bodyWait, log := log }
  | bodyEnd (log) (hv : List.length log < d.units) (hl : LogOk d log) :
      Phase d fin { todo := tail d (log.length + 1), finish := fin, started := log.length + 1, parser := .body,
                    readRoot := true, waitRoot := false, wantBody := true, ptr := .current,
                    header := some log.length, content := some log.length, user := .bodyWait, log := log }
  | bodyReady (log u) (hu : u = .bodyWoken ∨ u = .bodyBack) (hv : List.length log < d.units) (hl : LogOk d log) :
      Phase d fin { todo := tail d (log.length + 1), finish := fin, started := log.length + 1, parser := .bodyWait,
                    readRoot := true, waitRoot := false, wantBody := true, ptr := .current,
                    header := some log.length, content := some log.length, user := u, log := log }
  | over (s : Reader) (hd : s.isDone = true) (ht : s.todo = []) (hx : s.terminate = false) (hc : s.crashed = false)
      (hp : s.parser = .run ∨ s.parser = .failing ∨ s.parser = .ended)
      (hu : After d s.log.length s.parser s.user) (hl : LogOk d s.log) : Phase d fin s
  | stop (s : Reader) (hx : s.terminate = true) (hc : s.crashed = false) (hs : Stopping s.user s.parser s.todo)
      (hl : LogOk d s.log) : Phase d fin s

theorem Finished.mono {d : Doc} {j k : Nat} (h : Finished d j) (hk : j ≤ k) : Finished d k :=
  fun i hi c => h i (by omega) c

theorem finished_of {d : Doc} {j : Nat} (h : d.units ≤ j) (h' : j = d.units → d.cut = true → d.complete = true) :
    Finished d j := by
  intro i hi c
  cases c <;> simp [delivered]
  · omega
  · refine ⟨by omega, fun h1 h2 => h' (by omega) h2⟩

theorem Finished.failing {d : Doc} {j : Nat} (h : Finished d j) (c : ReadCall) : Failing d j c :=
  ⟨h j (Nat.le_refl _) c, h.mono (by omega)⟩

theorem after_of_run {d : Doc} {j : Nat} {u : UserPc} (h : After d j .run u) (p : ParserPc) : After d j p u := by
  cases h <;> constructor <;> assumption

theorem after_notified {d : Doc} {j : Nat} {p : ParserPc} {u : UserPc} (h : After d j p u) (q : ParserPc) :
    After d j q u.notified := by
  cases h <;> constructor <;> assumption

theorem parser_step {d : Doc} {fin : Finish} (hf : d.complete = true ∨ fin = .failed)
    (h0 : d.complete = true ∨ Valid d 0) {s t : Reader} {f : Finish} (h : Phase d fin s) (hs : s.parserStep f = some t) :
    Phase d fin t := by
  cases h with
  | opening todo u ht hu =>
    rcases ht with ht | ht
    · subst ht
      rcases tail_cases d 0 (Nat.zero_le _) with ⟨hv, he⟩ | ⟨hk, hc, he⟩ | ⟨hk, hc, hx, he⟩
      · simp [Reader.parserStep, he] at hs
        subst hs
        exact .root u hv hu
      · have hfin : Finished d 0 := finished_of (by omega) (fun _ _ => hc)
        rcases hu with hu | hu | hu <;> subst hu <;>
          simp [Reader.parserStep, he, UserPc.holds, Reader.stopIf, UserPc.notified] at hs <;> subst hs
        · exact .over _ rfl rfl rfl rfl (Or.inl rfl) (.opening _ hfin) (by intro i hi; simp at hi)
        · exact .over _ rfl rfl rfl rfl (Or.inl rfl) (.openWoken _ hfin) (by intro i hi; simp at hi)
      · exfalso
        rcases h0 with h0 | h0
        · simp [hc] at h0
        · rcases h0 with h0 | ⟨_, h0, _⟩
          · omega
          · simp [hx] at h0
    · subst ht
      simp [Reader.parserStep, Reader.stopIf] at hs
      subst hs
      exact .opening _ u (Or.inl rfl) hu
  | root u hv hu =>
    rcases hu with hu | hu | hu <;> subst hu <;>
      simp [Reader.parserStep, UserPc.holds, Reader.stopIf, UserPc.notified] at hs <;> subst hs
    · exact .turnOpen _ hv (Or.inl rfl)
    · exact .turnOpen _ hv (Or.inr rfl)
  | turnOpen u hv hu => simp [Reader.parserStep] at hs
  | turnIdle todo started p rr ptr hd ct log hp hl => cases hp <;> simp [Reader.parserStep] at hs
  | turnHead todo started p rr log c hp hl => cases hp <;> simp [Reader.parserStep] at hs
  | turnLock todo started p rr log c hp hl => cases hp <;> simp [Reader.parserStep] at hs
  | woken todo started p rr log c u hu hp hl =>
    rcases hu with hu | hu <;> subst hu
    · cases hp <;> simp [Reader.parserStep, ParserPc.notified, UserPc.holds] at hs
    · cases hp with
      | root hj hv =>
        simp [Reader.parserStep, ParserPc.notified, UserPc.holds] at hs
        subst hs
        have := Phase.attributes (d := d) (fin := fin) log c (by rw [hj]; exact hv) hl
        rw [hj] at this
        exact this
      | head k hj hv =>
        simp [Reader.parserStep, ParserPc.notified, UserPc.holds, Reader.stopIf] at hs
        subst hs
        exact .run _ _ _ (.inside k hj hv) hl
      | body k hj hv =>
        simp [Reader.parserStep, ParserPc.notified, UserPc.holds, Reader.stopIf] at hs
        subst hs
        exact .run _ _ _ (.tail (by omega)) hl
  | run todo log c ha hl =>
    cases ha with
    | tail hj =>
      rcases tail_cases d _ hj with ⟨hv, he⟩ | ⟨hk, hc, he⟩ | ⟨hk, hc, hx, he⟩
      · simp [Reader.parserStep, he] at hs
        subst hs
        exact .attributes log c hv hl
      · simp [Reader.parserStep, he, UserPc.holds, Reader.stopIf, UserPc.notified] at hs
        subst hs
        have hfin : Finished d log.length := finished_of (by omega) (fun _ _ => hc)
        exact .over _ rfl rfl rfl rfl (Or.inl rfl) (.headWoken _ _ (hfin.failing c)) hl
      · have hff : fin = .failed := by
          rcases hf with hf | hf
          · simp [hc] at hf
          · exact hf
        subst hff
        simp [Reader.parserStep, he] at hs
        subst hs
        have hfin : Finished d log.length := finished_of (by omega) (fun _ hx' => by simp [hx] at hx')
        exact .over _ rfl rfl rfl rfl (Or.inr (Or.inl rfl)) (.headWait _ (hfin.failing c)) hl
    | inside k hj hv =>
      rcases inside_cases d k hv with ⟨hk, he⟩ | ⟨hk, hx, hc, he⟩
      · simp [Reader.parserStep, he, Reader.stopIf] at hs
        subst hs
        rw [← hj]
        exact .run _ _ _ (.tail (by omega)) hl
      · have hff : fin = .failed := by
          rcases hf with hf | hf
          · simp [hc] at hf
          · exact hf
        subst hff
        simp [Reader.parserStep, he] at hs
        subst hs
        have hfin : Finished d log.length := finished_of (by omega) (fun _ _ => by omega)
        exact .over _ rfl rfl rfl rfl (Or.inr (Or.inl rfl)) (.headWait _ (hfin.failing c)) hl
  | attributes log c hv hl =>
    simp [Reader.parserStep] at hs
    subst hs
    exact .head log c hv hl
  | head log c hv hl =>
    simp [Reader.parserStep, UserPc.holds, Reader.stopIf, UserPc.notified] at hs
    subst hs
    exact .ready log c _ (Or.inl rfl) hv hl
  | ready log c u hu hv hl => simp [Reader.parserStep] at hs
  | body log hv hl => simp [Reader.parserStep] at hs
  | bodyLock log hv hl => simp [Reader.parserStep] at hs
  | bodyGo log u hu hv hl =>
    rcases hu with hu | hu <;> subst hu <;>
      simp [Reader.parserStep, UserPc.holds, Reader.stopIf] at hs
    subst hs
    exact .bodyRun log hv hl
  | bodyRun log hv hl =>
    rcases inside_cases d _ hv with ⟨hk, he⟩ | ⟨hk, hx, hc, he⟩
    · simp [Reader.parserStep, he] at hs
      subst hs
      exact .bodyEnd log hk hl
    · have hff : fin = .failed := by
        rcases hf with hf | hf
        · simp [hc] at hf
        · exact hf
      subst hff
      simp [Reader.parserStep, he] at hs
      subst hs
      have hfin : Finished d (log.length + 1) := finished_of (by omega) (fun _ _ => by omega)
      exact .over _ rfl rfl rfl rfl (Or.inr (Or.inl rfl)) (.bodyWait ⟨by simp [delivered]; omega, hfin⟩) hl
  | bodyEnd log hv hl =>
    simp [Reader.parserStep, UserPc.holds, Reader.stopIf, UserPc.notified] at hs
    subst hs
    exact .bodyReady log _ (Or.inl rfl) hv hl
  | bodyReady log u hu hv hl => simp [Reader.parserStep] at hs
  | over s hd ht hx hc hp hu hl =>
    rcases hp with hp | hp | hp
    · rw [hp] at hu
      simp [Reader.parserStep, hp, ht] at hs
      split at hs
      · simp at hs
        subst hs
        exact .over _ rfl rfl hx hc (Or.inr (Or.inl rfl)) (after_of_run hu _) hl
      · simp at hs
        subst hs
        exact .over _ hd rfl hx hc (Or.inr (Or.inr rfl)) (after_of_run hu _) hl
    · simp [Reader.parserStep, hp] at hs
      subst hs
      exact .over _ hd ht hx hc (Or.inr (Or.inr rfl)) (after_notified hu _) hl
    · simp [Reader.parserStep, hp] at hs
  | stop s hx hc hst hl =>
    obtain ⟨todo, finish, started, parser, isDone, readRoot, wantHeader, wantBody, terminate, waitRoot, ptr, header,
      content, user, log, crashed⟩ := s
    simp only at hx hc hst hl
    subst hx hc
    cases hst with
    | wait p t h => rcases h with h | h | h <;> subst h <;> simp [Reader.parserStep] at hs
    | woken p t h =>
      rcases h with h | h | h <;> subst h <;>
        simp [Reader.parserStep, UserPc.holds, Reader.stopIf, Reader.stopParser] at hs <;> subst hs <;>
        exact .stop _ rfl rfl (.over _ (Or.inr rfl) _ (Or.inl rfl)) hl
    | over u hu p h =>
      rcases h with h | h | h
      · subst h
        simp [Reader.parserStep] at hs
        split at hs <;> simp at hs <;> subst hs
        · exact .stop _ rfl rfl (.over _ hu _ (Or.inr (Or.inl rfl))) hl
        · exact .stop _ rfl rfl (.over _ hu _ (Or.inr (Or.inr rfl))) hl
      · subst h
        simp [Reader.parserStep] at hs
        subst hs
        refine .stop _ rfl rfl (.over _ ?_ _ (Or.inr (Or.inr rfl))) hl
        rcases hu with hu | hu <;> subst hu <;> simp [UserPc.notified]
      · subst h; simp [Reader.parserStep] at hs
    | closed => simp [Reader.parserStep] at hs

theorem user_step {d : Doc} {fin : Finish} {s t : Reader} {ch : UserChoice} (h : Phase d fin s)
    (hs : s.userStep ch = some t) : Phase d fin t := by
  cases h with
  | opening todo u ht hu =>
    rcases hu with hu | hu | hu <;> subst hu <;> simp [Reader.userStep] at hs <;> subst hs
    · exact .opening _ _ ht (Or.inr (Or.inl rfl))
    · exact .opening _ _ ht (Or.inr (Or.inr rfl))
  | root u hv hu =>
    rcases hu with hu | hu | hu <;> subst hu <;> simp [Reader.userStep] at hs <;> subst hs
    · exact .root _ hv (Or.inr (Or.inl rfl))
    · exact .root _ hv (Or.inr (Or.inr rfl))
  | turnOpen u hv hu =>
    have h := Phase.turnIdle (d := d) (fin := fin) (inside d 0) 1 .rootWait false .null none none [] (.root rfl hv)
      (by intro i hi; simp at hi)
    rcases hu with hu | hu <;> subst hu <;> simp [Reader.userStep] at hs <;> subst hs <;> exact h
  | turnIdle todo started p rr ptr hd ct log hp hl =>
    cases ch with
    | call c =>
      simp [Reader.userStep] at hs
      subst hs
      exact .turnHead _ _ _ _ _ _ hp hl
    | close =>
      simp [Reader.userStep] at hs
      subst hs
      refine .stop _ rfl rfl ?_ hl
      cases hp <;> refine .wait _ _ (by simp)
  | turnHead todo started p rr log c hp hl =>
    simp [Reader.userStep] at hs
    subst hs
    exact .turnLock _ _ _ _ _ _ hp hl
  | turnLock todo started p rr log c hp hl =>
    simp [Reader.userStep] at hs
    subst hs
    exact .woken _ _ _ _ _ _ _ (Or.inl rfl) hp hl
  | woken todo started p rr log c u hu hp hl =>
    rcases hu with hu | hu <;> subst hu <;> simp [Reader.userStep] at hs
    subst hs
    exact .woken _ _ _ _ _ _ _ (Or.inr rfl) hp hl
  | run todo log c ha hl => simp [Reader.userStep] at hs
  | attributes log c hv hl => simp [Reader.userStep] at hs
  | head log c hv hl => simp [Reader.userStep] at hs
  | ready log c u hu hv hl =>
    rcases hu with hu | hu <;> subst hu
    · simp [Reader.userStep] at hs
      subst hs
      exact .ready _ _ _ (Or.inr rfl) hv hl
    · cases c with
      | skip =>
        simp [Reader.userStep, Reader.return] at hs
        subst hs
        have hl' := hl.snoc .skip (some (some log.length, none))
          (by rcases hv with hv | hv <;> simp [delivered, hv])
        have hh : Here d (List.length (log ++ [(ReadCall.skip, some (some log.length, none))])) .headWait true
            (inside d log.length) (log.length + 1) := by
          have := Here.head (d := d) (j := log.length + 1) log.length rfl hv
          simpa using this
        exact .turnIdle _ _ _ _ _ _ _ _ hh hl'
      | read =>
        simp [Reader.userStep] at hs
        subst hs
        exact .body _ hv hl
  | body log hv hl =>
    simp [Reader.userStep] at hs
    subst hs
    exact .bodyLock _ hv hl
  | bodyLock log hv hl =>
    simp [Reader.userStep] at hs
    subst hs
    exact .bodyGo _ _ (Or.inl rfl) hv hl
  | bodyGo log u hu hv hl =>
    rcases hu with hu | hu <;> subst hu <;> simp [Reader.userStep] at hs
    subst hs
    exact .bodyGo _ _ (Or.inr rfl) hv hl
  | bodyRun log hv hl => simp [Reader.userStep] at hs
  | bodyEnd log hv hl => simp [Reader.userStep] at hs
  | bodyReady log u hu hv hl =>
    rcases hu with hu | hu <;> subst hu
    · simp [Reader.userStep] at hs
      subst hs
      exact .bodyReady _ _ (Or.inr rfl) hv hl
    · simp [Reader.userStep, Reader.return] at hs
      subst hs
      have hl' := hl.snoc .read (some (some log.length, some log.length)) (by simp [delivered, hv])
      have hh : Here d (List.length (log ++ [(ReadCall.read, some (some log.length, some log.length))])) .bodyWait true
          (tail d (log.length + 1)) (log.length + 1) := by
        have := Here.body (d := d) (j := log.length + 1) log.length rfl hv
        simpa using this
      exact .turnIdle _ _ _ _ _ _ _ _ hh hl'
  | over s hd ht hx hc hp hu hl =>
    obtain ⟨todo, finish, started, parser, isDone, readRoot, wantHeader, wantBody, terminate, waitRoot, ptr, header,
      content, user, log, crashed⟩ := s
    simp only at hx hc hd ht hp hu hl
    subst hx hc hd ht
    have fail : ∀ c, Failing d log.length c → LogOk d (log ++ [(c, none)]) ∧ Finished d (log ++ [(c, none)]).length :=
      fun c hf => ⟨hl.snoc c none hf.1.symm, by simpa using hf.2⟩
    cases hu with
    | opening p h =>
      simp [Reader.userStep] at hs; subst hs
      exact .over _ rfl rfl rfl rfl hp (.idle _ h) hl
    | openWoken p h =>
      simp [Reader.userStep] at hs; subst hs
      exact .over _ rfl rfl rfl rfl hp (.idle _ h) hl
    | idle p h =>
      cases ch with
      | call c =>
        simp [Reader.userStep] at hs; subst hs
        exact .over _ rfl rfl rfl rfl hp (.head _ _ (h.failing c)) hl
      | close =>
        simp [Reader.userStep] at hs; subst hs
        exact .stop _ rfl rfl (.over _ (Or.inl rfl) _ hp) hl
    | head p c h =>
      cases c with
      | skip =>
        simp [Reader.userStep, Reader.return] at hs; subst hs
        exact .over _ rfl rfl rfl rfl hp (.idle _ (fail _ h).2) (fail _ h).1
      | read =>
        simp [Reader.userStep] at hs; subst hs
        exact .over _ rfl rfl rfl rfl hp (.body _ h) hl
    | headWait c h => simp [Reader.userStep] at hs
    | headWoken p c h =>
      simp [Reader.userStep] at hs; subst hs
      exact .over _ rfl rfl rfl rfl hp (.headBack _ _ h) hl
    | headBack p c h =>
      cases c with
      | skip =>
        simp [Reader.userStep, Reader.return] at hs; subst hs
        exact .over _ rfl rfl rfl rfl hp (.idle _ (fail _ h).2) (fail _ h).1
      | read =>
        simp [Reader.userStep] at hs; subst hs
        exact .over _ rfl rfl rfl rfl hp (.body _ h) hl
    | body p h =>
      simp [Reader.userStep, Reader.return] at hs; subst hs
      exact .over _ rfl rfl rfl rfl hp (.idle _ (fail _ h).2) (fail _ h).1
    | bodyWait h => simp [Reader.userStep] at hs
    | bodyWoken p h =>
      simp [Reader.userStep] at hs; subst hs
      exact .over _ rfl rfl rfl rfl hp (.bodyBack _ h) hl
    | bodyBack p h =>
      simp [Reader.userStep, Reader.return] at hs; subst hs
      exact .over _ rfl rfl rfl rfl hp (.idle _ (fail _ h).2) (fail _ h).1
  | stop s hx hc hst hl =>
    obtain ⟨todo, finish, started, parser, isDone, readRoot, wantHeader, wantBody, terminate, waitRoot, ptr, header,
      content, user, log, crashed⟩ := s
    simp only at hx hc hst hl
    subst hx hc
    cases hst with
    | wait p t h =>
      rcases h with h | h | h <;> subst h <;> simp [Reader.userStep, ParserPc.notified] at hs <;> subst hs <;>
        exact .stop _ rfl rfl (.woken _ _ (by simp)) hl
    | woken p t h => rcases h with h | h | h <;> subst h <;> simp [Reader.userStep] at hs
    | over u hu p h =>
      rcases hu with hu | hu <;> subst hu
      · simp [Reader.userStep] at hs
        subst hs
        refine .stop _ rfl rfl (.over _ (Or.inr rfl) _ ?_) hl
        rcases h with h | h | h <;> subst h <;> simp [ParserPc.notified]
      · rcases h with h | h | h <;> subst h <;> simp [Reader.userStep] at hs
        subst hs
        exact .stop _ rfl rfl .closed hl
    | closed => simp [Reader.userStep] at hs

theorem reach_phase {d : Doc} {fin : Finish} (textOnly : Bool) (hf : d.complete = true ∨ fin = .failed)
    (h0 : d.complete = true ∨ Valid d 0) {s : Reader}
    (h : Reach (Reader.start textOnly d.units d.cut d.complete fin) Reader.Step s) : Phase d fin s := by
  induction h with
  | start =>
    refine Phase.opening _ .opening ?_ (Or.inl rfl)
    cases textOnly
    · left; simp [saxCalls, tail]
    · right; simp [saxCalls, tail]
  | next _ hst ih =>
    cases hst with
    | parser f h => exact parser_step hf h0 ih h
    | user ch h => exact user_step ih h

def parserWeight : ParserPc → Nat
  | .run => 3 | .root => 15 | .rootWait => 5 | .rootWoken => 10 | .attributes => 9 | .head => 8 | .headWait => 2
  | .headWoken => 4 | .body => 15 | .bodyWait => 2 | .bodyWoken => 4 | .failing => 2 | .ended => 0

def userWeight : UserPc → Nat
  | .opening => 40 | .openHolds => 39 | .openWait => 37 | .openWoken => 38 | .idle => 0
  | .head _ => 35 | .headLock _ => 34 | .headHolds _ => 28 | .headWait _ => 26 | .headWoken _ => 27 | .headBack _ => 25
  | .body => 24 | .bodyLock => 23 | .bodyHolds => 17 | .bodyWait => 15 | .bodyWoken => 16 | .bodyBack => 14
  | .stopping => 10 | .joining => 4 | .closed => 0

def weight (s : Reader) : Nat := 20 * s.todo.length + parserWeight s.parser + userWeight s.user

theorem notified_user (u : UserPc) : userWeight u.notified ≤ userWeight u + 1 := by
  cases u <;> simp [UserPc.notified, userWeight]

theorem notified_parser (p : ParserPc) : parserWeight p.notified ≤ parserWeight p + 5 := by
  cases p <;> simp [ParserPc.notified, parserWeight]

theorem parser_weight {s t : Reader} {f : Finish} (h : s.parserStep f = some t) : weight t < weight s := by
  have hn := notified_user s.user
  cases hp : s.parser <;> simp only [Reader.parserStep, hp] at h
  case run =>
    cases ht : s.todo with
    | nil =>
      simp only [ht] at h
      split at h <;> simp at h <;> subst h <;> simp [weight, parserWeight, hp, ht]
    | cons a r =>
      cases a <;> simp only [ht] at h
      · simp at h; subst h
        cases s.readRoot <;> simp [weight, parserWeight, hp, ht] <;> omega
      · split at h
        · simp at h; subst h; simp [weight, parserWeight, hp, ht]; omega
        · simp at h; subst h
          cases hx : s.terminate <;> simp [Reader.stopIf, Reader.stopParser, weight, parserWeight, hp, ht, hx] <;> omega
      · split at h
        · simp at h
        · simp at h; subst h
          cases hx : s.terminate <;> simp [Reader.stopIf, Reader.stopParser, weight, parserWeight, hp, ht, hx] <;> omega
  case attributes =>
    simp at h; subst h
    cases s.wantHeader <;> simp [weight, parserWeight, hp] <;> omega
  case failing =>
    simp at h; subst h
    simp [weight, parserWeight, hp]; omega
  case rootWoken =>
    split at h
    · simp at h
    · split at h <;> simp at h <;> subst h <;> simp [weight, parserWeight, hp, Reader.stopParser] <;> omega
  all_goals first
    | (simp at h; done)
    | (split at h
       · simp at h
       · simp at h; subst h
         cases hx : s.terminate <;> simp [Reader.stopIf, Reader.stopParser, weight, parserWeight, hp, hx] <;> omega)

theorem user_weight {s t : Reader} {ch : UserChoice} (hb : busy s) (h : s.userStep ch = some t) :
    weight t < weight s := by
  have hn := notified_parser s.parser
  cases hu : s.user <;> simp only [Reader.userStep, hu] at h
  case idle => exact absurd hu hb.1
  case joining =>
    split at h
    · simp at h; subst h; simp [weight, userWeight, hu]
    · simp at h
  case head c =>
    split at h
    · cases c <;> simp [Reader.return] at h <;> subst h <;> simp [weight, userWeight, hu]
    · simp at h; subst h; simp [weight, userWeight, hu]
  case headBack c =>
    split at h <;> cases c <;> simp [Reader.return] at h <;> subst h <;> simp [weight, userWeight, hu]
  case opening =>
    split at h
    · simp at h; subst h; simp [weight, userWeight, hu]
    · split at h <;> simp at h <;> subst h <;> simp [weight, userWeight, hu]
  all_goals first
    | (simp at h; done)
    | (simp at h; subst h; simp [weight, userWeight, hu]; done)
    | (simp at h; subst h; simp [weight, userWeight, hu]; omega)
    | (split at h <;> simp [Reader.return] at h <;> subst h <;> simp [weight, userWeight, hu] <;> omega)

theorem step_weight {s t : Reader} (hb : busy s) (h : s.Step t) : weight t < weight s := by
  cases h with
  | parser f h => exact parser_weight h
  | user ch h => exact user_weight hb h

theorem by_parser {s : Reader} (h : s.parserStep .normal ≠ none) : ¬ stuck s := by
  intro hs
  obtain ⟨t, ht⟩ := Option.ne_none_iff_exists'.mp h
  exact hs t (.parser s t .normal ht)

theorem by_user {s : Reader} (h : s.userStep .close ≠ none) : ¬ stuck s := by
  intro hs
  obtain ⟨t, ht⟩ := Option.ne_none_iff_exists'.mp h
  exact hs t (.user s t .close ht)

theorem phase_progress {d : Doc} {fin : Finish} (hf : d.complete = true ∨ fin = .failed)
    (h0 : d.complete = true ∨ Valid d 0) {s : Reader} (h : Phase d fin s) (hb : busy s) : ¬ stuck s := by
  cases h with
  | opening todo u ht hu =>
    rcases hu with hu | hu | hu
    · subst hu; exact by_user (by simp [Reader.userStep])
    · subst hu; exact by_user (by simp [Reader.userStep])
    · subst hu
      apply by_parser
      rcases ht with ht | ht
      · subst ht
        rcases tail_cases d 0 (Nat.zero_le _) with ⟨hv, he⟩ | ⟨hk, hc, he⟩ | ⟨hk, hc, hx, he⟩
        · simp [Reader.parserStep, he]
        · simp [Reader.parserStep, he, UserPc.holds]
        · simp [Reader.parserStep, he]; split <;> simp
      · subst ht; simp [Reader.parserStep]
  | root u hv hu =>
    rcases hu with hu | hu | hu
    · subst hu; exact by_user (by simp [Reader.userStep])
    · subst hu; exact by_user (by simp [Reader.userStep])
    · subst hu; exact by_parser (by simp [Reader.parserStep, UserPc.holds])
  | turnOpen u hv hu =>
    rcases hu with hu | hu <;> subst hu <;> exact by_user (by simp [Reader.userStep])
  | turnIdle todo started p rr ptr hd ct log hp hl => exact absurd rfl hb.1
  | turnHead todo started p rr log c hp hl => exact by_user (by simp [Reader.userStep])
  | turnLock todo started p rr log c hp hl => exact by_user (by simp [Reader.userStep])
  | woken todo started p rr log c u hu hp hl =>
    rcases hu with hu | hu <;> subst hu
    · exact by_user (by simp [Reader.userStep])
    · cases hp <;> exact by_parser (by simp [Reader.parserStep, ParserPc.notified, UserPc.holds])
  | run todo log c ha hl =>
    apply by_parser
    cases ha with
    | tail hj =>
      rcases tail_cases d _ hj with ⟨hv, he⟩ | ⟨hk, hc, he⟩ | ⟨hk, hc, hx, he⟩
      · simp [Reader.parserStep, he]
      · simp [Reader.parserStep, he, UserPc.holds]
      · simp [Reader.parserStep, he]; split <;> simp
    | inside k hj hv =>
      rcases inside_cases d k hv with ⟨hk, he⟩ | ⟨hk, hx, hc, he⟩
      · simp [Reader.parserStep, he]
      · simp [Reader.parserStep, he]; split <;> simp
  | attributes log c hv hl => exact by_parser (by simp [Reader.parserStep])
  | head log c hv hl => exact by_parser (by simp [Reader.parserStep, UserPc.holds])
  | ready log c u hu hv hl =>
    rcases hu with hu | hu <;> subst hu <;> cases c <;> exact by_user (by simp [Reader.userStep])
  | body log hv hl => exact by_user (by simp [Reader.userStep])
  | bodyLock log hv hl => exact by_user (by simp [Reader.userStep])
  | bodyGo log u hu hv hl =>
    rcases hu with hu | hu <;> subst hu
    · exact by_user (by simp [Reader.userStep])
    · exact by_parser (by simp [Reader.parserStep, UserPc.holds])
  | bodyRun log hv hl =>
    apply by_parser
    rcases inside_cases d _ hv with ⟨hk, he⟩ | ⟨hk, hx, hc, he⟩
    · simp [Reader.parserStep, he]
    · simp [Reader.parserStep, he]; split <;> simp
  | bodyEnd log hv hl => exact by_parser (by simp [Reader.parserStep, UserPc.holds])
  | bodyReady log u hu hv hl =>
    rcases hu with hu | hu <;> subst hu <;> exact by_user (by simp [Reader.userStep])
  | over s hd ht hx hc hp hu hl =>
    obtain ⟨todo, finish, started, parser, isDone, readRoot, wantHeader, wantBody, terminate, waitRoot, ptr, header,
      content, user, log, crashed⟩ := s
    simp only at hx hc hd ht hp hu hl
    subst hx hc hd ht
    cases hu with
    | idle p h => exact absurd rfl hb.1
    | headWait c h => exact by_parser (by simp [Reader.parserStep])
    | bodyWait h => exact by_parser (by simp [Reader.parserStep])
    | head p c h => cases c <;> exact by_user (by simp [Reader.userStep])
    | headBack p c h => cases c <;> exact by_user (by simp [Reader.userStep])
    | opening p h => exact by_user (by simp [Reader.userStep])
    | openWoken p h => exact by_user (by simp [Reader.userStep])
    | headWoken p c h => exact by_user (by simp [Reader.userStep])
    | body p h => exact by_user (by simp [Reader.userStep])
    | bodyWoken p h => exact by_user (by simp [Reader.userStep])
    | bodyBack p h => exact by_user (by simp [Reader.userStep])
  | stop s hx hc hst hl =>
    obtain ⟨todo, finish, started, parser, isDone, readRoot, wantHeader, wantBody, terminate, waitRoot, ptr, header,
      content, user, log, crashed⟩ := s
    simp only at hx hc hst hl
    subst hx hc
    cases hst with
    | wait p t h => exact by_user (by simp [Reader.userStep])
    | woken p t h =>
      rcases h with h | h | h <;> subst h <;> exact by_parser (by simp [Reader.parserStep, UserPc.holds])
    | over u hu p h =>
      rcases h with h | h | h <;> subst h
      · exact by_parser (by simp [Reader.parserStep]; split <;> simp)
      · exact by_parser (by simp [Reader.parserStep])
      · rcases hu with hu | hu <;> subst hu <;> exact by_user (by simp [Reader.userStep])
    | closed => exact absurd rfl hb.2

theorem phase_safe {d : Doc} {fin : Finish} {s : Reader} (h : Phase d fin s) : s.crashed = false ∧ LogOk d s.log := by
  cases h with
  | opening => exact ⟨rfl, by intro i hi; simp at hi⟩
  | root => exact ⟨rfl, by intro i hi; simp at hi⟩
  | turnOpen => exact ⟨rfl, by intro i hi; simp at hi⟩
  | over => exact ⟨by assumption, by assumption⟩
  | stop => exact ⟨by assumption, by assumption⟩
  | _ => exact ⟨rfl, by assumption⟩

end ReaderProof
end Srcml
