import Verif.Props.Archive
import Verif.Proofs.Tables
set_option linter.unusedSimpArgs false
/-
C21 - C23 and the set-up part of C33.
-/
namespace Srcml
open Spec

/-! ### C21 namespaces -/

/-- What a call does to the namespace table. -/
theorem namespaces_step (a a' : Archive) (c : SetCall) (st : Status) (h : c.run a = .val (st, a')) :
    a'.namespaces = (match c with
      | .registerNamespace (some p) (some u) => registerNs a.namespaces p u
      | _ => a.namespaces) := by
  cases c with
  | registerNamespace p u =>
    cases p <;> cases u <;> simp only [SetCall.run, Run.val.injEq, Prod.mk.injEq] at h <;>
      obtain ⟨-, rfl⟩ := h <;> rfl
  | setProcessingInstruction t d =>
    cases t <;> cases d <;> simp only [SetCall.run, reduceCtorEq, Run.val.injEq, Prod.mk.injEq] at h
    obtain ⟨-, rfl⟩ := h; rfl
  | registerMacro t d =>
    cases t <;> cases d <;> simp only [SetCall.run, reduceCtorEq, Run.val.injEq, Prod.mk.injEq] at h <;>
      obtain ⟨-, rfl⟩ := h <;> rfl
  | setSrcdiffRevision n =>
    simp only [SetCall.run] at h
    split at h <;> simp only [Run.val.injEq, Prod.mk.injEq] at h <;> obtain ⟨-, rfl⟩ := h <;> rfl
  | _ =>
    simp only [SetCall.run, Run.val.injEq, Prod.mk.injEq] at h
    obtain ⟨-, rfl⟩ := h; rfl

theorem prefix_history (calls : List SetCall) (a a' : Archive) (h : runCalls a calls = .val a') (uri : Str) :
    (findUri a'.namespaces uri).map (·.prefix_) =
      (lastPrefix uri calls).or ((findUri a.namespaces uri).map (·.prefix_)) := by
  induction calls generalizing a with
  | nil => simp only [runCalls, Run.val.injEq] at h; subst h; simp [lastPrefix]
  | cons c cs ih =>
    simp only [runCalls] at h
    split at h
    · rename_i st a1 h1
      rw [ih a1 h, namespaces_step a a1 c st h1]
      simp only [lastPrefix]
      cases hl : lastPrefix uri cs with
      | some p => simp
      | none =>
        simp only [Option.none_or]
        have keep : ∀ {x : Option Str}, x = none →
            (findUri a.namespaces uri).map (·.prefix_) = x.or ((findUri a.namespaces uri).map (·.prefix_)) := by
          rintro _ rfl; simp
        cases c with
        | registerNamespace p u =>
          cases p with
          | none => cases u <;> exact keep rfl
          | some p =>
            cases u with
            | none => exact keep rfl
            | some u =>
              simp only []
              rw [registerNs_prefix]
              by_cases hu : uri = u
              · subst hu; simp
              · have : ¬ u = uri := fun e => hu e.symm
                simp [hu, this]
        | _ => exact keep rfl
    · simp at h

/-- C21: after any history of set-up calls on a new archive, looking up a uri gives the prefix
registered last for it; without a registration only the srcML namespace is known, with the empty
prefix. -/
theorem C21_prefix_lookup (calls : List SetCall) (a : Archive)
    (h : runCalls srcml_archive_create calls = .val a) (uri : Str) :
    srcml_archive_get_prefix_from_uri a (some uri) =
      (lastPrefix uri calls).or
        (if uri = "http://www.srcML.org/srcML/src".toList then some [] else none) := by
  show (findUri a.namespaces uri).map (·.prefix_) = _
  rw [prefix_history calls _ _ h uri]
  congr 1
  have e : srcml_archive_create.namespaces = startingNamespaces := rfl
  rw [e]
  by_cases hu : uri = SRC_NS_URI
  · have hu' : uri = "http://www.srcML.org/srcML/src".toList := hu
    rw [if_pos hu']
    simp only [findUri, startingNamespaces, List.find?_cons, hu, decide_true]
    rfl
  · have hu' : ¬ uri = "http://www.srcML.org/srcML/src".toList := hu
    have hu2 : ¬ SRC_NS_URI = uri := fun e => hu e.symm
    rw [if_neg hu']
    simp only [findUri, startingNamespaces, List.find?_cons, hu2, decide_false, List.find?_nil]
    rfl

theorem uris_history (calls : List SetCall) (a a' : Archive) (l : List Str)
    (hl : a.namespaces.map (·.uri) = firstOccurrences l)
    (h : runCalls a calls = .val a') :
    a'.namespaces.map (·.uri) = firstOccurrences (l ++ registeredUris calls) := by
  induction calls generalizing a l with
  | nil => simp only [runCalls, Run.val.injEq] at h; subst h; simpa [registeredUris] using hl
  | cons c cs ih =>
    simp only [runCalls] at h
    split at h
    · rename_i st a1 h1
      have hs := namespaces_step a a1 c st h1
      have keep : ∀ (_ : a1.namespaces = a.namespaces) (_ : registeredUris (c :: cs) = registeredUris cs),
          a'.namespaces.map (·.uri) = firstOccurrences (l ++ registeredUris (c :: cs)) := by
        intro e1 e2
        rw [e2]
        exact ih a1 l (by rw [e1]; exact hl) h
      cases c with
      | registerNamespace p u =>
        cases p with
        | none => exact keep hs (by cases u <;> rfl)
        | some p =>
          cases u with
          | none => exact keep hs rfl
          | some u =>
            have e1 : a1.namespaces.map (·.uri) = firstOccurrences (l ++ [u]) := by
              rw [hs]
              simp only []
              rw [registerNs_uris, hl, firstOccurrences_concat]
              simp only [mem_firstOccurrences]
            have := ih a1 (l ++ [u]) e1 h
            simpa [registeredUris] using this
      | _ => exact keep hs rfl
    · simp at h

/-- C21: enumeration. The uris of the table are those registered, each once, in the order of first
registration, after the srcML namespace; the size is their number and every position outside is
refused with NULL. -/
theorem C21_enumeration (calls : List SetCall) (a : Archive)
    (h : runCalls srcml_archive_create calls = .val a) :
    let uris := firstOccurrences ("http://www.srcML.org/srcML/src".toList :: registeredUris calls)
    srcml_archive_get_namespace_size a = uris.length ∧
    ∀ pos, srcml_archive_get_namespace_uri a pos = .val uris[pos]? := by
  intro uris
  have hu : a.namespaces.map (·.uri) = uris := by
    exact uris_history calls srcml_archive_create a [SRC_NS_URI] rfl h
  refine ⟨by rw [← hu]; simp [srcml_archive_get_namespace_size], fun pos => ?_⟩
  unfold srcml_archive_get_namespace_uri
  rw [← hu]
  split
  · rename_i hp
    congr 1
    symm
    rw [List.getElem?_eq_none_iff]
    simpa using hp
  · rename_i hp
    have hp' : pos < a.namespaces.length := by omega
    simp [hp']

/-- C21: no uri is listed twice. -/
theorem C21_uris_unique (calls : List SetCall) (a : Archive)
    (h : runCalls srcml_archive_create calls = .val a) (i j : Nat) (u : Str)
    (hi : srcml_archive_get_namespace_uri a i = .val (some u))
    (hj : srcml_archive_get_namespace_uri a j = .val (some u)) : i = j := by
  obtain ⟨-, he⟩ := C21_enumeration calls a h
  rw [he] at hi hj
  simp only [Run.val.injEq] at hi hj
  have hn := firstOccurrences_nodup ("http://www.srcML.org/srcML/src".toList :: registeredUris calls)
  have hi2 : i < (firstOccurrences ("http://www.srcML.org/srcML/src".toList :: registeredUris calls)).length := by
    apply Classical.byContradiction; intro hc
    rw [List.getElem?_eq_none (by omega)] at hi; simp at hi
  exact (List.getElem?_inj hi2 hn).mp (hi.trans hj.symm)

/-- C21: the prefix listed at a position of the table is the one that looking up the uri listed there
gives; positions beyond the size give NULL. -/
theorem C21_prefix_enumeration_partial (calls : List SetCall) (a : Archive)
    (h : runCalls srcml_archive_create calls = .val a) (pos : Nat) :
    (pos < srcml_archive_get_namespace_size a →
      ∃ u p, srcml_archive_get_namespace_uri a pos = .val (some u) ∧
        srcml_archive_get_namespace_prefix a pos = .val (some p) ∧
        srcml_archive_get_prefix_from_uri a (some u) = some p) ∧
    (pos > srcml_archive_get_namespace_size a → srcml_archive_get_namespace_prefix a pos = .val none) := by
  constructor
  · intro hp
    have hp' : pos < a.namespaces.length := hp
    have hg : a.namespaces[pos]? = some a.namespaces[pos] := List.getElem?_eq_getElem hp'
    have hn : (a.namespaces.map (·.uri)).Nodup := by
      rw [uris_history calls srcml_archive_create a [SRC_NS_URI] rfl h]
      exact firstOccurrences_nodup _
    refine ⟨a.namespaces[pos].uri, a.namespaces[pos].prefix_, ?_, ?_, ?_⟩
    · have : ¬ pos ≥ a.namespaces.length := by omega
      simp [srcml_archive_get_namespace_uri, this, hg]
    · have : ¬ pos > a.namespaces.length := by omega
      simp [srcml_archive_get_namespace_prefix, this, hg]
    · show (findUri a.namespaces _).map (·.prefix_) = _
      rw [findUri_of_getElem a.namespaces hn pos _ hg]
      rfl
  · intro hp
    have hp' : pos > a.namespaces.length := hp
    simp [srcml_archive_get_namespace_prefix, hp']

/-- C21 is false at the position just after the table: the prefix accessor, unlike the uri accessor,
reads beyond the end, for every archive. -/
theorem C21_finding_prefix_bound (a : Archive) :
    srcml_archive_get_namespace_prefix a (srcml_archive_get_namespace_size a) = .ub ∧
    srcml_archive_get_namespace_uri a (srcml_archive_get_namespace_size a) = .val none := by
  constructor
  · simp [srcml_archive_get_namespace_prefix, srcml_archive_get_namespace_size]
  · simp [srcml_archive_get_namespace_uri, srcml_archive_get_namespace_size]

/-- C21: looking up a prefix gives a uri whose registered prefix it is, and NULL only when no listed
namespace has it - whichever of several equal prefixes the hash index yields. -/
theorem C21_uri_lookup (pk : Pick) (calls : List SetCall) (a : Archive)
    (h : runCalls srcml_archive_create calls = .val a) (pre : Str) :
    (∀ u, srcml_archive_get_uri_from_prefix pk a (some pre) = some u →
      srcml_archive_get_prefix_from_uri a (some u) = some pre) ∧
    (srcml_archive_get_uri_from_prefix pk a (some pre) = none →
      ∀ u, srcml_archive_get_prefix_from_uri a (some u) ≠ some pre) := by
  have hn : (a.namespaces.map (·.uri)).Nodup := by
    rw [uris_history calls srcml_archive_create a [SRC_NS_URI] rfl h]
    exact firstOccurrences_nodup _
  constructor
  · intro u hu
    simp only [srcml_archive_get_uri_from_prefix, Option.map_eq_some_iff] at hu
    obtain ⟨n, hp, rfl⟩ := hu
    have hm := pk.sound _ _ hp
    simp only [List.mem_filter, decide_eq_true_eq] at hm
    obtain ⟨i, hi, he⟩ := List.mem_iff_getElem.mp hm.1
    have hg : a.namespaces[i]? = some n := by rw [List.getElem?_eq_getElem hi, he]
    show (findUri a.namespaces _).map (·.prefix_) = _
    rw [findUri_of_getElem _ hn i n hg]
    simp [hm.2]
  · intro hnone u hu
    simp only [srcml_archive_get_uri_from_prefix, Option.map_eq_none_iff] at hnone
    have hu' : (findUri a.namespaces u).map (·.prefix_) = some pre := hu
    simp only [Option.map_eq_some_iff] at hu'
    obtain ⟨n, hf, hpre⟩ := hu'
    have hmem : n ∈ a.namespaces.filter (fun n => n.prefix_ = pre) := by
      simp [List.mem_of_find?_eq_some hf, hpre]
    have := pk.total _ (List.ne_nil_of_mem hmem)
    rw [hnone] at this
    simp at this

/-- C21: "the first namespace for the given prefix", as documented, is not what is promised by the
container: with two uris under one prefix both answers are possible. -/
theorem C21_finding_ambiguous_prefix :
    ∃ (calls : List SetCall) (a : Archive) (p1 p2 : Pick),
      runCalls srcml_archive_create calls = .val a ∧
      srcml_archive_get_uri_from_prefix p1 a (some "p".toList) = some "u1".toList ∧
      srcml_archive_get_uri_from_prefix p2 a (some "p".toList) = some "u2".toList := by
  refine ⟨[.registerNamespace (some "p".toList) (some "u1".toList),
           .registerNamespace (some "p".toList) (some "u2".toList)], _,
    ⟨fun l => l.head?, fun l n h => List.mem_of_mem_head? (by simpa using h), fun l h => by
      cases l <;> simp at h ⊢⟩,
    ⟨fun l => l.getLast?, fun l n h => List.mem_of_getLast? h, fun l h => by
      cases l with
      | nil => simp at h
      | cons x xs => simp [List.getLast?_cons]⟩, rfl, ?_, ?_⟩
  · decide
  · decide

/-- C21: registering the preprocessor, position or error namespace enables the option. (The error
namespace's option is internal: see `OPTION_DEBUG`.) -/
theorem C21_enables_option (a a' : Archive) (p u : Str) (st : Status)
    (h : (SetCall.registerNamespace (some p) (some u)).run a = .val (st, a')) :
    st = .ok ∧
    (u = "http://www.srcML.org/srcML/cpp".toList → (srcml_archive_get_options a').getLsbD 3 = true) ∧
    (u = "http://www.srcML.org/srcML/position".toList → (srcml_archive_get_options a').getLsbD 2 = true) ∧
    (u = "http://www.srcML.org/srcML/error".toList → a'.options.getLsbD 11 = true) := by
  have hrun : runCalls a [.registerNamespace (some p) (some u)] = .val a' := by
    simp only [runCalls, h]
  have h3 := C19_options_history _ a a' hrun 3 (by decide)
  have h2 := C19_options_history _ a a' hrun 2 (by decide)
  refine ⟨?_, ?_, ?_, ?_⟩
  · simp only [SetCall.run, Run.val.injEq, Prod.mk.injEq] at h; exact h.1.symm
  · intro e
    rw [h3]; simp only [List.foldl_cons, List.foldl_nil, optionAfter, e, and_self, decide_true,
      Bool.or_true, Bool.true_or]
  · intro e
    rw [h2]; simp only [List.foldl_cons, List.foldl_nil, optionAfter, e, and_self, decide_true,
      Bool.or_true]
  · intro e
    have e' : u = ERROR_NS_URI := e
    simp only [SetCall.run, Run.val.injEq, Prod.mk.injEq] at h
    obtain ⟨-, rfl⟩ := h
    have hne : ¬ u = CPP_NS_URI := by rw [e']; exact uris_distinct.1
    simp only [registerNsOptions, if_neg hne, if_pos e']
    rw [or_bit, OPTION_DEBUG, pow_bit _ _ (by decide)]
    simp only [decide_true, Bool.or_true]

example : ∃ a, runCalls srcml_archive_create
    [.registerNamespace (some "x".toList) (some "u".toList),
     .registerNamespace (some "y".toList) (some "u".toList),
     .registerNamespace (some "s".toList) (some SRC_NS_URI)] = .val a ∧
    srcml_archive_get_namespace_size a = 2 ∧
    srcml_archive_get_prefix_from_uri a (some "u".toList) = some "y".toList := ⟨_, rfl, by decide, by decide⟩

/-! ### C22 macros -/

theorem macros_step (a a' : Archive) (c : SetCall) (st : Status) (h : c.run a = .val (st, a')) :
    a'.userMacroList = (match c with
      | .registerMacro (some t) (some y) => macroRegister a.userMacroList t y
      | _ => a.userMacroList) := by
  cases c with
  | registerNamespace p u =>
    cases p <;> cases u <;> simp only [SetCall.run, Run.val.injEq, Prod.mk.injEq] at h <;>
      obtain ⟨-, rfl⟩ := h <;> rfl
  | setProcessingInstruction t d =>
    cases t <;> cases d <;> simp only [SetCall.run, reduceCtorEq, Run.val.injEq, Prod.mk.injEq] at h
    obtain ⟨-, rfl⟩ := h; rfl
  | registerMacro t d =>
    cases t <;> cases d <;> simp only [SetCall.run, reduceCtorEq, Run.val.injEq, Prod.mk.injEq] at h <;>
      obtain ⟨-, rfl⟩ := h <;> rfl
  | setSrcdiffRevision n =>
    simp only [SetCall.run] at h
    split at h <;> simp only [Run.val.injEq, Prod.mk.injEq] at h <;> obtain ⟨-, rfl⟩ := h <;> rfl
  | _ =>
    simp only [SetCall.run, Run.val.injEq, Prod.mk.injEq] at h
    obtain ⟨-, rfl⟩ := h; rfl

theorem macros_history (calls : List SetCall) (a a' : Archive) (ps : List (Str × Str)) (l : List Str)
    (hp : a.userMacroList = flatten ps) (hl : ps.map (·.1) = firstOccurrences l)
    (h : runCalls a calls = .val a') :
    ∃ ps', a'.userMacroList = flatten ps' ∧
      ps'.map (·.1) = firstOccurrences (l ++ registeredMacros calls) ∧
      ∀ t, pairType t ps' = (lastMacroType t calls).or (pairType t ps) := by
  induction calls generalizing a l ps with
  | nil =>
    simp only [runCalls, Run.val.injEq] at h; subst h
    exact ⟨ps, hp, by simpa [registeredMacros] using hl, by simp [lastMacroType]⟩
  | cons c cs ih =>
    simp only [runCalls] at h
    split at h
    · rename_i st a1 h1
      have hs := macros_step a a1 c st h1
      have keep : ∀ (_ : a1.userMacroList = a.userMacroList)
          (_ : registeredMacros (c :: cs) = registeredMacros cs)
          (_ : ∀ t, lastMacroType t (c :: cs) = lastMacroType t cs),
          ∃ ps', a'.userMacroList = flatten ps' ∧
            ps'.map (·.1) = firstOccurrences (l ++ registeredMacros (c :: cs)) ∧
            ∀ t, pairType t ps' = (lastMacroType t (c :: cs)).or (pairType t ps) := by
        intro e1 e2 e3
        obtain ⟨ps', q1, q2, q3⟩ := ih a1 ps l (by rw [e1]; exact hp) hl h
        exact ⟨ps', q1, by rw [e2]; exact q2, fun t => by rw [e3]; exact q3 t⟩
      cases c with
      | registerMacro t y =>
        cases t with
        | none =>
          exact keep hs (by cases y <;> rfl)
            (fun t => by simp only [lastMacroType]; cases lastMacroType t cs <;> cases y <;> rfl)
        | some t =>
          cases y with
          | none => exact keep hs rfl (fun t => by simp only [lastMacroType]; cases lastMacroType t cs <;> rfl)
          | some y =>
            obtain ⟨ps', q1, q2, q3⟩ := ih a1 (pairRegister ps t y) (l ++ [t])
              (by rw [hs]; simp only []; rw [hp, macroRegister_flatten])
              (by rw [pairRegister_fst, hl, firstOccurrences_concat]; simp only [mem_firstOccurrences]) h
            refine ⟨ps', q1, by simpa [registeredMacros] using q2, fun v => ?_⟩
            rw [q3 v, pairType_register]
            simp only [lastMacroType]
            cases lastMacroType v cs with
            | some z => simp
            | none =>
              by_cases hv : v = t
              · subst hv; simp
              · have : ¬ t = v := fun e => hv e.symm
                simp [hv, this]
      | _ => exact keep hs rfl (fun t => by simp only [lastMacroType]; cases lastMacroType t cs <;> rfl)
    · simp at h

/-- C22: after any history of set-up calls on a new archive, the type of a macro name is the one
registered last, NULL without a registration. -/
theorem C22_macro_type (calls : List SetCall) (a : Archive)
    (h : runCalls srcml_archive_create calls = .val a) (token : Str) :
    srcml_archive_get_macro_token_type a (some token) = lastMacroType token calls := by
  obtain ⟨ps, q1, -, q3⟩ := macros_history calls srcml_archive_create a [] [] rfl rfl h
  have hq : macroTokenType token a.userMacroList = lastMacroType token calls := by
    rw [q1, macroTokenType_flatten, q3]; simp [pairType]
  unfold srcml_archive_get_macro_token_type
  simp only []
  split
  · rename_i hz
    rw [q1, flatten_length] at hz
    have : ps = [] := by
      cases ps with
      | nil => rfl
      | cons x xs => simp at hz
    rw [← hq, q1, this]
    simp [flatten, macroTokenType]
  · exact hq

/-- C22: enumeration. The names are listed once each, in order of first registration, with the type
registered last; the size is their number. Positions are 64-bit; the statement holds below 2^63. -/
theorem C22_macro_list_partial (calls : List SetCall) (a : Archive)
    (h : runCalls srcml_archive_create calls = .val a) :
    let names := firstOccurrences (registeredMacros calls)
    srcml_archive_get_macro_list_size a = names.length ∧
    (names.length < 2 ^ 63 → ∀ pos : BitVec 64, pos.toNat < 2 ^ 63 →
      srcml_archive_get_macro_token a pos = .val names[pos.toNat]? ∧
      srcml_archive_get_macro_type a pos =
        .val ((names[pos.toNat]?).bind (fun n => lastMacroType n calls))) := by
  intro names
  obtain ⟨ps, q1, q2, q3⟩ := macros_history calls srcml_archive_create a [] [] rfl rfl h
  have hlen : ps.length = names.length := by
    have := congrArg List.length q2
    simpa using this
  refine ⟨by simp [srcml_archive_get_macro_list_size, q1, flatten_length]; omega, ?_⟩
  intro hsmall pos hpos
  have e1 : (pos * 2#64).toNat = 2 * pos.toNat := by
    rw [BitVec.toNat_mul]
    have : (2#64).toNat = 2 := rfl
    rw [this]; omega
  have e2 : (pos * 2#64 + 1#64).toNat = 2 * pos.toNat + 1 := by
    rw [BitVec.toNat_add, e1]
    have : (1#64).toNat = 1 := rfl
    rw [this]; omega
  have hget : names[pos.toNat]? = (ps[pos.toNat]?).map (·.1) := by
    have : names = ps.map (·.1) := by rw [q2]; simp [names]
    rw [this, List.getElem?_map]
  constructor
  · simp only [srcml_archive_get_macro_token, e1, q1, flatten_length, flatten_even, hget]
    split
    · rename_i hp
      rw [List.getElem?_eq_none (by omega)]; rfl
    · rename_i hp
      have hp' : pos.toNat < ps.length := by omega
      simp [hp']
  · simp only [srcml_archive_get_macro_type, e2, q1, flatten_length, flatten_odd, hget]
    split
    · rename_i hp
      rw [List.getElem?_eq_none (by omega)]; rfl
    · rename_i hp
      have hp' : pos.toNat < ps.length := by omega
      have hnd : (ps.map (·.1)).Nodup := by rw [q2]; exact firstOccurrences_nodup _
      have hfind : pairType (ps[pos.toNat]).1 ps = some (ps[pos.toNat]).2 := by
        have : ∀ (l : List (Str × Str)), (l.map (·.1)).Nodup → ∀ (i : Nat) (hi : i < l.length),
            pairType (l[i]).1 l = some (l[i]).2 := by
          intro l
          induction l with
          | nil => intro _ i hi; simp at hi
          | cons x xs ihx =>
            intro hn i hi
            simp only [List.map_cons, List.nodup_cons] at hn
            cases i with
            | zero => simp [pairType]
            | succ k =>
              have hk : k < xs.length := by simpa using hi
              have hne : ¬ x.1 = (xs[k]).1 := by
                intro e
                exact hn.1 (by rw [e]; exact List.mem_map_of_mem (List.getElem_mem hk))
              have := ihx hn.2 k hk
              simpa [pairType, hne] using this
        exact this ps hnd pos.toNat hp'
      rw [q3] at hfind
      simp [pairType] at hfind
      simp [hp', hfind]

/-- C22 is false beyond 2^63: the doubled position wraps around and a position far outside the list
gives the first macro. -/
theorem C22_finding_position_wraps :
    ∃ a, runCalls srcml_archive_create [.registerMacro (some "M".toList) (some "src:macro".toList)] = .val a ∧
      srcml_archive_get_macro_list_size a = 1 ∧
      srcml_archive_get_macro_token a (BitVec.ofNat 64 (2 ^ 63)) = .val (some "M".toList) :=
  ⟨_, rfl, by decide, by decide⟩

example : ∃ a, runCalls srcml_archive_create
    [.registerMacro (some "A".toList) (some "t1".toList), .registerMacro (some "B".toList) (some "t2".toList),
     .registerMacro (some "A".toList) (some "t3".toList)] = .val a ∧
    srcml_archive_get_macro_list_size a = 2 ∧
    srcml_archive_get_macro_token_type a (some "A".toList) = some "t3".toList :=
  ⟨_, rfl, by decide, by
    simp [srcml_archive_get_macro_token_type, srcml_archive_create, macroRegister, macroSlot, macroTokenType]⟩

/-! ### C23 clone -/

/-- Everything the configuration accessors report about an archive. -/
structure SameConfiguration (a b : Archive) : Prop where
  srcEncoding : a.srcEncoding = b.srcEncoding
  xmlEncoding : a.encoding = b.encoding
  revision : a.revision = b.revision
  language : a.language = b.language
  url : a.url = b.url
  version : a.version = b.version
  attributes : a.attributes = b.attributes
  options : srcml_archive_get_options a = srcml_archive_get_options b
  solitary : srcml_archive_is_solitary_unit (some a) = srcml_archive_is_solitary_unit (some b)
  hash : srcml_archive_has_hash (some a) = srcml_archive_has_hash (some b)
  tabstop : a.tabstop = b.tabstop
  namespaceSize : srcml_archive_get_namespace_size a = srcml_archive_get_namespace_size b
  namespaceUri : ∀ pos, srcml_archive_get_namespace_uri a pos = srcml_archive_get_namespace_uri b pos
  namespacePrefix : ∀ pos, srcml_archive_get_namespace_prefix a pos = srcml_archive_get_namespace_prefix b pos
  instruction : a.processingInstruction = b.processingInstruction
  macroSize : srcml_archive_get_macro_list_size a = srcml_archive_get_macro_list_size b
  macroToken : ∀ pos, srcml_archive_get_macro_token a pos = srcml_archive_get_macro_token b pos
  macroType : ∀ pos, srcml_archive_get_macro_type a pos = srcml_archive_get_macro_type b pos
  extension : ∀ f, srcml_archive_check_extension a.registeredLanguages f =
    srcml_archive_check_extension b.registeredLanguages f
  srcdiffRevision : srcml_archive_get_srcdiff_revision a = srcml_archive_get_srcdiff_revision b

/-- C23: cloning gives a new archive with the configuration of the original, closed and without
error, and changes no archive that existed. -/
theorem C23_clone (w : World) (i : Addr) (a : Archive) (hi : w.archives[i]? = some a) :
    ∃ w' n b, w.clone (some i) = (w', some n) ∧ w'.archives[n]? = some b ∧
      (∀ j c, w.archives[j]? = some c → j ≠ n ∧ w'.archives[j]? = some c) ∧
      SameConfiguration a b ∧
      b.type = .invalid ∧ b.translator = none ∧ b.reader = none ∧ b.outputBuffer = none ∧
      b.buffer = none ∧ b.rawwrites = false ∧ b.errorNumber = 0 ∧ b.errorString = [] ∧
      w'.transformsOf n = w'.transformsOf i ∧ w'.transformsOf i = w.transformsOf i := by
  have hl : i < w.archives.length := (List.getElem?_eq_some_iff.mp hi).1
  refine ⟨{ w with archives := w.archives ++ [cloneOf a] }, w.archives.length, cloneOf a, ?_, ?_, ?_,
    ⟨rfl, rfl, rfl, rfl, rfl, rfl, rfl, rfl, rfl, rfl, rfl, rfl, fun _ => rfl, fun _ => rfl, rfl, rfl,
      fun _ => rfl, fun _ => rfl, fun _ => rfl, rfl⟩, rfl, rfl, rfl, rfl, rfl, rfl, rfl, rfl, ?_, ?_⟩
  · simp [World.clone, hi]
  · simp
  · intro j c hj
    have hjl : j < w.archives.length := (List.getElem?_eq_some_iff.mp hj).1
    refine ⟨Nat.ne_of_lt hjl, ?_⟩
    simp only []
    rw [List.getElem?_append_left hjl]; exact hj
  · simp only [World.transformsOf]
    rw [List.getElem?_append_left hl, hi]
    simp [cloneOf]
  · simp only [World.transformsOf]
    rw [List.getElem?_append_left hl, hi]

/-- C23: cloning nothing gives nothing. -/
theorem C23_clone_null (w : World) : w.clone none = (w, none) := rfl

/-- C23: a set-up call on one archive leaves every other archive as it was; with `C23_clone` this is
the independence of clone and original, in both directions, under any further set-up calls. -/
theorem C23_independent_setup (w w' : World) (i j : Addr) (c : SetCall) (st : Status) (hij : i ≠ j)
    (h : w.setup i c = .val (st, w')) :
    w'.archives[j]? = w.archives[j]? ∧ w'.transformsOf j = w.transformsOf j := by
  unfold World.setup at h
  split at h
  · simp at h; obtain ⟨-, rfl⟩ := h; exact ⟨rfl, rfl⟩
  · split at h
    · simp at h; obtain ⟨-, rfl⟩ := h
      have e : ∀ x, (w.archives.set i x)[j]? = w.archives[j]? := fun x => List.getElem?_set_ne hij
      simp only [World.transformsOf, e]
      exact ⟨trivial, trivial⟩
    · simp at h

/-- The same for appending and clearing transformations. -/
theorem C23_independent_transforms_partial (w : World) (i j : Addr) (hij : i ≠ j) (t : Transformation)
    (hj : ∀ a, w.archives[j]? = some a → ∀ p ∈ a.transformations, p < w.transforms.length) :
    (w.pushTransform i t).transformsOf j = w.transformsOf j ∧
    (w.clearTransforms i).2.transformsOf j = w.transformsOf j := by
  constructor
  · unfold World.pushTransform
    split
    · rfl
    · rename_i a ha
      simp only [World.transformsOf, List.getElem?_set_ne hij]
      cases hja : w.archives[j]? with
      | none => rfl
      | some b =>
        simp only []
        have := hj b hja
        generalize b.transformations = l at this
        induction l with
        | nil => rfl
        | cons p l ih =>
          rw [List.filterMap_cons, List.filterMap_cons,
            List.getElem?_append_left (this p List.mem_cons_self),
            ih (fun q hq => this q (List.mem_cons_of_mem _ hq))]
  · unfold World.clearTransforms
    split
    · rfl
    · simp only [World.transformsOf, List.getElem?_set_ne hij]

/-- C23 is false for transformation parameters: they are added to an object that clone and original
share, so a parameter given to the clone is also applied by the original. -/
theorem C23_finding_shared_transformation :
    ∃ (w w1 w2 : World) (i n : Addr) (st : Status),
      w.clone (some i) = (w1, some n) ∧ i ≠ n ∧
      w1.appendParam n false (some "p".toList) (some "v".toList) = (st, w2) ∧ st = .ok ∧
      w1.transformsOf i = [⟨.xslt "s".toList, []⟩] ∧
      w2.transformsOf i = [⟨.xslt "s".toList, ["p".toList, "v".toList]⟩] := by
  refine ⟨(World.appendDoc { archives := [srcml_archive_create] } 0 true (some "s".toList)).2,
    _, _, 0, 1, _, rfl, by decide, rfl, rfl, rfl, rfl⟩

example : ∃ a : Archive, (({ archives := [srcml_archive_create] } : World).archives[0]?) = some a := ⟨_, rfl⟩

/-! ### C33 arguments of the set-up calls -/

/-- C33: every set-up call on a missing archive is refused. -/
theorem C33_setup_null_archive (c : SetCall) : c.runPtr none = .val (.invalidArgument, none) := rfl

/-- C33: a set-up call with a missing argument is refused and changes nothing, except
`set_processing_instruction` (see the finding). -/
theorem C33_setup_missing_argument_partial (a : Archive) (c : SetCall) (hm : MissingArgument c)
    (hpi : ∀ t d, c ≠ .setProcessingInstruction t d) : c.run a = .val (.invalidArgument, a) := by
  cases c with
  | registerExtension e l => cases e <;> cases l <;> simp [MissingArgument] at hm <;> rfl
  | registerNamespace e l => cases e <;> cases l <;> simp [MissingArgument] at hm <;> rfl
  | registerMacro e l => cases e <;> cases l <;> simp [MissingArgument] at hm <;> rfl
  | setProcessingInstruction t d => exact absurd rfl (hpi t d)
  | _ => exact absurd hm id

/-- C33: a set-up call that does not return OK changes nothing. -/
theorem C33_setup_refused_unchanged (a a' : Archive) (c : SetCall) (st : Status)
    (h : c.run a = .val (st, a')) (hst : st ≠ .ok) : a' = a := by
  cases c with
  | registerNamespace p u =>
    cases p <;> cases u <;> simp only [SetCall.run, Run.val.injEq, Prod.mk.injEq] at h <;>
      obtain ⟨rfl, rfl⟩ := h <;> first | rfl | exact absurd rfl hst
  | setProcessingInstruction t d =>
    cases t <;> cases d <;> simp only [SetCall.run, reduceCtorEq, Run.val.injEq, Prod.mk.injEq] at h
    obtain ⟨rfl, rfl⟩ := h; exact absurd rfl hst
  | registerMacro t d =>
    cases t <;> cases d <;> simp only [SetCall.run, reduceCtorEq, Run.val.injEq, Prod.mk.injEq] at h <;>
      obtain ⟨rfl, rfl⟩ := h <;> first | rfl | exact absurd rfl hst
  | setSrcdiffRevision n =>
    simp only [SetCall.run] at h
    split at h <;> simp only [Run.val.injEq, Prod.mk.injEq] at h <;> obtain ⟨rfl, rfl⟩ := h <;>
      first | rfl | exact absurd rfl hst
  | registerExtension e l =>
    simp only [SetCall.run, Run.val.injEq, Prod.mk.injEq] at h
    obtain ⟨rfl, rfl⟩ := h
    suffices (srcml_archive_register_file_extension a.registeredLanguages e l).2 = a.registeredLanguages by
      rw [this]
    unfold srcml_archive_register_file_extension at hst ⊢
    split
    · rename_i e l
      simp only [Registry.register] at hst ⊢
      by_cases hz : getLanguage l = 0
      · simp [hz]
      · simp [hz] at hst
    · rfl
  | _ =>
    simp only [SetCall.run, Run.val.injEq, Prod.mk.injEq] at h
    obtain ⟨rfl, rfl⟩ := h
    exact absurd rfl hst

/-- C33: a srcDiff revision other than 0 and 1 is refused. -/
theorem C33_srcdiff_revision (a : Archive) (n : Nat) :
    (∃ a', (SetCall.setSrcdiffRevision n).run a = .val (.ok, a')) ↔ (n = 0 ∨ n = 1) := by
  simp only [SetCall.run]
  constructor
  · rintro ⟨a', h⟩
    split at h
    · simp at h
    · omega
  · intro h
    rw [if_neg (by omega)]
    exact ⟨_, rfl⟩

/-- C33 is false for the processing instruction: a missing target or data is not refused but
dereferenced; so are a missing archive in the two queries and others listed in DESIGN.md. -/
theorem C33_finding_processing_instruction (a : Archive) (t d : Option Str) (h : t = none ∨ d = none) :
    (SetCall.setProcessingInstruction t d).run a = .ub ∧
    srcml_archive_is_solitary_unit none = .ub ∧ srcml_archive_has_hash none = .ub := by
  refine ⟨?_, rfl, rfl⟩
  rcases h with rfl | rfl
  · cases d <;> rfl
  · cases t <;> rfl

example : MissingArgument (.registerMacro (some []) none) := by simp [MissingArgument]

end Srcml
