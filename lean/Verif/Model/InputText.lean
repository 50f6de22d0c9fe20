import Verif.Model.InputName
/-
The `--text` input of the command: escapes and NUL separators.  Bytes are characters with a code below 256.
-/
namespace Srcml

/-- `hex2decimal`, src/client/src_input_text.cpp:30-47. -/
def hex2decimal (c : Char) : Nat :=
  if c = 'a' ∨ c = 'A' then 10 else if c = 'b' ∨ c = 'B' then 11 else if c = 'c' ∨ c = 'C' then 12
  else if c = 'd' ∨ c = 'D' then 13 else if c = 'e' ∨ c = 'E' then 14 else if c = 'f' ∨ c = 'F' then 15
  else c.toNat - '0'.toNat

/-- `isodigit`, src/client/src_input_text.cpp:49-51. -/
def isodigit (c : Char) : Bool := decide ('0' ≤ c ∧ c ≤ '7')

/-- `isxdigit` of the C library, as used in src/client/src_input_text.cpp:131. -/
def isxdigit (c : Char) : Bool := decide (('0' ≤ c ∧ c ≤ '9') ∨ ('a' ≤ c ∧ c ≤ 'f') ∨ ('A' ≤ c ∧ c ≤ 'F'))

/-- The value of the digits read by the loops of src/client/src_input_text.cpp:131-134 and 184-187. -/
def digitsValue (base : Nat) (digit : Char → Nat) : Str → Nat → Nat
  | [], v => v
  | c :: cs, v => digitsValue base digit cs (digit c + base * v)

/-- The escapes that stand for one fixed character, src/client/src_input_text.cpp:98-123. -/
def simpleEscape (c : Char) : Option Char :=
  if c = 'n' then some '\n' else if c = 't' then some '\t' else if c = 'f' then some (Char.ofNat 12)
  else if c = 'a' then some (Char.ofNat 7) else if c = 'b' then some (Char.ofNat 8)
  else if c = 'e' then some (Char.ofNat 27) else if c = 'r' then some '\r'
  else if c = 'v' then some (Char.ofNat 11) else none

/-- One escape, from the character after the backslash on, src/client/src_input_text.cpp:96-208: what is appended to
the buffer (`none` for the end of the unit), and the text that follows. A number is stored in a `char`. -/
def escapeAt (c : Char) (r : Str) : Option Str × Str :=
  match simpleEscape c with
  | some x => (some [x], r)
  | none =>
    if c = 'x' then
      let ds := (r.take 2).takeWhile isxdigit
      if ds = [] then (some ['\\', 'x'], r)
      else if digitsValue 16 hex2decimal ds 0 = 0 then (none, r.drop ds.length)
      else (some [Char.ofNat (digitsValue 16 hex2decimal ds 0)], r.drop ds.length)
    else if isodigit c then
      let ds := if c = '0' then (r.take 3).takeWhile isodigit else c :: (r.take 2).takeWhile isodigit
      let rest := if c = '0' then r.drop ds.length else r.drop (ds.length - 1)
      let value := digitsValue 8 (fun d => d.toNat - '0'.toNat) ds 0
      if value = 0 then (none, rest) else (some [Char.ofNat (value % 256)], rest)
    else (some ['\\', c], r)

theorem escapeAt_length (c : Char) (r : Str) : (escapeAt c r).2.length ≤ r.length := by
  unfold escapeAt
  split
  · exact Nat.le_refl _
  · split
    · simp only
      split
      · exact Nat.le_refl _
      · split <;> simp
    · split
      · simp only
        split <;> split <;> simp
      · exact Nat.le_refl _

/-- The inner loop, src/client/src_input_text.cpp:82-216: the buffer of one unit, and the text of the next units if the
unit was ended by an escaped NUL. A backslash at the end of the text moves past the end of the string. -/
def textUnit : Str → Str → Run (Str × Option Str)
  | [], buffer => .val (buffer, none)
  | c :: cs, buffer =>
    if c ≠ '\\' then textUnit cs (buffer ++ [c])
    else match cs with
      | [] => .ub
      | e :: r =>
        match (escapeAt e r).1 with
        | none => .val (buffer, some (escapeAt e r).2)
        | some s => textUnit (escapeAt e r).2 (buffer ++ s)
termination_by t => t.length
decreasing_by
  · simp
  · have := escapeAt_length e r
    simp at this ⊢; omega

theorem textUnit_nil (b : Str) : textUnit [] b = .val (b, none) := by rw [textUnit.eq_def]
theorem textUnit_plain (c : Char) (cs b : Str) (h : c ≠ '\\') : textUnit (c :: cs) b = textUnit cs (b ++ [c]) := by
  rw [textUnit.eq_def]; simp [h]
theorem textUnit_dangling (b : Str) : textUnit ['\\'] b = .ub := by
  rw [textUnit.eq_def]; simp
theorem textUnit_escape (e : Char) (r b : Str) : textUnit ('\\' :: e :: r) b =
    match (escapeAt e r).1 with
    | none => .val (b, some (escapeAt e r).2)
    | some s => textUnit (escapeAt e r).2 (b ++ s) := by
  rw [textUnit.eq_def]; simp

theorem textUnit_length (n : Nat) : ∀ (t b : Str) (u rest : Str), t.length = n → textUnit t b = .val (u, some rest) →
    rest.length < t.length := by
  induction n using Nat.strongRecOn with
  | _ n ih =>
    intro t b u rest hn h
    cases t with
    | nil => rw [textUnit_nil] at h; simp at h
    | cons c cs =>
      by_cases hc : c = '\\'
      · subst hc
        cases cs with
        | nil => rw [textUnit_dangling] at h; simp at h
        | cons e r =>
          have hl := escapeAt_length e r
          rw [textUnit_escape] at h
          split at h
          · simp at h; obtain ⟨_, rfl⟩ := h
            simp; omega
          · have := ih (escapeAt e r).2.length (by simp at hn; omega) (escapeAt e r).2 _ _ _ rfl h
            simp; omega
      · rw [textUnit_plain _ _ _ hc] at h
        have := ih cs.length (by simp at hn; omega) cs _ _ _ rfl h
        simp; omega

/-- The outer loop, src/client/src_input_text.cpp:62-222: the buffers of the parse requests, in the order they are
scheduled. The other fields of the requests are the same for all of them. -/
def textUnits (text : Str) : Run (List Str) :=
  match _h : textUnit text [] with
  | .ub => .ub
  | .val (u, none) => .val [u]
  | .val (u, some rest) =>
    match textUnits rest with
    | .ub => .ub
    | .val us => .val (u :: us)
termination_by text.length
decreasing_by exact textUnit_length _ _ _ _ _ rfl _h

/-- `src_input_text`, src/client/src_input_text.cpp:54-226, from the resource of the input: the text of the units, and
whether the archive is switched to more than one unit. -/
def src_input_text (resource : Str) : Run (List Str × Bool) :=
  match textUnits ((src_prefix_resource resource).takeWhile (fun c => c ≠ Char.ofNat 0)) with
  | .ub => .ub
  | .val us => .val (us, decide (1 < us.length))

end Srcml
