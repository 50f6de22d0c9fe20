import Verif.Model.Basic
/-
The buffer of libxml2 moves while it reads: how the pointer into it is kept right.
-/
namespace Srcml

/-- The input of libxml2, `ctxt->input`: the text of the document, the address of the buffer (`base`), the number of characters of the document that are gone from its front (`consumed`), and the place in the document up to which it is read
(`cur`). The character of the document at the place `p` is at the address `base + (p - consumed)`. src/libsrcml/sax2_srcsax_handler.cpp:95-103. -/
structure InputBuffer where
  doc : Str
  base : Int
  consumed : Nat
  cur : Nat
  deriving DecidableEq, Repr

/-- The address of a place in the document, src/libsrcml/sax2_srcsax_handler.cpp:95-103. -/
def InputBuffer.address (b : InputBuffer) (p : Nat) : Int := b.base + (p - b.consumed)

/-- `base`, `prevbase` and `prevconsumed` of the handler, src/libsrcml/sax2_srcsax_handler.cpp:95-103, 187-189. -/
structure BasePointer where
  base : Int
  prevbase : Int
  prevconsumed : Nat
  deriving DecidableEq, Repr

/-- `start_document`, src/libsrcml/sax2_srcsax_handler.cpp:186-189. -/
def BasePointer.start (b : InputBuffer) : BasePointer := { base := b.address b.cur, prevbase := b.base, prevconsumed := b.consumed }

/-- `update_ctx`, src/libsrcml/sax2_srcsax_handler.cpp:86-104. The numbers do not overflow. -/
def BasePointer.update (s : BasePointer) (b : InputBuffer) : BasePointer :=
  let base := if s.prevconsumed ≠ b.consumed then s.base - ((b.consumed : Int) - s.prevconsumed) else s.base
  let base := if s.prevbase ≠ b.base then base + (b.base - s.prevbase) else base
  { base := base, prevbase := b.base, prevconsumed := b.consumed }

/-- `state->base = ctxt->input->cur + k`, src/libsrcml/sax2_srcsax_handler.cpp:490, 651, 695, 745, 799, 805, 844, 880, 912. -/
def BasePointer.set (s : BasePointer) (b : InputBuffer) (k : Nat) : BasePointer := { s with base := b.address b.cur + k }

/-- `std::string(base, cur - base)`, src/libsrcml/sax2_srcsax_handler.cpp:273, 636, 690, 804, 875, 910: not defined if a part of it is not in the buffer, or if `base` is behind `cur`. -/
def BasePointer.text (s : BasePointer) (b : InputBuffer) : Run Str :=
  if s.base < b.base ∨ b.address b.cur < s.base then .ub
  else .val ((b.doc.drop (b.consumed + (s.base - b.base).toNat)).take (b.address b.cur - s.base).toNat)

/-- What happens to the buffer and to the handler; `out` is the text that the handler has put together. libxml2 moves the buffer and takes text from its front, which has been read (`move`); it reads (`read`); the handler is called for text that it
takes (`take`, src/libsrcml/sax2_srcsax_handler.cpp:617-651, 676-695, 867-880, 904-912), or that it does not, setting its pointer anew (`skip`: 740-745, 832-844), or that it leaves for the next call (`leave`: 228, 770-780). -/
inductive BufferStep : InputBuffer × BasePointer × Str → InputBuffer × BasePointer × Str → Prop where
  | move {b s out} (base : Int) (consumed : Nat) : b.consumed ≤ consumed → consumed ≤ b.cur → BufferStep (b, s, out) ({ b with base := base, consumed := consumed }, s, out)
  | read {b s out} (n : Nat) : b.cur + n ≤ b.doc.length → BufferStep (b, s, out) ({ b with cur := b.cur + n }, s, out)
  | take {b s out t} : (s.update b).text b = .val t → BufferStep (b, s, out) (b, (s.update b).set b 0, out ++ t)
  | skip {b s out} (k : Nat) : b.cur + k ≤ b.doc.length → BufferStep (b, s, out) (b, (s.update b).set b k, out)
  | leave {b s out} : BufferStep (b, s, out) (b, s.update b, out)

end Srcml
