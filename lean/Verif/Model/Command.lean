import Verif.Model.Create
import Verif.Model.UnitParse
import Verif.Model.ApiArgs
/-
The library as the threads of the command call it: the parse functions and the transformations of the output archive.
-/
namespace Srcml

/-- The bytes of a buffer, src/client/srcml_consume.cpp:107. -/
def bufferBytes (s : Str) : Bytes := s.map (fun c => UInt8.ofNat c.toNat)

/-- The calls of the library in a thread, src/client/srcml_consume.cpp:102-108, 127, for a command without transformations; `a` is the output archive
(src/client/srcml_consume.cpp:53). The library gives the unit back that it got. -/
noncomputable def clientEnv {N D : Type} [DecidableEq N] (lib : ParseLib) (a : Archive) (th : ThreadState) (zero : D) (xml : Str → Option N) (view : N → NodeView)
    (attrsOf : Str → List (Str × Str)) : ParseEnv D where
  parseFile u f := (srcml_unit_parse lib a th (.filename (some f)) (some { data := u })).bind (fun r => .val (r.1, r.2.getD { data := u }))
  parseMemory u s := (srcml_unit_parse lib a th (.memory (some (bufferBytes s)) s.length) (some { data := u })).bind (fun r => .val (r.1, r.2.getD { data := u }))
  apply u := (srcml_unit_apply_transforms zero xml view attrsOf (some []) (some u) true).bind (fun r => .val r.2)

end Srcml
