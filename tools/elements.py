#!/usr/bin/env python3
"""Transcribe src/parser/srcMLOutputElements.hpp into lean/Verif/Model/Elements.lean."""
import re
src=open('/repo/src/parser/srcMLOutputElements.hpp').read().split('\n')
rows=[]
for n,l in enumerate(src,1):
    m=re.match(r'\s*\{\s*(\w+)\s*,\s*\{\s*"([^"]*)"\s*,\s*(\w+)\s*,(.*?)\}\}',l.split('//')[0] if l.strip().startswith('//') else l)
    if not m: continue
    parts=[p.strip() for p in m.group(4).split(',')]
    assert len(parts)==4,(n,l)
    o=lambda p:'none' if p in('0','nullptr') else f'(some (chars! {p}))'
    rows.append((n,m.group(1),m.group(2),m.group(3),[o(p) for p in parts]))
print(len(rows),'rows')
out=[]
out.append('''import Verif.Model.Basic
/-
The table of srcML elements. Generated from /repo/src/parser/srcMLOutputElements.hpp by
tools/elements.py; one row per line of the C++ table, in its order.
-/
namespace Srcml

open Lean in
/-- A string literal as the list of its characters, expanded when the file is read. -/
macro "chars!" s:str : term => do
  let cs := s.getString.toList.toArray.map (fun c => Syntax.mkCharLit c)
  `([ $cs,* ])

/-- `PREFIXES`, src/parser/srcMLOutput.hpp:42-47: positions in the namespace table. -/
inductive Prefixes where
  | SRC | CPP | ERR | POS | OMP
  deriving DecidableEq, Repr

/-- `Element`, src/parser/srcMLOutput.hpp:51-58. -/
structure Element where
  name : Str
  pre : Prefixes
  attrName : Option Str
  attrValue : Option Str
  attr2Name : Option Str
  attr2Value : Option Str
  deriving DecidableEq, Repr

/-- The type of a token: the name of its enumerator in the generated `srcMLParserTokenTypes`. -/
abbrev TokType := Str

/-- `srcMLOutput::process`, src/parser/srcMLOutputElements.hpp:%d-%d. -/
def processTable : List (TokType × Element) := [''' % (rows[0][0],rows[-1][0]))
for i,(n,t,name,p,a) in enumerate(rows):
    out.append(f'  (chars! "{t}", ⟨chars! "{name}", .{p}, {a[0]}, {a[1]}, {a[2]}, {a[3]}⟩)'+(',' if i<len(rows)-1 else ']').replace('chars! ""','[]'))
out.append('''
/-- `process.find(type)`, src/parser/srcMLOutput.cpp:580. -/
def processFind (t : TokType) : Option Element := (processTable.find? (fun e => e.1 = t)).map (·.2)

end Srcml
''')
open('/verif/lean/Verif/Model/Elements.lean','w').write('\n'.join(out).replace('chars! ""','[]'))
import collections
print([k for k,v in collections.Counter(r[1] for r in rows).items() if v>1])
