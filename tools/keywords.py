#!/usr/bin/env python3
"""Transcribe the table of keywords of src/parser/KeywordLexer.g into lean/Verif/Model/Keywords.lean."""
import re
src=open('/repo/src/parser/KeywordLexer.g').read().split('\n')
a=next(i for i,l in enumerate(src) if 'keyword_map[] = {' in l)
b=next(i for i,l in enumerate(src) if i>a and re.match(r'\s*\};',l))
rows=[]
for n in range(a+1,b):
    l=src[n].strip()
    if not l or l.startswith('//'): continue
    m=re.match(r'\{\s*"((?:[^"\\]|\\.)*)"\s*,\s*(\w+)\s*,\s*([A-Z_| ]+?)\s*\},?\s*$',l)
    assert m,(n+1,l)
    text=m.group(1).replace('\\"','"')
    lean='['+', '.join("'\\''" if c=="'" else "'%s'"%c for c in text)+']'
    langs=' ||| '.join(x.strip() for x in m.group(3).split('|'))
    rows.append((n+1,text,m.group(2),langs))
print(len(rows),'rows',a+2,b)
out=['''import Verif.Model.Elements
import Verif.Model.Language
/-
The table of keywords of the lexer. Generated from /repo/src/parser/KeywordLexer.g by tools/keywords.py; one row per line of
the C++ table, in its order.
-/
namespace Srcml

/-- `LANGUAGE_CXX_FAMILY`, src/parser/Language.hpp:102-103. -/
def LANGUAGE_CXX_FAMILY : Nat := LANGUAGE_CXX ||| LANGUAGE_CSHARP

/-- `LANGUAGE_C_FAMILY`, src/parser/Language.hpp:105-106. -/
def LANGUAGE_C_FAMILY : Nat := LANGUAGE_C ||| LANGUAGE_CXX_FAMILY ||| LANGUAGE_OBJECTIVE_C

/-- `LANGUAGE_OO`, src/parser/Language.hpp:111-112. -/
def LANGUAGE_OO : Nat := LANGUAGE_CXX_FAMILY ||| LANGUAGE_JAVA

/-- `LANGUAGE_ALL`, src/parser/Language.hpp:114-115: all bits of an `int`; here those of the languages there are. -/
def LANGUAGE_ALL : Nat := 31

/-- `keyword`, src/parser/KeywordLexer.g:318. -/
structure Keyword where
  text : Str
  token : TokType
  language : Nat
''']
out.append(f"/-- `keyword_map`, src/parser/KeywordLexer.g:{a+1}-{b+1}. -/\ndef keywordMap : List Keyword := [")
def s(t): return 'chars! "'+t.replace('\\','\\\\').replace('"','\\"')+'"'
out.append(',\n'.join(f'  ⟨{s(t)}, chars! "{k}", {l}⟩' for n,t,k,l in rows)+']')
out.append('\nend Srcml')
open('/verif/lean/Verif/Model/Keywords.lean','w').write('\n'.join(out)+'\n')
