#!/usr/bin/env python3
"""Write FINDINGS.md from the comments of the theorems Cxx_finding_* in lean/Verif/Props."""
import re, pathlib
root = pathlib.Path(__file__).resolve().parent.parent
out = []
for f in sorted((root / 'lean/Verif/Props').glob('*.lean')):
    s = f.read_text()
    for m in re.finditer(r'/--((?:(?!-/).)*)-/\s*theorem (C\d\d_finding_\w+)', s, re.S):
        doc = ' '.join(m.group(1).split())
        doc = re.sub(r'^(\*\*C\d\d, finding\.\*\*|Finding( \(C\d\d\))?:|C\d\d \(finding\):?,?)\s*', '', doc)
        out.append((m.group(2), f.name, doc))
out.sort()
t = ['# Findings', '', 'Where a property is false of the code, a theorem of the model shows it. Generated by tools/findings.py from the comments of these theorems.', '']
last = ''
for name, f, doc in out:
    if name[:3] != last:
        last = name[:3]
        t += ['', f'## {last}', '']
    t.append(f'* `{name}` ({f}): {doc}')
(root / 'FINDINGS.md').write_text('\n'.join(t) + '\n')
print(len(out), 'findings')
