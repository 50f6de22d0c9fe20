#!/usr/bin/env python3
"""addprop.py file.json: append properties (with status, note and design line) to properties.jsonl, tools/notes.json and DESIGN.md."""
import json, pathlib, sys
root = pathlib.Path(__file__).resolve().parent.parent
items = json.load(open(sys.argv[1]))
notes = json.load(open(root / 'tools/notes.json'))
props = open(root / 'properties.jsonl').read()
design = open(root / 'DESIGN.md').read()
for it in items:
    notes[it['id']] = {'status': it.pop('status'), 'note': it.pop('note')}
    d = it.pop('design')
    assert f'"id": "{it["id"]}"' not in props
    props += json.dumps(it) + '\n'
    i = design.index('\n\n## Findings')
    design = design[:i] + f'\n* **{it["id"]} {it["title"]}** - {d}' + design[i:]
json.dump(notes, open(root / 'tools/notes.json', 'w'), indent=1)
open(root / 'properties.jsonl', 'w').write(props)
open(root / 'DESIGN.md', 'w').write(design)
