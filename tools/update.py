#!/usr/bin/env python3
"""Regenerates lean/Verif.lean (imports of all modules) and MANIFEST.json (theorems named Cxx_* per property, notes from tools/notes.json)."""
import json, os, re
root = os.path.dirname(os.path.dirname(os.path.abspath(__file__)))
mods, thms = [], {}
for d, _, fs in os.walk(os.path.join(root, 'lean', 'Verif')):
    for f in fs:
        if f.endswith('.lean'):
            p = os.path.join(d, f)
            mods.append(os.path.relpath(p, os.path.join(root, 'lean'))[:-5].replace('/', '.'))
            for m in re.finditer(r'^(?:private )?theorem (C\d{2,3}_\w+)', open(p).read(), re.M):
                thms.setdefault(m.group(1).split('_')[0], []).append('Husk.' + m.group(1))
open(os.path.join(root, 'lean', 'Verif.lean'), 'w').write(''.join(f'import {m}\n' for m in sorted(mods)))
notes = json.load(open(os.path.join(root, 'tools', 'notes.json')))
claims = []
for l in open(os.path.join(root, 'properties.jsonl')):
    p = json.loads(l)['id']
    if p in notes and thms.get(p):
        claims.append({'property': p, 'status': notes[p][0], 'theorems': thms[p], 'note': notes[p][1]})
    elif thms.get(p):
        print('no note for', p)
    else:
        print('no theorem for', p)
json.dump({'claims': claims}, open(os.path.join(root, 'MANIFEST.json'), 'w'), indent=1)
