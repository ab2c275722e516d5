#!/usr/bin/env python3
"""Regenerate MANIFEST.json, lean/Verif.lean and lean/Verif/Audit.lean from the Lean sources and the table in tools/status.py."""
import glob, json, os, re
here = os.path.dirname(os.path.abspath(__file__))
root = os.path.dirname(here)
lean = os.path.join(root, 'lean')
ns = {}
exec(open(os.path.join(here, 'status.py')).read(), ns)
STATUS = ns['STATUS']
mods = sorted(os.path.relpath(f, lean)[:-5].replace('/', '.') for f in glob.glob(lean + '/Verif/**/*.lean', recursive=True))
mods = [m for m in mods if m != 'Verif.Audit']
thms = {}
for m in mods:
    if not m.startswith('Verif.Props.'):
        continue
    txt = open(os.path.join(lean, m.replace('.', '/') + '.lean')).read()
    for name in re.findall(r'^(?:private )?theorem (C\d\d\d?_\w+)', txt, re.M):
        thms.setdefault(name.split('_')[0], []).append('Kinisi.' + name)
props = [json.loads(l)['id'] for l in open(os.path.join(root, 'properties.jsonl'))]
claims = []
for pid in props:
    if pid in STATUS:
        st, note = STATUS[pid]
        if st in ('proved', 'partial') and not thms.get(pid):
            print('WARNING: no theorem for', pid)
        claims.append({'property': pid, 'status': st, 'theorems': thms.get(pid, []), 'note': note})
    elif pid in thms:
        print('WARNING: theorems without a status for', pid)
json.dump({'claims': claims}, open(os.path.join(root, 'MANIFEST.json'), 'w'), indent=1, ensure_ascii=False)
open(os.path.join(root, 'MANIFEST.json'), 'a').write('\n')
with open(lean + '/Verif/Audit.lean', 'w') as f:
    for m in mods:
        if m.startswith('Verif.Props.'):
            f.write(f'import {m}\n')
    f.write('\n/-! Generated by tools/mkmanifest.py: the axioms behind every property theorem. -/\n\n')
    for pid in sorted(thms):
        for t in thms[pid]:
            f.write(f'#print axioms {t}\n')
with open(lean + '/Verif.lean', 'w') as f:
    for m in mods:
        f.write(f'import {m}\n')
    f.write('import Verif.Audit\n')
print(len(claims), 'claims;', sum(map(len, thms.values())), 'theorems; not yet:', [p for p in props if p not in STATUS])
