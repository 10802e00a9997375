#!/usr/bin/env python3
"""Regenerates MANIFEST.json and lean/Verif.lean from the sources and tools/notes.json."""
import json, re, glob, os
root = os.path.dirname(os.path.dirname(os.path.abspath(__file__)))
notes = json.load(open(root + '/tools/notes.json'))
props = [json.loads(l) for l in open(root + '/properties.jsonl') if l.strip()]
thms = {}
for f in sorted(glob.glob(root + '/lean/Verif/Props/*.lean')):
    ns = []
    for line in open(f):
        m = re.match(r'namespace (\S+)', line)
        if m: ns.append(m.group(1))
        m = re.match(r'end (\S+)', line)
        if m and ns and ns[-1] == m.group(1): ns.pop()
        m = re.match(r'(?:private |protected )?theorem (C\d\d+)(_\S+)', line)
        if m: thms.setdefault(m.group(1), []).append('.'.join(ns + [m.group(1) + m.group(2)]))
claims = []
for p in props:
    i = p['id']
    n = notes.get(i, {})
    if i not in thms and n.get('status') != 'not_applicable':
        continue
    claims.append({'property': i, 'status': n.get('status', 'proved'), 'theorems': thms.get(i, []), 'note': n.get('note', '')})
json.dump({'claims': claims}, open(root + '/MANIFEST.json', 'w'), indent=1, ensure_ascii=False)
mods = []
for d in ('Model', 'Spec', 'Lemmas', 'Props', 'Tests'):
    for f in sorted(glob.glob(root + f'/lean/Verif/{d}/*.lean')):
        mods.append(f'import Verif.{d}.{os.path.basename(f)[:-5]}')
open(root + '/lean/Verif.lean', 'w').write('\n'.join(mods) + '\n')
missing = [p['id'] for p in props if p['id'] not in thms]
print(len(claims), 'claims; without theorems:', ' '.join(missing))
