#!/usr/bin/env python3
"""Collects the theorems Cnn_* of lean/Verif/Props/*.lean into MANIFEST.json and regenerates Verif.lean."""
import re, json, glob, os
root = os.path.dirname(os.path.dirname(os.path.abspath(__file__)))
lean = os.path.join(root, 'lean')
mods = sorted(os.path.relpath(p, lean)[:-5].replace('/', '.') for p in glob.glob(lean + '/Verif/**/*.lean', recursive=True))
open(lean + '/Verif.lean', 'w').write(''.join(f'import {m}\n' for m in mods))
thms = {}
for p in sorted(glob.glob(lean + '/Verif/Props/*.lean')):
    ns = []
    for line in open(p):
        m = re.match(r'namespace (\S+)', line)
        if m: ns.append(m.group(1))
        m = re.match(r'end (\S+)', line)
        if m and ns and ns[-1] == m.group(1): ns.pop()
        m = re.match(r'theorem ((C\d\d+)_\S+)', line)
        if m: thms.setdefault(m.group(2), []).append('.'.join(ns + [m.group(1)]))
notes = {}
for line in open(root + '/tools/notes.txt'):
    m = re.match(r'(C\d\d+) (proved|partial|not_applicable): (.*)', line)
    if m: notes[m.group(1)] = (m.group(2), m.group(3).strip())
claims = []
for line in open(root + '/properties.jsonl'):
    i = json.loads(line)['id']
    if i in thms:
        st, note = notes.get(i, ('partial' if any(t.endswith('_partial') for t in thms[i]) else 'proved', ''))
        claims.append({'property': i, 'status': st, 'theorems': thms[i], 'note': note})
    elif i in notes:
        st, note = notes[i]
        claims.append({'property': i, 'status': st, 'theorems': [], 'note': note})
    else:
        print('no theorem for', i)
json.dump({'claims': claims}, open(root + '/MANIFEST.json', 'w'), indent=1)
print(len(claims), 'claims', sum(len(c['theorems']) for c in claims), 'theorems')
