#!/usr/bin/env python3
"""Regenerate MANIFEST.json from the theorem names in lean/Verif/Props and the notes below."""
import re, json, glob, os
root = os.path.dirname(os.path.dirname(os.path.abspath(__file__)))
notes = json.load(open(os.path.join(root, 'tools/notes.json')))
byprop = {}
for f in sorted(glob.glob(root + '/lean/Verif/Props/*.lean')):
    ns = []
    for line in open(f):
        m = re.match(r'namespace (\S+)', line)
        if m: ns.append(m.group(1))
        m = re.match(r'end (\S+)', line)
        if m and ns and ns[-1] == m.group(1): ns.pop()
        m = re.match(r'theorem ((C\d+)_\w+)', line)
        if m: byprop.setdefault(m.group(2), []).append('.'.join(ns + [m.group(1)]))
# The `_refuted` theorems of these are about cases that the statement or quantifier of the property excludes.
OUTSIDE = {'C89', 'C90', 'C91', 'C92', 'C93', 'C94', 'C95','C100'}
claims = []
for line in open(root + '/properties.jsonl'):
    if not line.strip(): continue
    p = json.loads(line)['id']
    th = byprop.get(p, [])
    if not th:
        print('no theorems for', p); continue
    st = 'partial' if any('_partial' in t or ('_refuted' in t and p not in OUTSIDE) for t in th) else 'proved'
    if p not in notes: print('no note for', p)
    claims.append({'property': p, 'status': st, 'theorems': th, 'note': notes.get(p, '')})
json.dump({'claims': claims}, open(root + '/MANIFEST.json', 'w'), indent=1)
print(len(claims), 'claims', sum(len(c['theorems']) for c in claims), 'theorems')
