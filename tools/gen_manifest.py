#!/usr/bin/env python3
"""Regenerate MANIFEST.json from the theorem names in lean/Verif (a theorem named Cnn_* belongs to
property Cnn) and the notes below."""
import re, json, glob, os
os.chdir('/verif')
NOTES = json.load(open('tools/notes.json')) if os.path.exists('tools/notes.json') else {}
ths = {}
for f in sorted(glob.glob('lean/Verif/**/*.lean', recursive=True)):
    src = open(f).read()
    ns = []
    for line in src.splitlines():
        m = re.match(r'namespace (\S+)', line)
        if m: ns.append(m.group(1))
        m = re.match(r'end (\S+)', line)
        if m and ns and m.group(1) == ns[-1]: ns.pop()
        m = re.match(r'(?:protected |private )?theorem (C(\d\d+)_\S+)', line)
        if m:
            ths.setdefault('C' + m.group(2), []).append('.'.join(ns + [m.group(1)]))
claims = []
for l in open('properties.jsonl'):
    p = json.loads(l)['id']
    n = NOTES.get(p, {})
    names = ths.get(p, [])
    if n.get('status'):
        st = n['status']
    elif not names:
        continue
    else:
        st = 'partial' if any(x.endswith('_partial') or x.endswith('_refuted') for x in names) else 'proved'
    claims.append({'property': p, 'status': st, 'theorems': names, 'note': n.get('note', '')})
json.dump({'claims': claims}, open('MANIFEST.json', 'w'), indent=1)
for c in claims: print(c['property'], c['status'], len(c['theorems']))
