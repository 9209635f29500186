#!/usr/bin/env python3
"""Repeat the automatic mutations that survived, against the current theorems.  usage: autoredo.py
Appends to /tmp/mut/auto.jsonl with "redo": true (the edit is located by its line)."""
import importlib.util, json, pathlib, subprocess, sys
ARGS = sys.argv[1:]
sys.argv = ['automut.py', '0', '//none//']
spec = importlib.util.spec_from_file_location('automut', '/verif/tools/automut.py')
am = importlib.util.module_from_spec(spec); spec.loader.exec_module(am)
rows = [json.loads(l) for l in am.RES.read_text().splitlines()]
last = {}
for r in rows: last[(r['file'], r['definition'], r['edit']['line'])] = r
for key, r in last.items():
    if r['status'] != 'SURVIVED' or (r.get('redo') and '--all' not in ARGS): continue
    line = r['edit']['line']; pre, rest = line.split('⟦', 1); mid, post = rest.split('⟧', 1); fr, to = mid.split('→', 1) if mid.count('→') == 1 else (None, None)
    if fr is None: print('SKIP', key); continue
    p = am.ROOT / r['file']; src = p.read_text()
    hit = None
    for path, name, a, b in am.defs():
        if path == r['file'] and name == r['definition']:
            start = src.rfind('\n', 0, a) ; start = src.rfind('\n', 0, src.rfind('def ' + name, 0, a) + 1)
            i = src.find(pre + fr + post, start, b)
            if i >= 0: hit = i
    if hit is None: print('NOT FOUND', key, flush=True); continue
    p.write_text(src[:hit] + pre + to + post + src[hit + len(pre + fr + post):])
    try: st, hits = am.build(am.dependents(r['file'][:-5].replace('/', '.')), r['definition'])
    finally:
        p.write_text(src)
        subprocess.run('rm -rf .lake/build && cp -a /tmp/mut/pristine .lake/build', shell=True, cwd=am.ROOT)
    n = dict(r, status=st, hits=[f'{x}: {am.decl_at(x, y)}' for x, y in hits[:3]], redo=True)
    with am.RES.open('a') as f: f.write(json.dumps(n, ensure_ascii=False) + '\n')
    print(st, r['file'], r['definition'], '|', line[:120], '|', n['hits'][:1], flush=True)
