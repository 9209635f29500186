#!/usr/bin/env python3
"""Mutation harness.  usage: mutate.py SPEC.json [--log]

SPEC.json: list of {id, prop, file, def, old, new, claim}.  Works in /tmp/mut/lean (a copy of
/verif/lean).  For each mutation: apply, lake build, map errors to the enclosing declarations, close
textually over the declarations that mention them, report whether a theorem of the property is among
them ('killed') or not ('SURVIVED'), revert.  Results go to /tmp/mut/results.jsonl (keyed by id)."""
import json, pathlib, re, subprocess, sys
ROOT = pathlib.Path('/tmp/mut/lean')
RES = pathlib.Path('/tmp/mut/results.jsonl')
DECL = re.compile(r'^(?:@\[[^\]]*\]\s*)?(?:private |protected |noncomputable |local )*(theorem|lemma|def|abbrev|structure|inductive|instance|example)\b\s*([^\s:({\[]*)')

def decls():
    out = []
    for f in sorted((ROOT / 'Verif').rglob('*.lean')):
        lines = f.read_text().splitlines()
        cur = None
        for i, l in enumerate(lines, 1):
            m = DECL.match(l)
            if m:
                cur = {'file': str(f.relative_to(ROOT)), 'kind': m[1], 'name': m[2] or f'example@{i}', 'start': i, 'body': []}
                out.append(cur)
            if cur: cur['body'].append(l); cur['end'] = i
    for d in out: d['toks'] = set(re.findall(r"[A-Za-z_][A-Za-z0-9_'.]*", '\n'.join(d['body'])))
    for d in out:
        d['toks'] |= {s for t in d['toks'] for s in t.split('.') if s}
    return out

def run(m):
    p = ROOT / m['file']
    src = p.read_text()
    a, b = 0, len(src)
    if m.get('inDef'):
        a = re.search(r'def ' + re.escape(m['def']) + r'\b', src).start()
        e = re.search(r'\n(/--|end )', src[a:])
        if e: b = a + e.start()
    part = src[a:b]
    if part.count(m['old']) < 1: return {'status': 'NOMATCH'}
    if part.count(m['old']) > 1 and not m.get('all'): return {'status': 'AMBIGUOUS %d' % part.count(m['old'])}
    p.write_text(src[:a] + part.replace(m['old'], m['new']) + src[b:])
    try:
        want = m['prop'] if isinstance(m['prop'], list) else [m['prop']]
        mods = sorted({d['file'][:-5].replace('/', '.') for d in decls() if d['kind'] == 'theorem' and d['name'].split('_')[0] in want})
        r = subprocess.run(['lake', 'build'] + mods, cwd=ROOT, capture_output=True, text=True, timeout=3000)
        out = r.stdout + r.stderr
        errs = {(a, int(b)) for a, b in re.findall(r'error: (Verif/[\w/]+\.lean):(\d+):', out)}
        ds = decls()
        direct = []
        for a, b in errs:
            c = [d for d in ds if d['file'] == a and d['start'] <= b <= d['end']]
            if c: direct.append(c[0])
        if any(d['kind'] in ('def', 'abbrev', 'structure', 'inductive') for d in direct):
            return {'status': 'MODEL_ERROR', 'direct': [d['name'] for d in direct], 'out': out[-1500:]}
        fail = {d['name'] for d in direct if d['kind'] in ('theorem', 'lemma')}
        direct_names = sorted({d['name'] for d in direct})
        frontier = set(fail)
        while frontier:
            short = {n.split('.')[-1] for n in frontier}
            nxt = {d['name'] for d in ds if d['kind'] in ('theorem', 'lemma', 'def') and d['name'] not in fail and d['toks'] & short}
            fail |= nxt; frontier = nxt
        props = sorted(n for n in fail if re.match(r'C\d\d+_', n.split('.')[-1]))
        want = m['prop'] if isinstance(m['prop'], list) else [m['prop']]
        kill = [n for n in props if n.split('.')[-1].split('_')[0] in want]
        return {'status': 'killed' if kill else ('SURVIVED' if r.returncode == 0 else 'SURVIVED?'), 'direct': direct_names, 'failed': props}
    finally:
        p.write_text(src)
        subprocess.run('rm -rf .lake/build && cp -a /tmp/mut/pristine .lake/build', shell=True, cwd=ROOT)

def main():
    spec = json.load(open(sys.argv[1]))
    done = {}
    if RES.exists():
        for l in RES.read_text().splitlines():
            r = json.loads(l); done[r['id']] = r
    for m in spec:
        if m['id'] in done and '--redo' not in sys.argv: continue
        r = run(m)
        r['id'] = m['id']; r['prop'] = m['prop']
        with RES.open('a') as f: f.write(json.dumps(r) + '\n')
        print(r['id'], r['prop'], r['status'], '| direct', r.get('direct', [])[:4], '| props', r.get('failed', [])[:8], flush=True)
main()
