#!/usr/bin/env python3
"""Automatic mutations of the model.  usage: automut.py ROUND [path-fragment]

Every definition of the model (a def whose comment cites source lines) gets one mutation per round: a comparison, an
operator, a literal, a connective, an exception, a projection or a pair of arguments is changed.  Works in /tmp/mut/lean like mutate.py;
the build stops at the first error outside the mutated definition.  Results: /tmp/mut/auto.jsonl."""
import json, pathlib, random, re, subprocess, sys, signal, os
ROOT = pathlib.Path('/tmp/mut/lean')
RES = pathlib.Path('/tmp/mut/auto.jsonl')
DECL = re.compile(r'^(?:@\[[^\]]*\]\s*)?(?:private |protected |noncomputable |local )*(theorem|lemma|def|abbrev|structure|inductive|instance|example)\b\s*([^\s:({\[]*)')
OPS = [(r' < ', [' ≤ ']), (r' ≤ ', [' < ']), (r' > ', [' ≥ ']), (r' ≥ ', [' > ']), (r' \+ ', [' - ', ' * ']), (r' - ', [' + ']), (r' \* ', [' + ', ' / ']), (r' / ', [' * ']),
       (r' && ', [' || ']), (r' \|\| ', [' && ']), (r' ∧ ', [' ∨ ']), (r' ∨ ', [' ∧ ']), (r'\btrue\b', ['false']), (r'\bfalse\b', ['true']),
       (r'(?<![\w.])0(?![\w.])', ['1']), (r'(?<![\w.])1(?![\w.])', ['2', '0']), (r'(?<![\w.])2(?![\w.])', ['3', '1']), (r'(?<![\w.])([3-9]|\d\d+)(?![\w.])', ['INC']),
       (r'\.valueError', ['.typeError']), (r'\.typeError', ['.valueError']), (r'\.keyError', ['.valueError']), (r'\bmin\b', ['max']), (r'\bmax\b', ['min']),
       (r'\.1\b', ['.2']), (r'\.2\b', ['.1']), (r'¬ ', ['']), (r'if ¬ ', ['if ']), (r' = ', [' ≠ ']), (r' ≠ ', [' = ']), (r' == ', [' != ']), (r' != ', [' == ']), (r' ∈ ', [' ∉ ']), (r' ∉ ', [' ∈ ']),
       (r'\.take\b', ['.drop']), (r'\.drop\b', ['.take']), (r'\.all\b', ['.any']), (r'\.any\b', ['.all']), (r'"[^"\n]{1,40}"', ['STR']), (r'\.isSome', ['.isNone']), (r'\.isNone', ['.isSome']),
       (r'\.head\?', ['.getLast?']), (r'\.getLast\?', ['.head?']), (r'\bReal\.exp\b', ['Real.log']), (r'\bReal\.log\b', ['Real.exp']), (r'\bReal\.sqrt\b', ['id']), (r'\.reverse\b', ['']),
       (r'(?<![\w.])(\d+\.\d+)(?![\w])', ['FLT']), (r'\.filter\b', ['SKIPFILTER']), (r'\bsome\b', ['SOME'])]

def defs():
    out = []
    for f in sorted((ROOT / 'Verif').rglob('*.lean')):
        s = f.read_text()
        for m in re.finditer(r'/--((?:(?!-/).)*)-/\s*(?:@\[[^\]]*\]\s*)?(?:noncomputable )?def (\S+)', s, re.S):
            if not re.search(r'py:\d|\d+-\d+', m[1]): continue
            end = re.compile(r'\n(?=(/--|/-!|theorem|lemma|def|noncomputable|structure|inductive|instance|example|end|namespace|section|open|variable|@\[|set_option|abbrev|mutual))').search(s, m.end())
            stop = end.start() if end else len(s)
            body = s.find(':=', m.end(), stop)
            bar = re.compile(r'\n\s*\| ').search(s, m.end(), stop)
            start = min([x for x in (body, bar.start() if bar else -1) if x >= 0], default=None)
            if start is None: continue
            out.append((str(f.relative_to(ROOT)), m[2], start + 2, stop))
    return out

def candidates(src, a, b):
    text = src[a:b]
    com = [(m.start(), m.end()) for m in re.finditer(r'--[^\n]*', text)]
    c = []
    for pat, news in OPS:
        for m in re.finditer(pat, text):
            if any(x <= m.start() < y for x, y in com): continue
            if re.search(r'getD (\S+|\([^()]*\)) $', text[:m.start()]): continue
            for n in news:
                if n == 'INC': n = str(int(m[0]) + 1)
                elif n == 'STR': n = m[0][:-1] + 'X"'
                elif n == 'FLT': n = '9' + m[0]
                elif n in ('SKIPFILTER', 'SOME'): continue
                # not the := / pattern arrows
                c.append((a + m.start(), a + m.end(), n))
    return c

def imports():
    imp = {}
    for f in (ROOT / 'Verif').rglob('*.lean'):
        name = str(f.relative_to(ROOT))[:-5].replace('/', '.')
        imp[name] = re.findall(r'^import (Verif\.\S+)', f.read_text(), re.M)
    return imp

def dependents(mod):
    imp = imports(); out = {mod}; ch = True
    while ch:
        ch = False
        for n, l in imp.items():
            if n not in out and any(x in out for x in l): out.add(n); ch = True
    return out

def decl_at(path, line):
    cur = None
    for i, l in enumerate((ROOT / path).read_text().splitlines(), 1):
        m = DECL.match(l)
        if m: cur = (m[1], m[2] or f'example@{i}')
        if i == line: return cur

def build(mods, own):
    p = subprocess.Popen(['lake', 'build'] + sorted(mods), cwd=ROOT, stdout=subprocess.PIPE, stderr=subprocess.STDOUT, text=True, start_new_session=True)
    hits = []
    try:
        for l in p.stdout:
            m = re.match(r'error: (Verif/[\w/]+\.lean):(\d+):', l)
            if m:
                hits.append((m[1], int(m[2])))
                d = decl_at(m[1], int(m[2]))
                if d and d[0] in ('theorem', 'lemma', 'example'):
                    return 'killed', hits
                if d and d[1] == own: return 'MODEL_ERROR', hits
        p.wait()
        return ('SURVIVED' if p.returncode == 0 else 'MODEL_ERROR'), hits
    finally:
        try: os.killpg(p.pid, signal.SIGKILL)
        except ProcessLookupError: pass
        p.wait()

def main():
    rnd = int(sys.argv[1]); frag = sys.argv[2] if len(sys.argv) > 2 else ''
    done = {}
    if RES.exists():
        for l in RES.read_text().splitlines():
            r = json.loads(l); done.setdefault((r['file'], r['definition']), []).append(r)
    for path, name, a, b in defs():
        if frag not in path: continue
        p = ROOT / path
        src = p.read_text()
        key = (path, name)
        tried = {(r['at'], r['edit']['to']) for r in done.get(key, [])}
        if sum(1 for r in done.get(key, []) if r['status'] != 'MODEL_ERROR') >= rnd: continue
        cand = [c for c in candidates(src, a, b) if (src[a:c[0]][-60:], c[2]) not in tried]
        random.Random(f'{name}{rnd}').shuffle(cand)
        for c in cand[:6]:
            p.write_text(src[:c[0]] + c[2] + src[c[1]:])
            try: st, hits = build(dependents(path[:-5].replace('/', '.')), name)
            finally:
                p.write_text(src)
                subprocess.run('rm -rf .lake/build && cp -a /tmp/mut/pristine .lake/build', shell=True, cwd=ROOT)
            ls = src.rfind('\n', 0, c[0]) + 1; le = src.find('\n', c[1])
            r = {'file': path, 'definition': name, 'at': src[a:c[0]][-60:], 'edit': {'from': src[ls:le].strip(), 'to': c[2], 'line': (src[ls:c[0]] + '⟦' + src[c[0]:c[1]] + '→' + c[2] + '⟧' + src[c[1]:le]).strip()},
                 'status': st, 'hits': [f'{x}: {decl_at(x, y)}' for x, y in hits[:3]]}
            with RES.open('a') as f: f.write(json.dumps(r, ensure_ascii=False) + '\n')
            if st == 'MODEL_ERROR': continue
            print(st, path, name, '|', r['edit']['line'][:150], '|', r['hits'][:1], flush=True)
            break
main()
