"""Which functions of /repo/src/elisa are cited by the model (file.py:a-b in a comment)."""
import re,ast,pathlib,collections,sys
root=pathlib.Path('/repo/src/elisa')
cites=collections.defaultdict(set)
for f in pathlib.Path(__file__).resolve().parent.parent.joinpath('lean/Verif').rglob('*.lean'):
    t=f.read_text()
    for m in re.finditer(r'([a-z_]+\.py)[: ]\s*((?:\d+(?:-\d+)?(?:,\s*(?:and )?)?)+)',t):
        for a,b in re.findall(r'(\d+)(?:-(\d+))?',m.group(2)):
            a=int(a); b=int(b or a)
            cites[m.group(1)].update(range(a,b+1))
for p in sorted(root.rglob('*.py')):
    src=p.read_text(); tree=ast.parse(src); n=len(src.splitlines())
    c=cites.get(p.name,set()); 
    fns=[]
    def walk(node,pre):
        for ch in ast.iter_child_nodes(node):
            if isinstance(ch,(ast.FunctionDef,ast.ClassDef)):
                if isinstance(ch,ast.FunctionDef):
                    fns.append((pre+ch.name,ch.lineno,ch.end_lineno))
                else: walk(ch,pre+ch.name+'.')
    walk(tree,'')
    un=[(a,s,e) for a,s,e in fns if not (set(range(s,e+1))&c)]
    print(f'{p.relative_to(root)}: {n} lines, {len(fns)} functions, {len(fns)-len(un)} cited')
    if len(sys.argv)>1 and sys.argv[1] in str(p):
        for a,s,e in un: print('    ',a,s,e)
