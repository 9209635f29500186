#!/bin/bash
# AXIOMS.md: the axioms of every property theorem
cd /verif/lean
python3 - > /tmp/Ax.lean <<'P'
import json
print('import Verif')
for c in json.load(open('/verif/MANIFEST.json'))['claims']:
    for t in c['theorems']: print('#print axioms', t)
P
lake env lean /tmp/Ax.lean 2>&1 | python3 -c "
import sys,re
t=' '.join(sys.stdin.read().split())
print('# Axioms of the property theorems\n')
print('Generated by tools/axioms.sh.\n')
for m in re.finditer(r\"'(\S+)' (does not depend on any axioms|depends on axioms: \[([^\]]*)\])\",t):
    print('- \`%s\`: %s'%(m[1], m[3] or 'none'))
" > /verif/AXIOMS.md
grep -c . /verif/AXIOMS.md
grep "^- " /verif/AXIOMS.md | sed 's/.*: //' | tr ',' '\n' | sed 's/ //g' | sort | uniq -c
