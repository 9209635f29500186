#!/usr/bin/env python3
"""reg.py FILE: FILE holds p(...) and d(...) calls; they are inserted into gen_properties.py and design.py."""
import sys, re
src = open(sys.argv[1]).read()
ps = re.findall(r"^p\(.*?\]\)\n", src, re.S | re.M); ds = re.findall(r"^d\(.*?'\)\n", src, re.S | re.M)
g = '/verif/tools/gen_properties.py'; s = open(g).read(); i = s.index("out = pathlib"); s = s[:i] + ''.join(x + '\n' for x in ps) + s[i:]; open(g, 'w').write(s)
g = '/verif/tools/design.py'; s = open(g).read(); i = s.index("# docstrings of the partial"); s = s[:i] + ''.join(ds) + s[i:]; open(g, 'w').write(s)
print(len(ps), len(ds))
