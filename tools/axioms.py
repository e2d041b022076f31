#!/usr/bin/env python3
"""Write AXIOMS.md: the axioms every theorem of MANIFEST.json depends on, as Lean prints them (needs a build)."""
import json, os, re, subprocess, tempfile
root = os.path.dirname(os.path.dirname(os.path.abspath(__file__)))
claims = json.load(open(os.path.join(root, 'MANIFEST.json')))['claims']
ths = [t for c in claims for t in c['theorems']]
f = os.path.join(tempfile.mkdtemp(), 'ax.lean')
open(f, 'w').write("import Verif\n" + "\n".join("#print axioms %s" % t for t in ths))
out = subprocess.run(['lake', 'env', 'lean', f], cwd=os.path.join(root, 'lean'), capture_output=True, text=True).stdout
out = re.sub(r'\n\s+', ' ', out)
deps = {}
for l in out.splitlines():
    m = re.match(r"'(.*)' depends on axioms: \[(.*)\]", l)
    n = re.match(r"'(.*)' does not depend on any axioms", l)
    if m: deps[m.group(1)] = m.group(2)
    elif n: deps[n.group(1)] = 'none'
missing = [t for t in ths if t not in deps]
allowed = {'propext', 'Classical.choice', 'Quot.sound', 'none'}
bad = [t for t in deps if not set(deps[t].split(', ')) <= allowed]
with open(os.path.join(root, 'AXIOMS.md'), 'w') as o:
    o.write("# Axioms per theorem (output of `#print axioms`, written by tools/axioms.py)\n\n")
    for t in ths:
        o.write("* `%s`: %s\n" % (t.split('.')[-1], deps.get(t, '?')))
print(len(ths), 'missing', missing, 'bad', bad)
