#!/usr/bin/env python3
"""Append a property to props.py: addprop.py TITLE STATEMENT QUANTIFIER WHY ANCHOR..."""
import sys, os, json
p = os.path.join(os.path.dirname(__file__), 'props.py')
s = open(p).read()
a = sys.argv[1:]
q = lambda x: json.dumps(x, ensure_ascii=False)
e = "p(%s)\n" % (",\n  ".join([q(x) for x in a[:4]] + [", ".join(q(x) for x in a[4:])]))
i = s.index('if __name__')
s = s[:i].rstrip() + "\n" + e + "\n" + s[i:]
open(p, 'w').write(s)
