#!/usr/bin/env python3
"""Add or replace claim lines: addclaim.py ID STATUS NOTE ..."""
import sys, os, re
p = os.path.join(os.path.dirname(__file__), 'claims.py')
s = open(p).read()
a = sys.argv[1:]
for i in range(0, len(a), 3):
    line = ' "%s": ("%s", %r),\n' % (a[i], a[i+1], a[i+2])
    s = re.sub(r'^ "%s": .*\n' % a[i], '', s, flags=re.M)
    s = s.rstrip().rstrip('}') + line + '}\n'
open(p, 'w').write(s)
