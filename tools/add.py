#!/usr/bin/env python3
"""Insert text before the `out =` line of mkprops.py (argument: file with p(...) entries)."""
import sys
f='/verif/tools/mkprops.py'; s=open(f).read()
i=s.index('\nout = ')
s=s[:i+1]+open(sys.argv[1]).read()+s[i+1:]
open(f,'w').write(s)
