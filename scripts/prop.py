#!/usr/bin/env python3
"""prop.py C01 field "text": set one field of one property in properties.jsonl"""
import json, sys
p='/verif/properties.jsonl'
c,f,t=sys.argv[1:4]
L=[json.loads(l) for l in open(p) if l.strip()]
for x in L:
    if x['id']==c: x[f]=t
open(p,'w').write(''.join(json.dumps(x)+'\n' for x in L))
