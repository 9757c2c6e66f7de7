#!/usr/bin/env python3
"""claim.py C01 status "thm1,thm2" "note": set one claim in MANIFEST.json (theorem names get the RE. prefix)"""
import json, sys
p = '/verif/MANIFEST.json'
m = json.load(open(p))
c, status, thms, note = sys.argv[1:5]
d = {x['property']: x for x in m['claims']}
d[c] = {'property': c, 'status': status,
        'theorems': [t if t.startswith('RE.') else 'RE.' + t for t in thms.replace(' ', '').split(',') if t], 'note': note}
m['claims'] = [d[k] for k in sorted(d)]
json.dump(m, open(p, 'w'), indent=1)
