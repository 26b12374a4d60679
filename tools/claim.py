#!/usr/bin/env python3
"""claim.py ID STATUS THM[,THM..] NOTE: set a claim in MANIFEST.json."""
import json, sys, os
p = os.path.join(os.path.dirname(os.path.abspath(__file__)), '..', 'MANIFEST.json')
d = json.load(open(p))
i, st, th, note = sys.argv[1:5]
th = ['Verif.' + t for t in th.split(',') if t]
d['claims'] = [c for c in d['claims'] if c['property'] != i] + [
    dict(property=i, status=st, theorems=th, note=note)]
d['claims'].sort(key=lambda c: c['property'])
json.dump(d, open(p, 'w'), indent=0)
