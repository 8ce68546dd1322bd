#!/usr/bin/env python3
"""DESIGN.md = design_head.md + one line per property (from properties.jsonl, MANIFEST.json, design_how.json)."""
import json, os
T = os.path.dirname(os.path.abspath(__file__)); V = os.path.dirname(T)
P = [json.loads(l) for l in open(V + '/properties.jsonl')]
M = {x['property']: x for x in json.load(open(V + '/MANIFEST.json'))['claims']}
H = json.load(open(T + '/design_how.json'))
out = open(T + '/design_head.md').read().rstrip('\n') + '\n\n'
out += '| Property | Status | Code modelled | Proof | Remarks |\n|---|---|---|---|---|\n'
for p in P:
    m = M[p['id']]; model, proof = H[p['id']]
    out += f"| {p['id']} {p['title']} | {m['status']} | {model} | {proof} | {m['note']} |\n"
open(V + '/DESIGN.md', 'w').write(out)
