#!/usr/bin/env python3
"""Write DESIGN.md: tools/design_head.md followed by the table of properties (titles, statuses, tools/methods.json)."""
import json, os
root = os.path.dirname(os.path.dirname(os.path.abspath(__file__)))
props = [json.loads(l) for l in open(os.path.join(root, 'properties.jsonl')) if l.strip()]
claims = {c['property']: c for c in json.load(open(os.path.join(root, 'MANIFEST.json')))['claims']}
how = json.load(open(os.path.join(root, 'tools/methods.json')))
out = open(os.path.join(root, 'tools/design_head.md')).read()
for p in props:
    i = p['id']
    c = claims.get(i)
    part, proof = how.get(i, ('', ''))
    out += f"| {i} | {p['title']} | {c['status'] if c else 'open'} | {part} | {proof} |\n"
out += '\n## What the theorems say, and what is missing\n\n'
for p in props:
    c = claims.get(p['id'])
    if c:
        names = ', '.join('`' + t.replace('Casper.', '') + '`' for t in c['theorems'])
        out += f"* **{p['id']}** ({c['status']}; {names}). {c['note']}\n"
open(os.path.join(root, 'DESIGN.md'), 'w').write(out)
