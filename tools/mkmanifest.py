#!/usr/bin/env python3
"""Write MANIFEST.json from the property list and the theorem names found in lean/Verif/Props.

The theorems of property Cxx are those whose name starts with `Cxx_`.  A property is "proved" when none of its theorem
names ends in `_partial` or `_false`, else "partial"."""
import json, re, glob, os
root = os.path.dirname(os.path.dirname(os.path.abspath(__file__)))
props = [json.loads(l) for l in open(os.path.join(root, 'properties.jsonl')) if l.strip()]
notes = json.load(open(os.path.join(root, 'tools/notes.json')))
names = {}
for f in sorted(glob.glob(os.path.join(root, 'lean/Verif/Props/*.lean'))):
    for m in re.finditer(r'(?m)^theorem (C\d\d)(_\w+)', open(f).read()):
        names.setdefault(m.group(1), []).append('Casper.' + m.group(1) + m.group(2))
claims = []
for p in props:
    i = p['id']
    ths = names.get(i, [])
    if not ths and i not in notes:
        continue
    if not ths:
        status = 'not_applicable'
    elif any(t.endswith('_partial') or t.endswith('_false') for t in ths):
        status = 'partial'
    else:
        status = 'proved'
    claims.append({'property': i, 'status': status, 'theorems': ths, 'note': notes.get(i, '')})
json.dump({'claims': claims}, open(os.path.join(root, 'MANIFEST.json'), 'w'), indent=1)
print({s: sum(c['status'] == s for c in claims) for s in ('proved', 'partial', 'not_applicable')})
print('without note:', [c['property'] for c in claims if not c['note']])
