#!/bin/sh
# Write AXIOMS.md: the axioms each theorem of MANIFEST.json depends on (needs a finished `lake build` in lean/).
set -e
root=$(cd "$(dirname "$0")/.." && pwd)
tmp=$(mktemp -d)
python3 - "$root" > "$tmp/ax.lean" <<'P'
import json, sys
m = json.load(open(sys.argv[1] + '/MANIFEST.json'))
print('import Verif')
for c in m['claims']:
    for t in c['theorems']:
        print('#print axioms', t)
P
(cd "$root/lean" && lake env lean "$tmp/ax.lean") > "$tmp/ax.out"
python3 - "$tmp/ax.out" "$root/AXIOMS.md" <<'P'
import re, sys
txt = re.sub(r'\s+', ' ', open(sys.argv[1]).read())
rows = re.findall(r"'([^']+)' (?:depends on axioms: \[([^\]]*)\]|does not depend on any axioms)", txt)
sets = {}
for n, a in rows:
    sets.setdefault(a or 'none', []).append(n.replace('Casper.', ''))
with open(sys.argv[2], 'w') as f:
    f.write('# Axioms of the theorems in MANIFEST.json\n\nFrom `#print axioms` (tools/mkaxioms.sh).\n')
    for a in sorted(sets):
        f.write(f'\n## {a}\n\n' + '\n'.join('* `' + n + '`' for n in sets[a]) + '\n')
print({a: len(v) for a, v in sets.items()})
P
rm -r "$tmp"
