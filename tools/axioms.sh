#!/bin/sh
# Writes AXIOMS.txt: the axioms each theorem of MANIFEST.json depends on.
cd "$(dirname "$0")/../lean" || exit 1
t=$(mktemp -d)
{
  echo 'import Verif'
  python3 -c "
import json
seen = set()
for c in json.load(open('../MANIFEST.json'))['claims']:
    for t in c['theorems']:
        if t not in seen: print('#print axioms ' + t)
        seen.add(t)"
} > "$t/ax.lean"
lake env lean "$t/ax.lean" > ../AXIOMS.txt
rm -r "$t"
