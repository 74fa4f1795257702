#!/bin/sh
# Print the axioms of every theorem named in MANIFEST.json (summary: the set of axioms used).
cd "$(dirname "$0")/../lean" || exit 1
t=$(mktemp /tmp/axXXXX.lean)
{ echo "import Verif"; python3 -c "
import json
s=set()
for c in json.load(open('../MANIFEST.json'))['claims']:
    s.update(c['theorems'])
for n in sorted(s): print('#print axioms '+n)"; } > "$t"
lake env lean "$t" | tr '\n' ' ' | sed "s/'Verif/\n'Verif/g" | sed 's/  */ /g' > /tmp/axioms.out
grep -c depends /tmp/axioms.out
grep -o '\[.*\]' /tmp/axioms.out | tr -d '[]' | tr ',' '\n' | sed 's/ //g' | sort | uniq -c
