#!/bin/sh
# prints the axioms of every theorem named in MANIFEST.json that uses anything but the three standard ones
cd "$(dirname "$0")/../lean" || exit 1
f=$(mktemp --suffix=.lean)
{ echo "import Verif"; python3 -c "
import json
for c in json.load(open('../MANIFEST.json'))['claims']:
    for t in c['theorems']: print('#print axioms', t)"; } > "$f"
lake env lean "$f" | tr '\n' ' ' | sed "s/'SC/\n'SC/g" | grep -v "^ *$" > "$f.out"
echo "theorems: $(wc -l < "$f.out")"
sed -e 's/propext//; s/Classical.choice//; s/Quot.sound//' "$f.out" | grep -v "does not depend\|\[[ ,]*\]" && echo "NON-STANDARD AXIOMS ABOVE"
rm -f "$f" "$f.out"
