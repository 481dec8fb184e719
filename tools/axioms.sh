#!/bin/sh
# Prints the axioms the theorems of the manifest depend on, other than the three of Lean's logic.
cd "$(dirname "$0")/../lean" || exit 1
f=$(mktemp --suffix=.lean)
{ echo "import Verif"; python3 -c "
import json
for c in json.load(open('../MANIFEST.json'))['claims']:
    for t in c['theorems']: print('#print axioms ' + t)"; } > "$f"
lake env lean "$f" | grep -v "depends on axioms: \[\(propext\|Classical.choice\|Quot.sound\|, \)*\]$" | grep -v "does not depend on any axioms" || echo "only propext, Classical.choice, Quot.sound"
rm -f "$f"
