#!/bin/sh
# Regenerate AXIOMS.txt: the axioms each theorem of MANIFEST.json depends on.  Needs a finished build.
cd "$(dirname "$0")/../lean" || exit 1
f=$(mktemp /tmp/axXXXXXX.lean)
python3 -c "
import json
print('import Verif')
for c in json.load(open('../MANIFEST.json'))['claims']:
    for t in c['theorems']: print('#print axioms', t)" > "$f"
lake env lean "$f" > ../AXIOMS.txt
rm "$f"
