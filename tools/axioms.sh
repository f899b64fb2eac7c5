#!/bin/sh
# Prints the axioms each theorem of MANIFEST.json rests on (run after `lake build`).
cd "$(dirname "$0")/../lean" || exit 1
f=$(mktemp /tmp/axioms.XXXXXX.lean)
{ echo 'import Verif'
  python3 -c 'import json
for c in json.load(open("../MANIFEST.json"))["claims"]:
    for t in c["theorems"]: print("#print axioms", t)'
} > "$f"
lake env lean "$f"
rm -f "$f"
