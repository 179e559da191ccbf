#!/bin/sh
# Prints the axioms of every theorem named in MANIFEST.json.  Run after `lake build`.
# Fails when a theorem does not exist.
cd "$(dirname "$0")/.." || exit 1
f=$(mktemp --suffix=.lean)
{
  echo "import Verif"
  python3 -c "
import json
for c in json.load(open('MANIFEST.json'))['claims']:
    for t in c['theorems']: print('#print axioms', t)"
} > "$f"
cd lean && lake env lean "$f" > "$f.out"; code=$?
cat "$f.out" | tr '\n' ' ' | sed "s/ '/\n'/g; s/  */ /g"
echo
rm -f "$f" "$f.out"
exit $code
