#!/bin/sh
# Prints the axioms of every theorem of MANIFEST.json (the project must have been built), one line per set of axioms with its number of theorems.
cd "$(dirname "$0")/../lean" || exit 1
tmp=$(mktemp -d)
{
  echo 'import Verif'
  python3 -c "
import json
for c in json.load(open('../MANIFEST.json'))['claims']:
    for t in c['theorems']: print('#print axioms', t)"
} > "$tmp/Axioms.lean"
lake env lean "$tmp/Axioms.lean" | tr '\n' ' ' | sed "s/ '/\n'/g" | sed "s/^'[^']*' //" | sort | uniq -c
rm -r "$tmp"
