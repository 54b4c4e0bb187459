#!/bin/bash
# Prints the axioms that the theorems of MANIFEST.json depend on, one line per distinct set, with the number of theorems.
set -e
root=$(cd "$(dirname "$0")/.." && pwd)
f=$(mktemp --suffix=.lean)
{ echo "import Verif"; python3 - "$root" <<'P'
import json, sys
for c in json.load(open(sys.argv[1] + '/MANIFEST.json'))['claims']:
    for t in c['theorems']:
        print('#print axioms', t)
P
} > "$f"
(cd "$root/lean" && lake env lean "$f") | tr '\n' ' ' | sed "s/' /'\n/g; s/\] /]\n/g" | grep -o 'depends on axioms: .*\|does not depend on any axioms' | sort | uniq -c
rm -f "$f"
