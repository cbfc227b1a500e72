#!/bin/sh
# Writes AXIOMS.md: the axioms of every theorem named in MANIFEST.json (needs a finished build).
cd "$(dirname "$0")/../lean" || exit 1
python3 - <<'P' > /tmp/axioms.lean
import json
m = json.load(open('../MANIFEST.json'))
print('import Verif')
for n in sorted({t for c in m['claims'] for t in c['theorems']}):
    print('#print axioms ' + (n if n.startswith('Ocnn') else 'Ocnn.' + n))
P
{
  echo "# Axioms of the property theorems"
  echo
  lake env lean /tmp/axioms.lean | tr '\n' ' ' | sed "s/'Ocnn/\n'Ocnn/g" | sed "s/  */ /g; s/^'\(.*\)' depends on axioms: /* \`\1\`: /; s/^'\(.*\)' does not depend on any axioms/* \`\1\`: none/"
  echo
} > ../AXIOMS.md
