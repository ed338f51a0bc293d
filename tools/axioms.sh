#!/bin/bash
# Writes AXIOMS.md: the axioms each theorem of MANIFEST.json depends on.  Run from anywhere after `lake build`.
cd "$(dirname "$0")/.."
python3 - > /tmp/axioms_check.lean <<'P'
import json
print("import Verif")
for c in json.load(open('MANIFEST.json'))['claims']:
    for t in c['theorems']: print("#print axioms", t)
P
cd lean && lake env lean /tmp/axioms_check.lean > /tmp/axioms_out.txt 2>&1
python3 - > ../AXIOMS.md <<'P'
import re
s=open('/tmp/axioms_out.txt').read()
print("# Axioms per theorem\n\n| theorem | axioms |\n|---|---|")
for m in re.finditer(r"'([^']+)' (?:depends on axioms: \[([^\]]*)\]|does not depend on any axioms)", s):
    a=' '.join((m.group(2) or 'none').split())
    print(f"| `{m.group(1)}` | {a} |")
P
