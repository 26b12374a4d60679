#!/bin/bash
# Writes AXIOMS.txt: the axioms each theorem of MANIFEST.json depends on (needs a finished lake build).
cd "$(dirname "$0")/.."
t=$(mktemp -d)
python3 - "$t" <<'P'
import json,sys
M=json.load(open('MANIFEST.json'))
n=sorted({t for c in M['claims'] for t in c['theorems']})
open(sys.argv[1]+'/ax.lean','w').write('import Verif\n'+'\n'.join(f'#print axioms {x}' for x in n)+'\n')
P
(cd lean && lake env lean $t/ax.lean) | tr '\n' ' ' | sed "s/ '/\n'/g; s/  */ /g" > AXIOMS.txt
echo >> AXIOMS.txt
rm -r $t
