#!/usr/bin/env python3
"""Print the axioms of every theorem in MANIFEST.json to AXIOMS.txt."""
import json, re, subprocess
ths = sorted({t for c in json.load(open('/verif/MANIFEST.json'))['claims'] for t in c['theorems']})
src = 'import Verif\n' + ''.join('#print axioms %s\n' % t for t in ths)
open('/tmp/axioms.lean', 'w').write(src)
out = subprocess.run(['lake', 'env', 'lean', '/tmp/axioms.lean'], cwd='/verif/lean', capture_output=True, text=True).stdout
out = re.sub(r'\n\s+', ' ', out)
lines = sorted(out.strip().split('\n'))
open('/verif/AXIOMS.txt', 'w').write('\n'.join(lines) + '\n')
used = sorted({a for l in lines for a in re.findall(r'\[(.*)\]', l) for a in a.split(', ')})
print(len(ths), 'theorems', len(lines), 'lines; axioms:', used)
