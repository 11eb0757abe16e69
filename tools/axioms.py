#!/usr/bin/env python3
"""Print the axioms of every theorem named in MANIFEST.json to tools/axioms.txt (needs a build)."""
import json, subprocess, re, collections
m = json.load(open('/verif/MANIFEST.json'))
ths = sorted({t for c in m['claims'] for t in c['theorems']})
src = 'import Verif\n' + ''.join(f'#print axioms {t}\n' for t in ths)
open('/tmp/axioms.lean', 'w').write(src)
out = subprocess.run(['lake', 'env', 'lean', '/tmp/axioms.lean'], cwd='/verif/lean', capture_output=True, text=True).stdout
out = re.sub(r',\n\s*', ', ', out)
open('/verif/tools/axioms.txt', 'w').write(out)
used = collections.Counter(re.sub(r".*depends on axioms: ", "", l) if 'depends' in l else 'none' for l in out.splitlines() if l)
print(used)
