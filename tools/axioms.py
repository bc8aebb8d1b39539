"""Write AXIOMS.md: the axioms each theorem of MANIFEST.json depends on, as Lean prints them."""
import json, re, subprocess, collections
M = json.load(open('/verif/MANIFEST.json'))
names = [t for c in M['claims'] for t in c['theorems']]
src = 'import Verif\n' + ''.join('#print axioms %s\n' % n for n in names)
open('/tmp/axioms.lean', 'w').write(src)
out = subprocess.run(['lake', 'env', 'lean', '/tmp/axioms.lean'], cwd='/verif/lean', capture_output=True, text=True).stdout
dep = {}
for m in re.finditer(r"'([^']+)' (does not depend on any axioms|depends on axioms: \[([^\]]*)\])", out):
    dep[m.group(1)] = ', '.join(sorted(x.strip() for x in (m.group(3) or '').split(','))) or 'none'
groups = collections.OrderedDict()
for n in names:
    groups.setdefault(dep.get(n, 'MISSING'), []).append(n)
with open('/verif/AXIOMS.md', 'w') as f:
    f.write('# Axioms of the theorems in MANIFEST.json\n\nAs printed by `#print axioms` (written by `tools/axioms.py`).\n')
    for k in sorted(groups):
        f.write('\n## %s\n\n' % k)
        for n in groups[k]:
            f.write('* `%s`\n' % n)
print({k: len(v) for k, v in groups.items()})
