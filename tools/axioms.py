"""Writes AXIOMS.md: the axioms each theorem named in MANIFEST.json depends on (needs a finished `lake build`)."""
import json, re, subprocess, collections
m = json.load(open('/verif/MANIFEST.json'))
names = [(c['property'], t) for c in m['claims'] for t in c['theorems']]
src = 'import Verif\n' + ''.join('#print axioms %s\n' % t for _, t in names)
open('/tmp/axioms_all.lean', 'w').write(src)
out = subprocess.run(['lake', 'env', 'lean', '/tmp/axioms_all.lean'], cwd='/verif/lean', capture_output=True, text=True).stdout
ax = {}
for x in re.finditer(r"'([^']+)' (?:depends on axioms: \[([^\]]*)\]|does not depend on any axioms)", out):
    ax[x.group(1)] = re.sub(r'\s+', ' ', x.group(2) or '')
allowed = {'propext', 'Classical.choice', 'Quot.sound'}
with open('/verif/AXIOMS.md', 'w') as f:
    f.write('# Axioms per theorem\n\nWritten by tools/axioms.py from the output of `#print axioms`.\n\n| property | theorem | axioms |\n|---|---|---|\n')
    for p, t in names:
        a = ax[t]
        assert set(filter(None, a.split(', '))) <= allowed, (t, a)
        f.write('| %s | `%s` | %s |\n' % (p, t, a or 'none'))
print(len(names), collections.Counter(ax.values()))
