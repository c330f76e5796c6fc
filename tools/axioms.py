"""Rewrites the table of axioms at the end of DESIGN.md from MANIFEST.json (run in /verif, needs a built project)."""
import json, re, subprocess
m = json.load(open('MANIFEST.json'))
names = []
for c in m['claims']:
    for t in c['theorems']:
        if t not in names: names.append(t)
open('/tmp/axioms.lean', 'w').write('import Verif\n' + ''.join(f'#print axioms {t}\n' for t in names))
out = subprocess.run(['lake', 'env', 'lean', '/tmp/axioms.lean'], cwd='lean', capture_output=True, text=True).stdout
groups = {}
for mm in re.finditer(r"'([^']*)' (?:depends on axioms: \[([^\]]*)\]|does not depend on any axioms)", out):
    ax = ', '.join(x.strip() for x in (mm.group(2) or 'none').split(','))
    groups.setdefault(ax, []).append(mm.group(1).replace('Rustla.', '', 1))
s = open('DESIGN.md').read()
s = s[:s.index('<!-- axioms -->')] + '<!-- axioms -->\n## Axioms per theorem\n\n'
for ax in sorted(groups, key=len):
    s += f'* {ax}: ' + ', '.join(f'`{n}`' for n in groups[ax]) + '\n'
open('DESIGN.md', 'w').write(s)
print({k: len(v) for k, v in groups.items()})
