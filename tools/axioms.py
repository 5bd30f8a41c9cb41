"""Rewrite the section of DESIGN.md between the axiom markers: the axioms of every theorem named in MANIFEST.json."""
import json, re, subprocess, os
root = os.path.dirname(os.path.dirname(os.path.abspath(__file__)))
names = [t for c in json.load(open(root + '/MANIFEST.json'))['claims'] for t in c['theorems']]
src = '/tmp/PrintAxioms.lean'
open(src, 'w').write('import Verif\n' + ''.join(f'#print axioms {n}\n' for n in names))
out = subprocess.run(['lake', 'env', 'lean', src], cwd=root + '/lean', capture_output=True, text=True).stdout
groups = {}
for m in re.finditer(r"'(?:Verif\.)?(\S+)' (?:depends on axioms: \[([^\]]*)\]|does not depend on any axioms)", out):
    axioms = ', '.join(sorted(re.split(r',\s*', m.group(2).strip()))) if m.group(2) else 'no axioms'
    groups.setdefault(axioms, []).append(m.group(1))
assert sum(map(len, groups.values())) == len(names), (sum(map(len, groups.values())), len(names))
lines = []
for axioms, thms in sorted(groups.items()):
    lines.append(f'* {axioms} ({len(thms)} theorems): {", ".join(thms)}.')
p = root + '/DESIGN.md'
s = open(p).read()
a, b = '<!-- axioms -->\n', '<!-- /axioms -->'
i, j = s.index(a) + len(a), s.index(b)
open(p, 'w').write(s[:i] + '\n'.join(lines) + '\n' + s[j:])
print({k: len(v) for k, v in groups.items()})
