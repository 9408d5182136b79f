#!/usr/bin/env python3
"""Asks Lean for the axioms of every theorem named in MANIFEST.json and rewrites the table at the end of DESIGN.md."""
import json, pathlib, re, subprocess, tempfile, collections
root = pathlib.Path(__file__).resolve().parent.parent
ths = sorted({t for c in json.load(open(root / 'MANIFEST.json'))['claims'] for t in c['theorems']})
with tempfile.NamedTemporaryFile('w', suffix='.lean', delete=False) as f:
    f.write('import Verif\n' + ''.join(f'#print axioms {t}\n' for t in ths))
out = subprocess.run(['lake', 'env', 'lean', f.name], cwd=root / 'lean', capture_output=True, text=True).stdout
groups = collections.defaultdict(list)
for m in re.finditer(r"'([^']+)' (?:depends on axioms: \[([^\]]*)\]|(does not depend on any axioms))", out):
    ax = 'none' if m.group(3) else ', '.join(sorted(a.strip() for a in m.group(2).split(',')))
    groups[ax].append(m.group(1))
assert sum(map(len, groups.values())) == len(ths), out[-2000:]
text = ['<!-- axioms: begin (tools/gen_axioms.py) -->', '']
for ax, l in sorted(groups.items()):
    text += [f'**{ax}** ({len(l)} theorems): ' + ', '.join('`' + t.removeprefix('Verif.') + '`' for t in l), '']
text.append('<!-- axioms: end -->')
p = root / 'DESIGN.md'
s = p.read_text()
s = re.sub(r'<!-- axioms: begin.*?<!-- axioms: end -->', lambda _: '\n'.join(text), s, flags=re.S)
p.write_text(s)
for ax, l in groups.items(): print(ax, len(l))
