#!/usr/bin/env python3
"""Writes MANIFEST.json from the table below; checks that every theorem named exists in the sources."""
import json, re, pathlib
root = pathlib.Path(__file__).resolve().parent.parent
C = {}
def claim(pid, status, theorems, note=''):
    C[pid] = dict(property=pid, status=status, theorems=theorems.split(), note=note)
exec((root / 'tools' / 'claims.py').read_text())
src = '\n'.join(p.read_text() for p in (root / 'lean' / 'Verif').rglob('*.lean'))
props = [json.loads(l)['id'] for l in (root / 'properties.jsonl').read_text().splitlines() if l.strip()]
names = {}
for p in (root / 'lean' / 'Verif').rglob('*.lean'):
    ns = []
    for line in p.read_text().splitlines():
        m = re.match(r'namespace (\S+)', line)
        if m: ns.append(m.group(1))
        m = re.match(r'end (\S+)', line)
        if m and ns and ns[-1] == m.group(1): ns.pop()
        m = re.match(r'(?:@\[[^\]]*\] )?(?:private |protected )?theorem (\S+)', line)
        if m: names.setdefault(m.group(1), []).append('.'.join(ns + [m.group(1)]))
out = []
for pid in props:
    if pid not in C:
        print('no claim for', pid); continue
    c = C[pid]
    full = []
    for t in c['theorems']:
        key = t.split('.')[-1] if t not in names else t
        cands = names.get(t) or [n for n in names.get(key, []) if n.endswith(t)]
        assert len(cands) == 1, (pid, t, cands)
        full.append(cands[0])
    c['theorems'] = full
    out.append(c)
(root / 'MANIFEST.json').write_text(json.dumps({'claims': out}, indent=1) + '\n')
print(len(out), 'claims')
