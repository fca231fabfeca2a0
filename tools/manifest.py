#!/usr/bin/env python3
"""Rebuild MANIFEST.json from the theorem names in the Lean modules and from notes.json.

A theorem belongs to property Cnn when its name starts with Cnn_. A property is `proved` when no
theorem of it has the suffix `_partial` and notes.json does not force another status.
notes.json may list further theorems of a property under `also`.
"""
import json, os, re

ROOT = os.path.dirname(os.path.dirname(os.path.abspath(__file__)))
notes = json.load(open(os.path.join(ROOT, 'tools', 'notes.json')))
props = [json.loads(l)['id'] for l in open(os.path.join(ROOT, 'properties.jsonl'))]
found = {}
for d, _, fs in sorted(os.walk(os.path.join(ROOT, 'lean', 'Verif'))):
    for fn in sorted(fs):
        if not fn.endswith('.lean'):
            continue
        ns = []
        for line in open(os.path.join(d, fn)):
            m = re.match(r'namespace\s+(\S+)', line)
            if m:
                ns.append(m.group(1))
            m = re.match(r'end\s+(\S+)', line)
            if m and ns and ns[-1] == m.group(1):
                ns.pop()
            m = re.match(r'(?:@\[[^\]]*\]\s*)?theorem\s+((C\d+)_\S+)', line)
            if m:
                found.setdefault(m.group(2), []).append('.'.join(ns + [m.group(1)]))
claims = []
for c in props:
    n = notes.get(c, {})
    ths = found.get(c, []) + n.get('also', [])
    if not ths and 'status' not in n:
        continue
    status = n.get('status') or (
        'partial' if any(t.endswith('_partial') for t in ths) else 'proved')
    claims.append({'property': c, 'status': status, 'theorems': ths, 'note': n.get('note', '')})
unknown = set(found) - set(props)
assert not unknown, unknown
json.dump({'claims': claims}, open(os.path.join(ROOT, 'MANIFEST.json'), 'w'),
          indent=1, ensure_ascii=False)
print(len(claims), 'claims;', 'missing:', [c for c in props if c not in {x['property'] for x in claims}])
