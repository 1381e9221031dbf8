#!/usr/bin/env python3
"""Regenerate /verif/MANIFEST.json from the theorem names in lean/Verif/Props and tools/notes.json."""
import json, os, re, collections
root = os.path.dirname(os.path.dirname(os.path.abspath(__file__)))
names = collections.defaultdict(list)
for d, _, fs in sorted(os.walk(os.path.join(root, 'lean', 'Verif', 'Props'))):
    for f in sorted(fs):
        ns = []
        for m in re.finditer(r'^(?:namespace (\S+)|end (\S+)|theorem (C\d\d)(_\w+))', open(os.path.join(d, f)).read(), re.M):
            if m.group(1):
                ns.append(m.group(1))
            elif m.group(2):
                if ns and ns[-1] == m.group(2):
                    ns.pop()
            else:
                names[m.group(3)].append('.'.join(ns + [m.group(3) + m.group(4)]))
notes = json.load(open(os.path.join(root, 'tools', 'notes.json')))
claims = []
for line in open(os.path.join(root, 'properties.jsonl')):
    i = json.loads(line)['id']
    n = notes.get(i, {})
    if not names[i] and n.get('status') != 'not_applicable':
        continue
    st = n.get('status') or ('partial' if any(x.endswith('_partial') or x.endswith('_violated') for x in names[i]) else 'proved')
    claims.append({'property': i, 'status': st, 'theorems': names[i], 'note': n.get('note', '')})
json.dump({'claims': claims}, open(os.path.join(root, 'MANIFEST.json'), 'w'), indent=1)
for c in claims:
    print(c['property'], c['status'], len(c['theorems']))
