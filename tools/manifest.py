#!/usr/bin/env python3
"""Writes MANIFEST.json from the theorem names in lean/Verif/Props and the notes below."""
import json, os, re, glob
root = os.path.dirname(os.path.dirname(os.path.abspath(__file__)))
notes = json.load(open(os.path.join(root, 'tools', 'notes.json')))
th = {}
for f in sorted(glob.glob(os.path.join(root, 'lean/Verif/Props/**/*.lean'), recursive=True)):
    for m in re.finditer(r'^(?:@\[[^\]]*\]\s*)?theorem\s+(C\d\d+)(_\w+)', open(f).read(), re.M):
        th.setdefault(m.group(1), []).append('MU.' + m.group(1) + m.group(2))
claims = []
for l in open(os.path.join(root, 'properties.jsonl')):
    pid = json.loads(l)['id']
    n = notes.get(pid, {})
    names = th.get(pid, [])
    if n.get('status'):
        st = n['status']
    elif not names:
        continue
    else:
        st = 'partial' if any(x.endswith('_partial') or x.endswith('_refuted') for x in names) else 'proved'
    claims.append({'property': pid, 'status': st, 'theorems': names, 'note': n.get('note', '')})
json.dump({'claims': claims}, open(os.path.join(root, 'MANIFEST.json'), 'w'), indent=1)
from collections import Counter
print(Counter(c['status'] for c in claims), 'missing:', [json.loads(l)['id'] for l in open(os.path.join(root, 'properties.jsonl')) if json.loads(l)['id'] not in {c['property'] for c in claims}])
