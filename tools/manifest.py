#!/usr/bin/env python3
"""Generates MANIFEST.json: theorem names are collected from lean/Verif/Props by prefix cNN_;
status and notes come from the table below."""
import json, re, glob, os
root = os.path.join(os.path.dirname(__file__), '..')
props = [json.loads(l)['id'] for l in open(os.path.join(root, 'properties.jsonl'))]
found = {}
for f in sorted(glob.glob(os.path.join(root, 'lean/Verif/Props/**/*.lean'), recursive=True)):
    ns = []
    for line in open(f):
        m = re.match(r'namespace (\S+)', line)
        if m: ns.append(m.group(1))
        m = re.match(r'end (\S+)', line)
        if m and ns and ns[-1] == m.group(1): ns.pop()
        m = re.match(r'theorem (c(\d\d+)_\S+)', line)
        if m: found.setdefault('C' + m.group(2), []).append('.'.join(ns + [m.group(1)]))
exec(open(os.path.join(os.path.dirname(__file__), 'status.py')).read())
claims = []
for p in props:
    st, note = STATUS.get(p, (None, ''))
    th = found.get(p, [])
    if st is None:
        st = 'partial' if th else 'partial'
        note = note or 'not yet proved'
    if not th and st == 'proved': raise SystemExit('no theorems for ' + p)
    claims.append({'property': p, 'status': st, 'theorems': th, 'note': note})
json.dump({'claims': claims}, open(os.path.join(root, 'MANIFEST.json'), 'w'), indent=1)
print({s: sum(c['status'] == s for c in claims) for s in ('proved', 'partial', 'not_applicable')},
      'no theorems:', [c['property'] for c in claims if not c['theorems']])
