#!/usr/bin/env python3
"""Writes MANIFEST.json and checks that every theorem named in it exists in the sources."""
import json, re, glob, os, sys
root = os.path.dirname(os.path.dirname(os.path.abspath(__file__)))
claims = json.load(open(os.path.join(root, 'tools', 'claims.json')))
names = set()
for f in glob.glob(os.path.join(root, 'lean/Verif/**/*.lean'), recursive=True):
    ns = []
    for line in open(f):
        m = re.match(r'namespace\s+(\S+)', line)
        if m: ns.append(m.group(1))
        m = re.match(r'end\s+(\S+)', line)
        if m and ns and ns[-1] == m.group(1): ns.pop()
        m = re.match(r'(?:@\[[^\]]*\]\s*)?theorem\s+(\S+)', line)
        if m: names.add('.'.join(ns + [m.group(1)]))
bad = [t for c in claims for t in c['theorems'] if t not in names]
ids = [json.loads(l)['id'] for l in open(os.path.join(root, 'properties.jsonl'))]
have = {c['property'] for c in claims}
if bad: print('missing theorems:', bad)
print('properties without claim:', [i for i in ids if i not in have])
json.dump({'claims': claims}, open(os.path.join(root, 'MANIFEST.json'), 'w'), indent=1)
sys.exit(1 if bad else 0)
