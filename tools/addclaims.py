"""Merge claims given on stdin (a Python literal list of (property, status, [theorems without EDB.], note)) into claims.json."""
import ast, json, sys
P = '/verif/tools/claims.json'
cur = {c['property']: c for c in json.load(open(P))}
for p, s, t, n in ast.literal_eval(sys.stdin.read()):
    cur[p] = {'property': p, 'status': s, 'theorems': [x if x.startswith(('EDB.', 'Spec.')) else 'EDB.' + x for x in t], 'note': n}
json.dump([cur[k] for k in sorted(cur)], open(P, 'w'), indent=1)
