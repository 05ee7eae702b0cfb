"""usage: logseeds.py OUT.jsonl [FIXES.json]: append results of seed.py (without errors) to seeded/LOG.jsonl.
FIXES maps ids to overrides (claim, tightened, note)."""
import json, sys
fix = json.load(open(sys.argv[2])) if len(sys.argv) > 2 else {}
P = '/verif/seeded/LOG.jsonl'
import os
try: seen = {x['id']: x['edit'] for x in map(json.loads, open(P))}
except FileNotFoundError: seen = {}
B = os.path.basename(sys.argv[1]).split('.')[0]
with open(P, 'a') as f:
    for l in open(sys.argv[1]):
        x = json.loads(l)
        g = fix.get(x['id'], {})
        ed = {'old': x['old'], 'new': x['new']}
        if x['id'] in seen and seen[x['id']] != ed: x['id'] = B + '-' + x['id']
        if x['id'] in seen or ('error' in x and 'failed' not in g): continue
        e = {'id': x['id'], 'definition': x['definition'], 'file': x['file'], 'edit': {'old': x['old'], 'new': x['new']},
             'claim': g.get('claim', x['claim']), 'failed': g.get('failed', x.get('failed')),
             'broken_proofs': x.get('broken_proofs', []), 'tightened': g.get('tightened', [])}
        if 'note' in g: e['note'] = g['note']
        f.write(json.dumps(e, ensure_ascii=False) + '\n')
