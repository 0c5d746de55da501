#!/usr/bin/env python3
"""Write seeded/LOG.jsonl from the results of tools/mutate.py (the last result of every bug counts).

usage: gen_log.py RESULTS.jsonl ...
"""
import json, os, runpy, sys

here = os.path.dirname(os.path.abspath(__file__))
notes = runpy.run_path(os.path.join(here, '..', 'seeded', 'notes.py'))
TIGHTENED, NOTE = notes['TIGHTENED'], notes['NOTE']
log = os.path.join(here, '..', 'seeded', 'LOG.jsonl')
last = {}
if os.path.exists(log):
    for l in open(log):
        if l.strip():
            r = json.loads(l)
            last[r['id']] = r
for f in sys.argv[1:]:
    for l in open(f):
        l = l.strip()
        if not l.startswith('{'):
            continue
        r = json.loads(l)
        if 'bad' in r:
            continue
        last[r['id']] = {'id': r['id'], 'definition': r['definition'], 'edit': r['edit'], 'claim': r['claims'],
                         'theorems_failed': r['failed'], 'declarations_failed': r['errors'],
                         'not_reached': r['unknown'], 'still_prove': r['survived']}
with open(log, 'w') as o:
    for i, r in last.items():
        r['tightened'] = TIGHTENED.get(i, [])
        r.pop('note', None)
        if i in NOTE:
            r['note'] = NOTE[i]
        o.write(json.dumps(r) + '\n')
print(len(last), 'entries')
