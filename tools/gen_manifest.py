"""Collect the property theorems from lean/Verif/Props and write MANIFEST.json.

A theorem belongs to property Cnn when its name starts with `Cnn_`.
STATUS overrides the default status ("proved"); NOTES adds free text.
"""
import json, re, glob, os, collections
ROOT = os.path.dirname(os.path.dirname(os.path.abspath(__file__)))
props = [json.loads(l) for l in open(f'{ROOT}/properties.jsonl')]
thms = collections.defaultdict(list)
for f in sorted(glob.glob(f'{ROOT}/lean/Verif/Props/**/*.lean', recursive=True)):
    ns = []
    for line in open(f):
        m = re.match(r'\s*namespace\s+(\S+)', line)
        if m:
            ns.append(m.group(1)); continue
        m = re.match(r'\s*end\s+(\S+)', line)
        if m and ns and m.group(1) == ns[-1]:
            ns.pop(); continue
        m = re.match(r'\s*theorem\s+((C\d+)_[^\s:({\[]+)', line)
        if m:
            thms[m.group(2)].append('.'.join(ns + [m.group(1)]))
exec(open(f'{ROOT}/tools/manifest_notes.py').read())
for i, extra in EXTRA.items():
    thms[i] += extra
claims = []
for p in props:
    i = p['id']
    if thms[i] or i in STATUS:
        claims.append(dict(property=i, status=STATUS.get(i, 'proved'), theorems=thms[i],
                           note=NOTES.get(i, '')))
json.dump({'claims': claims}, open(f'{ROOT}/MANIFEST.json', 'w'), indent=1)
print(len(claims), 'claims;', sum(map(len, thms.values())), 'theorems; missing:',
      [p['id'] for p in props if not thms[p['id']] and p['id'] not in STATUS])
