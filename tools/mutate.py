#!/usr/bin/env python3
"""Run the seeded bugs of a file against the theorems, in a scratch copy.

usage: mutate.py SPEC.py [id ...]

SPEC.py defines M, a list of (id, file, definition, old, new, edit, claims).  `old` is replaced by `new`
in lean/Verif/Model/<file>; then everything is built.  One line per bug is written to /tmp/w/mut.jsonl,
with the manifest theorems of the claims that failed (the proof or a lemma it uses), that were not reached although
nothing they use failed, and that still check (survivors).
"""
import json, os, re, shutil, subprocess, sys, runpy

SRC = '/verif/lean'
DST = '/tmp/mut/lean'
OUT = '/tmp/w/mut.jsonl'

SNAP = '/tmp/mut/snapshot'

def snapshot():
    """A built copy to start every run from (so that /verif/lean may change meanwhile)."""
    subprocess.run(['rm', '-rf', SNAP], check=True)
    os.makedirs('/tmp/mut', exist_ok=True)
    subprocess.run(['cp', '-a', SRC, SNAP], check=True)
    shutil.copy('/verif/MANIFEST.json', '/tmp/mut/MANIFEST.json')
    shutil.copy('/tmp/w/deps.txt', '/tmp/mut/deps.txt')

def sync():
    subprocess.run(['rm', '-rf', DST], check=True)
    subprocess.run(['cp', '-a', SNAP, DST], check=True)

def module_of(path):
    return path[:-5].replace('/', '.')

DECL = re.compile(r'\s*(?:@\[[^\]]*\]\s*)?(?:private\s+)?(?:theorem|def|example|instance|abbrev|inductive)\b\s*(\S*)')

def theorems_at(path, line):
    """The declaration at a line; all declarations of the block if it is in a mutual block."""
    name, block, inside = None, [], False
    for i, l in enumerate(open(os.path.join(DST, path)), 1):
        if l.startswith('mutual'):
            if i > line:
                break
            inside, block = True, []
        elif l.startswith('end') and inside:
            if i > line:
                break
            inside = False
        m = DECL.match(l)
        if m and inside:
            block.append(m.group(1))
        if m and i <= line:
            name = m.group(1) or 'example'
        if i > line and not inside:
            break
    return set(block) if inside else {name}

def home_of_theorems():
    home = {}
    for root, _, fs in os.walk(os.path.join(DST, 'Verif/Props')):
        for f in fs:
            p = os.path.join(root, f)
            for l in open(p):
                m = re.match(r'(?:private\s+)?theorem\s+(\S+)', l)
                if m:
                    home[m.group(1)] = os.path.relpath(p, DST)
    return home

def run(m):
    mid, f, definition, old, new, edit, claims = m
    sync()
    p = os.path.join(DST, 'Verif/Model', f)
    s = open(p).read()
    if s.count(old) != 1:
        return {'id': mid, 'bad': 'old text occurs %d times' % s.count(old)}
    open(p, 'w').write(s.replace(old, new))
    r = subprocess.run(['nice', 'lake', 'build'], cwd=DST, capture_output=True, text=True)
    out = r.stdout + r.stderr
    errs = {}
    for mm in re.finditer(r'error: (?:\./)?(Verif/\S+?\.lean):(\d+):\d+', out):
        errs.setdefault(mm.group(1), set()).update(theorems_at(mm.group(1), int(mm.group(2))))
    failed_mods = {module_of(e) for e in errs}
    imports = {}
    for root, _, fs in os.walk(os.path.join(DST, 'Verif')):
        for g in fs:
            if g.endswith('.lean'):
                q = os.path.join(root, g)
                imports[module_of(os.path.relpath(q, DST))] = re.findall(r'^import (Verif\S+)', open(q).read(), re.M)
    def blocked(mod):
        return any(i in failed_mods or blocked(i) for i in imports.get(mod, []))
    home = home_of_theorems()
    deps = {}
    for l in open('/tmp/mut/deps.txt'):
        w = l.split()
        deps[w[0].split('.')[-1]] = {x.split('.')[-1] for x in w[1:]}
    bad = {x.split('.')[-1] for h in errs for x in errs[h] if x}
    man = json.load(open('/tmp/mut/MANIFEST.json'))
    thms = []
    for c in man['claims']:
        if c['property'] in claims:
            thms += [t.split('.')[-1] for t in c['theorems']]
    # failed: the proof, or a lemma it uses, does not check; unknown: in a module that was not reached,
    # without using a lemma that failed; survived: checked again
    res = {'failed': [], 'unknown': [], 'survived': []}
    for t in dict.fromkeys(thms):
        mod = module_of(home[t])
        if t in bad or deps.get(t, set()) & bad:
            res['failed'].append(t)
        elif blocked(mod):
            res['unknown'].append(t)
        else:
            res['survived'].append(t)
    others = sorted(x for h in errs for x in errs[h] if x)
    return {'id': mid, 'definition': definition, 'edit': edit, 'claims': claims, 'errors': others,
            'model_broken': any(h.startswith('Verif/Model') for h in errs), **res}

if __name__ == '__main__':
    spec = runpy.run_path(sys.argv[1])['M']
    want = sys.argv[2:]
    snapshot()
    for m in spec:
        if want and m[0] not in want:
            continue
        r = run(m)
        print(json.dumps(r), flush=True)
        with open(OUT, 'a') as o:
            o.write(json.dumps(r) + '\n')
