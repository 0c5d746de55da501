"""Writes lean/Verif/Model/EntityTable.lean from the literal table in kajiki/entities.py.

The repo file is only parsed as text (ast.literal_eval of the dictionary literal)."""
import ast, os
ROOT = os.path.dirname(os.path.dirname(os.path.abspath(__file__)))
src = open('/repo/kajiki/entities.py', encoding='utf-8').read()
tree = ast.parse(src)
d = None
for node in tree.body:
    if isinstance(node, ast.Assign) and getattr(node.targets[0], 'id', '') == 'html5':
        lit = node.value
        keys = [ast.literal_eval(k) for k in lit.keys]
        vals = [ast.literal_eval(v) for v in lit.values]
        first, last = lit.lineno, lit.end_lineno
assert len(set(keys)) == len(keys)
out = ['import Verif.Model.PyStr', '', '/-!', '# The entity table',
       '', 'Generated by `tools/gen_entities.py` from `kajiki/entities.py` %d-%d, in the same order.' % (first, last),
       'Keys and values are given as code points, with the key as text in a comment.', '-/', '', 'namespace Kajiki', '']
N = 200
chunks = []
for i in range(0, len(keys), N):
    nm = 'html5Chunk%d' % (i // N)
    chunks.append(nm)
    out.append('/-- Entries %d.. of `html5` (`kajiki/entities.py` %d-%d). -/' % (i, first, last))
    out.append('def %s : List (List Nat × List Nat) := [' % nm)
    ents = list(zip(keys[i:i+N], vals[i:i+N]))
    lines = []
    for j, (k, v) in enumerate(ents):
        e = '([%s], [%s])' % (', '.join(str(ord(c)) for c in k), ', '.join('0x%x' % ord(c) for c in v))
        lines.append('  ' + e + (',' if j < len(ents) - 1 else ']') + ' -- ' + k)
    out += lines + ['']
out.append('/-- `html5` (`kajiki/entities.py` %d-%d). -/' % (first, last))
out.append('def html5Table : List (List Nat × List Nat) :=')
out.append('  ' + ' ++\n  '.join(chunks))
out += ['', 'end Kajiki', '']
open(f'{ROOT}/lean/Verif/Model/EntityTable.lean', 'w').write('\n'.join(out))
print(len(keys), chunks[-1])
