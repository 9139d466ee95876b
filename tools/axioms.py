#!/usr/bin/env python3
"""Write AXIOMS.md: the axioms each manifest theorem depends on, as the kernel reports them (#print axioms)."""
import json, os, re, subprocess, collections
ROOT = os.path.dirname(os.path.dirname(os.path.abspath(__file__)))
env = dict(os.environ, PATH='/app/lean4-4.33.0/build/release/stage1/bin:' + os.environ['PATH'])
m = json.load(open(f'{ROOT}/MANIFEST.json'))
ths = [t for c in m['claims'] for t in c['theorems']]
f = '/tmp/axioms.lean'
open(f, 'w').write('import Verif\n' + ''.join(f'#print axioms {t}\n' for t in ths))
out = subprocess.run(['lake', 'env', 'lean', f], cwd=f'{ROOT}/lean', env=env, capture_output=True, text=True).stdout
out = re.sub(r'\n\s+', ' ', out)
res = {}
for l in out.splitlines():
    a = re.match(r"'(.*)' depends on axioms: \[(.*)\]", l); b = re.match(r"'(.*)' does not depend on any axioms", l)
    if a: res[a.group(1)] = a.group(2)
    elif b: res[b.group(1)] = 'none'
    else: print('??', l)
by = collections.OrderedDict()
for t in ths: by.setdefault(res[t], []).append(t)
with open(f'{ROOT}/AXIOMS.md', 'w') as o:
    o.write('# Axioms of each theorem (output of #print axioms, grouped; generated by tools/axioms.py)\n')
    for k in sorted(by):
        o.write(f'\n## {k}\n\n' + ', '.join(t.replace('Guessit.', '') for t in by[k]) + '\n')
print({k: len(v) for k, v in by.items()})
