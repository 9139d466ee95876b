#!/usr/bin/env python3
"""List functions/methods of /repo/guessit and whether the model cites lines inside them."""
import ast, os, re, sys
cites = {}
for root, _, files in os.walk('/verif/lean/Verif'):
    for f in files:
        s = open(os.path.join(root, f)).read()
        last = None
        for m in re.finditer(r'([\w/]+\.py):(\d+)(?:-(\d+))?|, (\d+)-(\d+)', s):
            if m.group(1):
                last = m.group(1); a = int(m.group(2)); b = int(m.group(3) or a)
            else:
                a, b = int(m.group(4)), int(m.group(5))
            if last: cites.setdefault(last, []).append((a, b))
tot = cov = 0
for root, _, files in os.walk('/repo/guessit'):
    if 'test' in root: continue
    for f in sorted(files):
        if not f.endswith('.py'): continue
        p = os.path.join(root, f); rel = os.path.relpath(p, '/repo/guessit')
        cs = [c for k, v in cites.items() if rel.endswith(k) and (k.count('/') or True) for c in v]
        t = ast.parse(open(p).read())
        def walk(n, pre):
            global tot, cov
            for c in ast.iter_child_nodes(n):
                if isinstance(c, (ast.FunctionDef, ast.ClassDef)):
                    name = pre + c.name
                    if isinstance(c, ast.FunctionDef) and c.name not in ('enabled', '__init__'):
                        hit = any(a <= c.end_lineno and b >= c.lineno for a, b in cs)
                        tot += 1; cov += hit
                        if not hit: print(f'{rel}:{c.lineno}-{c.end_lineno} {name}')
                    walk(c, name + '.')
        walk(t, '')
print(cov, '/', tot)
