#!/usr/bin/env python3
"""Apply each mutant of a list to a scratch copy of lean/, rebuild, and log which theorems fail.

usage: mutate.py mutants/file.json   (entries: file, definition, old, new, edit, claim, [tightened])
MUT_TARGETS: the modules to build (all of them if it is not set).
Survivors (no theorem fails) are printed and not logged: they have to be analysed first.
"""
import json, os, re, shutil, subprocess, sys
ROOT = os.path.dirname(os.path.dirname(os.path.abspath(__file__)))
SCR = '/tmp/mut/lean'
LOG = f'{ROOT}/seeded/LOG.jsonl'
env = dict(os.environ, PATH='/app/lean4-4.33.0/build/release/stage1/bin:' + os.environ['PATH'])

def enclosing(path, line):
    name = None
    for i, l in enumerate(open(path), 1):
        if i > line: break
        m = re.match(r'\s*(?:@\[.*\] )?(?:private )?(theorem|def|example|instance|lemma)\s*(\S*)', l)
        if m: name = m.group(2) if m.group(1) != 'example' else f'example (line {i})'
    return name

def main():
    done = set()
    if os.path.exists(LOG):
        for l in open(LOG):
            d = json.loads(l); done.add((d['definition'], d['edit']))
    muts = json.load(open(sys.argv[1]))
    only = sys.argv[2:]
    surv = []
    shutil.rmtree('/tmp/mutbase', ignore_errors=True); subprocess.run(['cp', '-a', f'{ROOT}/lean', '/tmp/mutbase'], check=True)
    for n, m in enumerate(muts):
        if only and str(n) not in only: continue
        if (m['definition'], m['edit']) in done: continue
        os.makedirs('/tmp/mut', exist_ok=True)
        shutil.rmtree(SCR, ignore_errors=True); subprocess.run(['cp', '-a', '/tmp/mutbase', SCR], check=True)
        p = f'{SCR}/Verif/{m["file"]}'
        s = open(p).read()
        if s.count(m['old']) != 1:
            print(f'#{n} {m["definition"]}: pattern occurs {s.count(m["old"])} times'); continue
        open(p, 'w').write(s.replace(m['old'], m['new']))
        r = subprocess.run(['lake', 'build'] + os.environ.get('MUT_TARGETS', '').split(), cwd=SCR, env=env, capture_output=True, text=True)
        out = r.stdout + r.stderr
        fails, modelerr = [], False
        for f, l in re.findall(r'error: (Verif/\S+?\.lean):(\d+):\d+', out):
            nm = enclosing(f'{SCR}/{f}', int(l))
            if '/Model/' in f: modelerr = True
            if nm and nm not in fails: fails.append(nm)
        if modelerr:
            print(f'#{n} {m["definition"]}: the edited model does not compile\n' + out[:1500]); continue
        if r.returncode == 0:
            print(f'#{n} SURVIVED {m["definition"]}: {m["edit"]} -- {m["claim"]}', flush=True); surv.append(n); continue
        rec = {'definition': m['definition'], 'edit': m['edit'], 'claim': m['claim'], 'failed': fails, 'tightened': m.get('tightened', [])}
        open(LOG, 'a').write(json.dumps(rec, ensure_ascii=False) + '\n')
        print(f'#{n} killed {m["definition"]}: {fails[:4]}', flush=True)
    print('survivors', surv)
main()
