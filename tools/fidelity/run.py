"""Runs the model of the whole program (executed by Lean, not proved) on the project's own yml cases and compares what it reports.  python3 tools/fidelity/run.py [file filter]"""
import os
HERE=os.path.dirname(os.path.abspath(__file__))
import sys,glob,shlex,subprocess,re
sys.path.insert(0,HERE)
import yml
DEF={'expected_title':['OSS 117','This is Us'],'allowed_countries':['au','gb','us'],'allowed_languages':"ca cs de en es fr he hi hu it ja ko mul nl no pl pt ro ru sv te uk und".split()}
def opts(s):
    o={k:list(v) for k,v in DEF.items()}
    a=shlex.split(s) if isinstance(s,str) else s
    i=0
    while i<len(a):
        x=a[i]
        def add(k):
            o.setdefault(k,[]); o[k].append(a[i+1])
        if x in('-t','--type'): o['type']=a[i+1]; i+=2; continue
        if x in('--exclude','--excludes'): add('excludes'); i+=2; continue
        if x in('--include','--includes'): add('includes'); i+=2; continue
        if x in('-T','--expected-title'): add('expected_title'); i+=2; continue
        if x=='-G': add('expected_group'); i+=2; continue
        if x=='-L': add('allowed_languages'); i+=2; continue
        if x=='-C': add('allowed_countries'); i+=2; continue
        if x in('-E','--episode-prefer-number'): o['episode_prefer_number']='True'
        elif x in('-n','--name-only'): o['name_only']='True'
        elif x=='--date-year-first': o['date_year_first']='True'
        elif x=='--date-day-first': o['date_day_first']='True'
        elif x=='--no-default-config': o={}
        else: return None
        i+=1
    return o
LT=[l.split(',') for l in """und,,undetermined
mul,,multiple languages,multi,multiple,dl
eng,en,english
fra,fr,french,français,vf,vff,fre
spa,es,spanish,esp,español,espanol
deu,de,german,ger
ita,it,italian
por,pt,portuguese
rus,ru,russian
jpn,ja,japanese,jp
kor,ko,korean
nld,nl,dutch
nor,no,norwegian
pol,pl,polish
ron,ro,romanian,rum
swe,sv,swedish,se
tel,te,telugu
ukr,uk,ukrainian,ua
hin,hi,hindi
hun,hu,hungarian
heb,he,hebrew
cat,ca,catalan,català
ces,cs,czech,cz
por_br,pt-br,brazilian,pb,pt_br
nld_be,nl-be,flemish""".split('\n')]
CT=[['us','united states','usa'],['gb','united kingdom','uk'],['au','australia'],['fr','france'],['ca','canada']]
def norm(k,v):
    v=str(v)
    if k in('language','subtitle_language'):
        m=re.fullmatch(r'L(\d+)',v)
        if m: return LT[int(m.group(1))][0]
        for l in LT:
            if v.lower() in l: return l[0]
        return v
    if k=='country':
        m=re.fullmatch(r'C(\d+)',v)
        if m: return CT[int(m.group(1))][0]
        for l in CT:
            if v.lower() in l: return l[0]
        return v.lower()
    if re.fullmatch(r'0\d+',v) and k in('season','episode','part','cd','bonus','film','version','year'): v=v.lstrip('0') or '0'
    return v
tests=[]
for f in sorted(glob.glob('/repo/guessit/test/**/*.y*ml',recursive=True)):
    if '/config/' in f: continue
    if len(sys.argv)>1 and sys.argv[1] not in f: continue
    es=yml.load(f)
    d=dict(es).get('__default__',{})
    for k,v in es:
        if k=='__default__': continue
        v=dict(v)
        for a,b in d.items(): v.setdefault(a,b)
        m=re.match(r'^([ +-]+)(.*)',k)
        neg=False
        if m: neg='-' in m.group(1); k=m.group(2)
        o=opts(v.get('options','') or '')
        if o is None or '\t' in k: continue
        tests.append((f.split('/')[-1],k,v,neg,o))
inp=''.join('\t'.join([k]+[a+'='+('|'.join(b) if isinstance(b,list) else b) for a,b in o.items()])+'\n' for _,k,_,_,o in tests)
# no-default: need to blank defaults
lines=inp.split('\n')
cmd=['lake','env','lean','--run',HERE+'/main.txt']
import os
N=4
# split in 4
chunks=[inp.split('\n')[:-1][i::N] for i in range(N)]
ps=[]
for c in chunks:
    p=subprocess.Popen(cmd,stdin=subprocess.PIPE,stdout=subprocess.PIPE,stderr=subprocess.STDOUT,cwd='/verif/lean',text=True)
    ps.append(p)
import threading
outs=[None]*N
def go(i): outs[i]=ps[i].communicate('\n'.join(chunks[i])+'\n')[0].split('\n')
th=[threading.Thread(target=go,args=(i,)) for i in range(N)]
[t.start() for t in th];[t.join() for t in th]
ok=bad=0
for i,(f,k,v,neg,o) in enumerate(tests):
    line=outs[i%N][i//N] if i//N < len(outs[i%N]) else ''
    parts=line.split('\t')
    if parts[0]!=k: print('MISALIGN',k,line[:300]); break
    res={}
    for p in parts[1:]:
        if '=' in p:
            a,b=p.split('=',1)
            if b not in res.setdefault(a,[]): res[a].append(b)
    for a in list(res):
        nv=[]
        for b in res[a]:
            if b.startswith('[') and b.endswith(']') and a in ('other','edition'): nv+=b[1:-1].split(', ')
            else: nv.append(b)
        res[a]=nv
    diff=[]
    if 'ERROR' in parts: diff.append('ERROR')
    for a,b in v.items():
        if a in('options','mimetype','-mimetype','uuid_'): continue
        ng=False
        if a.startswith('-'): ng=True;a=a[1:]
        eb=set(norm(a,x) for x in (b if isinstance(b,list) else [b]))
        if b in ('',None): continue
        rb=set(norm(a,x) for x in res.get(a,[]))
        if a not in res:
            if not ng: diff.append(('missing',a,eb))
        elif (eb!=rb)!=ng: diff.append(('diff',a,eb,rb))
    good=(not diff) != neg
    if good: ok+=1
    else:
        bad+=1; print(f,'NEG' if neg else '',k,o if v.get('options') else '','\n     ',diff,'\n     ',{a:b for a,b in res.items()})
print(ok,bad)
