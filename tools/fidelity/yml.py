import re,sys,os
# minimal parser for guessit test yml: entries "? key" (several, also multi via '? a\n? b\n: ...')
def unq(s):
    s=s.strip()
    if len(s)>=2 and s[0]==s[-1] and s[0] in '"\'':
        q=s[0]; s=s[1:-1]
        if q=="'": s=s.replace("''","'")
        else: s=s.replace('\\"','"').replace('\\\\','\\')
        return s
    i=s.find(' #')
    if i>=0: s=s[:i].strip()
    return s
def val(s):
    s=s.strip()
    if s.startswith('['):
        e=s.rfind(']')
        inner=s[1:e]
        return [unq(x) for x in re.split(r',\s*',inner) if x.strip()]
    return unq(s)
def load(path):
    res=[];keys=[];cur=None;lastk=None
    def flush():
        nonlocal cur
        if cur is not None:
            for k in keys: res.append((k,cur))
    for line in open(path,encoding='utf-8'):
        line=line.rstrip('\n')
        if not line.strip() or line.strip().startswith('#'): continue
        if line.startswith('? '):
            if cur is not None:
                flush(); keys=[]; cur=None
            keys.append(unq(line[2:]))
        elif line.startswith(': ') or line.startswith('  '):
            if cur is None: cur={}
            body=line[2:]
            if body.startswith('- ') or body.strip().startswith('- '):
                v=cur.get(lastk)
                if not isinstance(v,list): cur[lastk]=[]
                cur[lastk].append(unq(body.strip()[2:])); continue
            m=re.match(r'\s*(-?[\w-]+)\s*:(.*)$',body)
            if m: lastk=m.group(1); cur[lastk]=val(m.group(2))
            else: print('??',path,line,file=sys.stderr)
        else: print('???',path,line,file=sys.stderr)
    flush()
    return res
