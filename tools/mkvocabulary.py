import json, re
try:
    from re import _parser as sp, _constants as sc
except ImportError:
    import sre_parse as sp, sre_constants as sc
exec(open('/verif/tools/mkphrases.py').read().split("def table")[0])
def expand(seq):
    outs=['']
    for op,av in seq:
        outs=[a+b for a in outs for b in one(op,av)]
    return outs
def one(op,av):
    n=str(op)
    if n=='LITERAL':
        c=chr(av).lower(); return [' ' if c=='-' else c]
    if n=='ANY': return ['*']
    if n=='IN':
        r=[]
        for o,a in av:
            if str(o)=='LITERAL': r.append(chr(a).lower())
            elif str(o)=='CATEGORY': r.append('#')
            else: raise Exception(o)
        return r
    if n=='BRANCH': return [x for b in av[1] for x in expand(b)]
    if n=='SUBPATTERN': return expand(av[3])
    if n=='MAX_REPEAT':
        lo,hi,body=av
        b=expand(body)
        if (lo,hi)==(0,1): return [x for x in b if x]+['']
        if lo==hi:
            o=['']
            for _ in range(lo): o=[x+y for x in o for y in b]
            return o
        raise Exception((lo,hi))
    raise Exception(n)
def phrases(r):
    # factor common prefixes are undone by sre ('ab|ac' -> a(b|c)): the order is kept
    l=expand(sp.parse(r))
    for p in l: assert re.fullmatch(r, p.replace(' ','-').replace('*','.').replace('#','7'), re.I),(r,p)
    return l
def vocab(conf, dplace):
    out=[]
    for v,raw in conf.items():
        for e in (raw if isinstance(raw,list) else [raw]):
            if isinstance(e,str): e={'regex':[e[3:]]} if e.startswith('re:') else {'string':[e]}
            if 'callable' in e or 'children' in e or 'pattern' in e: continue
            val=e.get('value', v)
            if isinstance(val,dict): continue
            val=val if isinstance(val,list) else [val]
            ss=e.get('string',[]); ss=ss if isinstance(ss,list) else [ss]
            rs=e.get('regex',[]); rs=rs if isinstance(rs,list) else [rs]
            rs=[r for r in rs if not any(x in r for x in ('(?=','+','(?P','$'))]
            pl=dplace
            if 'validator' in e: pl={None:'anywhere','import:seps_after':'before'}[e['validator']]
            if ss or rs: out.append('  ⟨'+lst(val)+', '+lst([s.lower() for s in ss])+', ['+', '.join(lst(phrases(r)) for r in rs)+'], .'+pl+'⟩')
    return ',\n'.join(out)
r='''import Verif.Spec.Phrases

/-! # The vocabulary of the default configuration (written by tools/mkvocabulary.py) -/

namespace Guessit.Spec

/-- Editions. -/
def editions : List Listed := [
'''+vocab(d['edition']['edition'],'apart')+''']

/-- Other properties. -/
def others : List Listed := [
'''+vocab(d['other']['other'],'apart')+''']

/-- Audio codecs. -/
def audioCodecs : List Listed := [
'''+vocab(d['audio_codec']['audio_codec'],'anywhere')+''']

/-- Streaming services. -/
def services : List Listed := [
'''+vocab(d['streaming_service'],'anywhere')+''']

/-- Video codecs. -/
def videoCodecs : List Listed := [
'''+vocab(VIDEO['video_codec'],'anywhere')+''']

/-- Profiles of video codecs. -/
def videoProfiles : List Listed := [
'''+vocab(VIDEO['video_profile'],'apart')+''']

/-- Color depths. -/
def colorDepths : List Listed := [
'''+vocab(VIDEO['color_depth'],'apart')+''']

end Guessit.Spec
'''
open('/verif/lean/Verif/Spec/PhraseTables.lean','w').write(r)
