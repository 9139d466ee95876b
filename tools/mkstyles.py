# writes lean/Verif/Model/Styles.lean: tags and conflict solvers of the entries of options.json, aligned with tools/mkphrases.py
import json
d=json.load(open('/repo/guessit/config/options.json'))['advanced_config']
def q(t): return 'c!"'+t.replace('\\','\\\\').replace('"','\\"')+'"'
def lst(l): return '['+', '.join(q(x) for x in l)+']'
SOLV={"lambda match, other: other if other.name == 'audio_codec' else '__default__'":'.dtsHd',
"lambda match, other: other if other.name == 'episode_details' and other.value == 'Special' else '__default__'":'.specialEdition'}
def table(conf, dtags, dsolver):
    out=[]
    for v,raw in conf.items():
        for e in (raw if isinstance(raw,list) else [raw]):
            if isinstance(e,str): e={'regex':[e[3:]]} if e.startswith('re:') else {'string':[e]}
            if 'callable' in e or 'children' in e or 'pattern' in e: continue
            if isinstance(e.get('value',v),dict): continue
            ss=e.get('string',[]); ss=ss if isinstance(ss,list) else [ss]
            rs=e.get('regex',[]); rs=rs if isinstance(rs,list) else [rs]
            rs=[r for r in rs if not any(x in r for x in ('(?=','+','(?P','$'))]
            if not (ss or rs): continue
            tg=e.get('tags',[]); tg=tg if isinstance(tg,list) else [tg]
            tg=dtags+tg
            so=SOLV[e['conflict_solver']] if 'conflict_solver' in e else dsolver
            f=[]
            if tg: f.append('tags := '+lst(tg))
            if so: f.append('solver := some '+so)
            out.append('  { '+', '.join(f)+' }' if f else '  {}')
    return ',\n'.join(out)
prof=[]
for v,e in d['audio_codec']['audio_profile'].items():
    ss=e['string']; ss=ss if isinstance(ss,list) else [ss]
    prof.append((v,ss,e['tags']))
r='''import Verif.Model.Families
import Verif.Model.PhraseTables

/-! # Tags and conflict solvers of the entries of config/options.json (written by tools/mkstyles.py), in the order of Model/PhraseTables -/

namespace Guessit

/-- `edition` (options.json; edition.py:26-28). -/
def editionStyles : List Style := [
'''+table(d['edition']['edition'],[],None)+''']

/-- `other` (options.json; other.py:31-33). -/
def otherStyles : List Style := [
'''+table(d['other']['other'],[],None)+''']

/-- `audio_codec` (options.json; audio_codec.py:46-50). -/
def audioCodecStyles : List Style := [
'''+table(d['audio_codec']['audio_codec'],[],'.audioCodec')+''']

/-- `audio_profile` (options.json; audio_codec.py:52-56). -/
def audioProfileTable : List PhraseEntry := [
'''+',\n'.join(f"  ⟨{lst([v])}, {lst([s.lower() for s in ss])}, [], .none⟩" for v,ss,t in prof)+''']
def audioProfileStyles : List Style := [
'''+',\n'.join('  { tags := '+lst(t)+' }' for v,ss,t in prof)+''']

end Guessit
'''
open('/verif/lean/Verif/Model/Styles.lean','w').write(r)
