"""Writes Spec/FormTables.lean: every way to write a source, read from /repo/guessit/rules/properties/source.py with `ast` and Python's own regular-expression parser."""
import ast, json
try:
    from re import _parser as sp
except ImportError:
    import sre_parse as sp
conf=json.load(open('/repo/guessit/config/options.json'))['advanced_config']['source']
tree=ast.parse(open('/repo/guessit/rules/properties/source.py').read())
fn=next(n for n in tree.body if isinstance(n,ast.FunctionDef) and n.name=='source')
def ev(n):
    if isinstance(n,ast.Constant): return n.value
    if isinstance(n,ast.Name): return conf[n.id]
    if isinstance(n,ast.Call) and n.func.id=='optional': return '(?:'+ev(n.args[0])+')?'
    if isinstance(n,ast.Dict): return {ev(k):ev(v) for k,v in zip(n.keys,n.values)}
    raise Exception(ast.dump(n))
def calls():
    for st in fn.body:
        for n in ast.walk(st):
            if isinstance(n,ast.Call) and isinstance(n.func,ast.Attribute) and n.func.attr=='regex' and isinstance(n.func.value,ast.Name):
                value=next(ev(k.value) for k in n.keywords if k.arg=='value')
                a=n.args[0]
                if isinstance(a,ast.Starred):
                    kw={k.arg:ev(k.value) for k in a.value.keywords}
                    pats=[kw.get('prefix','')+'('+ev(x)+')'+kw.get('suffix','') for x in a.value.args]
                else: pats=[ev(x) for x in n.args]
                yield pats,value
# a way: (text, {group: (a,b)}, behind)
def cat(a,b):
    n=len(a[0]); g=dict(a[1]); g.update({k:(x+n,y+n) for k,(x,y) in b[1].items()})
    assert not (a[2] and (b[0] or b[2]))
    return (a[0]+b[0],g,a[2] or b[2])
def expand(seq,names):
    outs=[('',{},None)]
    for op,av in seq: outs=[cat(a,b) for a in outs for b in one(op,av,names)]
    return outs
def one(op,av,names):
    n=str(op)
    if n=='LITERAL':
        c=chr(av).lower(); return [(' ' if c=='-' else c,{},None)]
    if n=='IN': return [(chr(a).lower(),{},None) for o,a in av]
    if n=='BRANCH':
        bs=av[1]
        if len(bs)==2 and str(bs[0][0][0])=='AT' and str(bs[1][0][0])=='ASSERT_NOT':
            return [('',{},('not',expand(bs[1][0][1][1],names)[0][0]))]
        return [x for b in bs for x in expand(b,names)]
    if n=='ASSERT': return [('',{},('oneOf',[x[0] for x in expand(av[1],names)]))]
    if n=='SUBPATTERN':
        g=av[0]; r=expand(av[3],names)
        return r if g is None else [(t,{**m,names.get(g):(0,len(t))},b) for t,m,b in r]
    if n=='MAX_REPEAT':
        assert av[:2]==(0,1); return [x for x in expand(av[2],names) if x[0]]+[('',{},None)]
    raise Exception(n)
def q(t): return 'c!"'+t+'"'
def ways(pat,value,default,order):
    p=sp.parse(pat); names={v:k for k,v in p.state.groupdict.items()}
    for g in range(1,p.state.groups): names.setdefault(g,default)
    out=[]
    for t,m,b in expand(p,names):
        parts=[f'⟨{q(n)}, {q(value[n] if isinstance(value,dict) else value)}, {m[n][0]}, {m[n][1]}⟩' for n in order if n in m]
        bh='.anything' if not b else ".not '%s'"%b[1] if b[0]=='not' else '.oneOf ['+', '.join(map(q,b[1]))+']'
        out.append(f'⟨{q(t)}, [{", ".join(parts)}], {bh}⟩')
    return '['+',\n    '.join(out)+']'
def table(cs,default,order): return '[\n'+',\n'.join('  ['+',\n   '.join(ways(p,v,default,order) for p in ps)+']' for ps,v in cs)+']'
if __name__=='__main__':
    o='''import Verif.Spec.Forms

/-! # The ways to write sources and a few more (written by tools/mkways.py) -/

namespace Guessit.Spec

/-- Sources: for each declaration and each of its expressions, the ways to write it. -/
def sourceWays : List (List (List Way)) := '''+table(list(calls()),'source',['source','other','another'])+'''

/-- `HDRip`. -/
def hdRipWays : List (List (List Way)) := '''+table([(['(HD)(?P<another>Rip)'],{'other':'HD','another':'Rip'})],'other',['other','another'])+'''

/-- `hevc10`. -/
def hevcWays : List (List (List Way)) := '''+table([(['(?P<video_codec>hevc)(?P<color_depth>10)'],{'video_codec':'H.265','color_depth':'10-bit'})],'video_codec',['video_codec','color_depth'])+'''

end Guessit.Spec
'''
    open('/verif/lean/Verif/Spec/FormTables.lean','w').write(o)
