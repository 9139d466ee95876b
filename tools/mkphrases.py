import json
d=json.load(open('/repo/guessit/config/options.json'))['advanced_config']

# rules/properties/video_codec.py:29-75, without the expression with two names
VIDEO={'video_codec':{'RealVideo':{'regex':[r'Rv\d{2}']},'MPEG-2':{'regex':['Mpe?g-?2','[hx]-?262']},'DivX':{'string':['DVDivX','DivX']},
 'Xvid':{'string':['XviD']},'VC-1':{'regex':['VC-?1']},'VP7':{'string':['VP7']},'VP8':{'string':['VP8','VP80']},'VP9':{'string':['VP9']},
 'H.263':{'regex':['[hx]-?263']},'H.264':{'regex':['[hx]-?264','(MPEG-?4)?AVC(?:HD)?']},'H.265':{'regex':['[hx]-?265','HEVC']}},
 'video_profile':{'Baseline':{'string':['BP']},'Extended':{'string':['XP','EP']},'Main':{'string':['MP']},'High':{'string':['HP','HiP']},
 'Scalable Video Coding':{'string':['SC','SVC']},'Advanced Video Codec High Definition':{'regex':['AVC(?:HD)?']},
 'High Efficiency Video Coding':{'string':['HEVC']},'High 4:2:2':{'regex':['Hi422P']},'High 4:4:4 Predictive':{'regex':['Hi444PP']},'High 10':{'regex':['Hi10P?']}},
 'color_depth':{'12-bit':{'regex':['12.?bits?']},'10-bit':{'regex':['10.?bits?','YUV420P10','Hi10P?']},'8-bit':{'regex':['8.?bits?']}}}
def q(t): return 'c!"'+t.replace('\\','\\\\').replace('"','\\"')+'"'
def lst(l): return '['+', '.join(q(x) for x in l)+']'
skipped=[]
def table(conf, dcheck):
    out=[]
    for v,raw in conf.items():
        for e in (raw if isinstance(raw,list) else [raw]):
            if isinstance(e,str): e={'regex':[e[3:]]} if e.startswith('re:') else {'string':[e]}
            e=dict(e)
            if 'callable' in e or 'children' in e or 'pattern' in e: skipped.append((v,e)); continue
            val=e.get('value', v)
            if isinstance(val,dict): skipped.append((v,e)); continue
            val=val if isinstance(val,list) else [val]
            ss=e.get('string',[]); ss=ss if isinstance(ss,list) else [ss]
            rs=e.get('regex',[]); rs=rs if isinstance(rs,list) else [rs]
            bad=[r for r in rs if any(x in r for x in ('(?=','+','(?P','$'))]
            if bad: skipped.append((v,bad)); rs=[r for r in rs if r not in bad]
            ck=dcheck
            if 'validator' in e: ck={None:'none','import:seps_after':'after'}[e['validator']]
            if ss or rs: out.append(f"  ⟨{lst(val)}, {lst([s.lower() for s in ss])}, {lst(rs)}, .{ck}⟩")
    return ',\n'.join(out)
r='''import Verif.Model.Phrases

/-! # Tables of config/options.json (written by tools/mkphrases.py); texts are in lower case, as their patterns ignore case -/

namespace Guessit

/-- `edition` of the entry `edition` (edition.py:27). -/
def editionTable : List PhraseEntry := [
'''+table(d['edition']['edition'],'apart')+''']

/-- `other` of the entry `other` (other.py:33).  `_repack_with_count` and `_HdRip`, which have groups, and `_complete_words` are not in it. -/
def otherTable : List PhraseEntry := [
'''+table(d['other']['other'],'apart')+''']

/-- `audio_codec` of the entry `audio_codec` (audio_codec.py:49), without the expressions `LAME(?:\\d)+-?(?:\\d)+` and `DTS(?=-?MA)`. -/
def audioCodecTable : List PhraseEntry := [
'''+table(d['audio_codec']['audio_codec'],'none')+''']

/-- The entry `streaming_service` (streaming_service.py:30), without the text `iT`, which does not ignore case. -/
def serviceTable : List PhraseEntry := [
'''+table(d['streaming_service'],'none')+''']

/-- The patterns of video_codec.py:29-39 named `video_codec`, without the one with two names (:40). -/
def videoCodecTable : List PhraseEntry := [
'''+table(VIDEO['video_codec'],'none')+''']

/-- video_codec.py:50-64 -/
def videoProfileTable : List PhraseEntry := [
'''+table(VIDEO['video_profile'],'apart')+''']

/-- video_codec.py:73-75 -/
def colorDepthTable : List PhraseEntry := [
'''+table(VIDEO['color_depth'],'apart')+''']

end Guessit
'''
open('/verif/lean/Verif/Model/PhraseTables.lean','w').write(r)
for s in skipped: print(s)
