fields=['pos','guessing','inskip','st','comments','paused','pausetoken','out']
prims=[ # name, args, extra
('flushSkip','(s : PState)','s.flushSkip',[]),
('emplace','(s : PState) (t : PTok)','(s.emplace t)',[]),
('pushToken','(s : PState) (t : PTok)','(s.pushToken t)',['emplace']),
('pushTokenFlush','(s : PState) (t : PTok)','(s.pushTokenFlush t)',['emplace','flushSkip']),
('pushSkipToken','(s : PState) (t : PTok)','(s.pushSkipToken t)',[]),
('fresh','(s : PState)','s.fresh',[]),
('pushEnds','(s : PState) (c : PConf) (u : Nat)','(s.pushEnds c u)',[]),
('noteType','(s : PState) (c : PConf) (id : TokType)','(s.noteType c id)',[]),
('mapTok','(s : PState) (u : Nat) (f : Tok → Tok)','(s.mapTok u f)',[]),
('endPosition','(s : PState) (c : PConf) (id : TokType)','(s.endPosition c id)',['mapTok']),
('pushSToken','(s : PState) (c : PConf) (id : TokType)','(s.pushSToken c id)',[]),
('pushSSkipToken','(s : PState) (c : PConf) (id : TokType)','(s.pushSSkipToken c id)',[]),
('pushSTokenFlush','(s : PState) (c : PConf) (id : TokType)','(s.pushSTokenFlush c id)',[]),
('pushEToken','(s : PState) (c : PConf) (id : TokType) (e : Nat)','(s.pushEToken c id e)',[]),
('pushESkipToken','(s : PState) (c : PConf) (id : TokType)','(s.pushESkipToken c id)',[]),
('noteSkipPos','(s : PState) (c : PConf)','(s.noteSkipPos c)',[]),
]
out='''import Verif.Model.Parser
/-
Which parts of the parser's state each function leaves alone. Generated by tools/frames.py.
-/
set_option linter.unusedSimpArgs false
namespace Srcml
namespace PState

'''
for n,args,app,_ in prims:
    for f in fields:
        out+=f"@[simp] theorem {n}_{f} {args} : {app}.{f} = s.{f} := by\n"
        if n in('pushSToken','pushSSkipToken','pushSTokenFlush','pushEToken'):
            out+=f"  simp [{n}]\n"
        elif n=='pushESkipToken':
            out+=f"  unfold {n}; dsimp only; split\n  · split <;> simp\n  · simp\n"
        elif n=='endPosition':
            out+=f"  unfold {n}; split\n  · split\n    · rfl\n    · dsimp only; split <;> split <;> simp\n  · rfl\n"
        elif n in('fresh','mapTok','noteSkipPos'):
            out+="  rfl\n"
        elif n=='pushTokenFlush' or n=='pushToken':
            out+=f"  unfold {n}; split <;> simp\n"
        elif n=='pushSkipToken':
            out+=f"  unfold {n}; split\n  · rfl\n  · split <;> rfl\n"
        else:
            out+=f"  unfold {n}; split <;> rfl\n"
out+="\nend PState\nend Srcml\n"
open('/verif/lean/Verif/Proofs/ParserFrames.lean','w').write(out)
