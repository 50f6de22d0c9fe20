import Verif.Model.Parser
/-
Which parts of the parser's state each function leaves alone. Generated by tools/frames.py.
-/
set_option linter.unusedSimpArgs false
namespace Srcml
namespace PState

@[simp] theorem flushSkip_pos (s : PState) : s.flushSkip.pos = s.pos := by
  unfold flushSkip; split <;> rfl
@[simp] theorem flushSkip_guessing (s : PState) : s.flushSkip.guessing = s.guessing := by
  unfold flushSkip; split <;> rfl
@[simp] theorem flushSkip_inskip (s : PState) : s.flushSkip.inskip = s.inskip := by
  unfold flushSkip; split <;> rfl
@[simp] theorem flushSkip_st (s : PState) : s.flushSkip.st = s.st := by
  unfold flushSkip; split <;> rfl
@[simp] theorem flushSkip_comments (s : PState) : s.flushSkip.comments = s.comments := by
  unfold flushSkip; split <;> rfl
@[simp] theorem flushSkip_paused (s : PState) : s.flushSkip.paused = s.paused := by
  unfold flushSkip; split <;> rfl
@[simp] theorem flushSkip_pausetoken (s : PState) : s.flushSkip.pausetoken = s.pausetoken := by
  unfold flushSkip; split <;> rfl
@[simp] theorem flushSkip_out (s : PState) : s.flushSkip.out = s.out := by
  unfold flushSkip; split <;> rfl
@[simp] theorem emplace_pos (s : PState) (t : PTok) : (s.emplace t).pos = s.pos := by
  unfold emplace; split <;> rfl
@[simp] theorem emplace_guessing (s : PState) (t : PTok) : (s.emplace t).guessing = s.guessing := by
  unfold emplace; split <;> rfl
@[simp] theorem emplace_inskip (s : PState) (t : PTok) : (s.emplace t).inskip = s.inskip := by
  unfold emplace; split <;> rfl
@[simp] theorem emplace_st (s : PState) (t : PTok) : (s.emplace t).st = s.st := by
  unfold emplace; split <;> rfl
@[simp] theorem emplace_comments (s : PState) (t : PTok) : (s.emplace t).comments = s.comments := by
  unfold emplace; split <;> rfl
@[simp] theorem emplace_paused (s : PState) (t : PTok) : (s.emplace t).paused = s.paused := by
  unfold emplace; split <;> rfl
@[simp] theorem emplace_pausetoken (s : PState) (t : PTok) : (s.emplace t).pausetoken = s.pausetoken := by
  unfold emplace; split <;> rfl
@[simp] theorem emplace_out (s : PState) (t : PTok) : (s.emplace t).out = s.out := by
  unfold emplace; split <;> rfl
@[simp] theorem pushToken_pos (s : PState) (t : PTok) : (s.pushToken t).pos = s.pos := by
  unfold pushToken; split <;> simp
@[simp] theorem pushToken_guessing (s : PState) (t : PTok) : (s.pushToken t).guessing = s.guessing := by
  unfold pushToken; split <;> simp
@[simp] theorem pushToken_inskip (s : PState) (t : PTok) : (s.pushToken t).inskip = s.inskip := by
  unfold pushToken; split <;> simp
@[simp] theorem pushToken_st (s : PState) (t : PTok) : (s.pushToken t).st = s.st := by
  unfold pushToken; split <;> simp
@[simp] theorem pushToken_comments (s : PState) (t : PTok) : (s.pushToken t).comments = s.comments := by
  unfold pushToken; split <;> simp
@[simp] theorem pushToken_paused (s : PState) (t : PTok) : (s.pushToken t).paused = s.paused := by
  unfold pushToken; split <;> simp
@[simp] theorem pushToken_pausetoken (s : PState) (t : PTok) : (s.pushToken t).pausetoken = s.pausetoken := by
  unfold pushToken; split <;> simp
@[simp] theorem pushToken_out (s : PState) (t : PTok) : (s.pushToken t).out = s.out := by
  unfold pushToken; split <;> simp
@[simp] theorem pushTokenFlush_pos (s : PState) (t : PTok) : (s.pushTokenFlush t).pos = s.pos := by
  unfold pushTokenFlush; split <;> simp
@[simp] theorem pushTokenFlush_guessing (s : PState) (t : PTok) : (s.pushTokenFlush t).guessing = s.guessing := by
  unfold pushTokenFlush; split <;> simp
@[simp] theorem pushTokenFlush_inskip (s : PState) (t : PTok) : (s.pushTokenFlush t).inskip = s.inskip := by
  unfold pushTokenFlush; split <;> simp
@[simp] theorem pushTokenFlush_st (s : PState) (t : PTok) : (s.pushTokenFlush t).st = s.st := by
  unfold pushTokenFlush; split <;> simp
@[simp] theorem pushTokenFlush_comments (s : PState) (t : PTok) : (s.pushTokenFlush t).comments = s.comments := by
  unfold pushTokenFlush; split <;> simp
@[simp] theorem pushTokenFlush_paused (s : PState) (t : PTok) : (s.pushTokenFlush t).paused = s.paused := by
  unfold pushTokenFlush; split <;> simp
@[simp] theorem pushTokenFlush_pausetoken (s : PState) (t : PTok) : (s.pushTokenFlush t).pausetoken = s.pausetoken := by
  unfold pushTokenFlush; split <;> simp
@[simp] theorem pushTokenFlush_out (s : PState) (t : PTok) : (s.pushTokenFlush t).out = s.out := by
  unfold pushTokenFlush; split <;> simp
@[simp] theorem pushSkipToken_pos (s : PState) (t : PTok) : (s.pushSkipToken t).pos = s.pos := by
  unfold pushSkipToken; split
  · rfl
  · split <;> rfl
@[simp] theorem pushSkipToken_guessing (s : PState) (t : PTok) : (s.pushSkipToken t).guessing = s.guessing := by
  unfold pushSkipToken; split
  · rfl
  · split <;> rfl
@[simp] theorem pushSkipToken_inskip (s : PState) (t : PTok) : (s.pushSkipToken t).inskip = s.inskip := by
  unfold pushSkipToken; split
  · rfl
  · split <;> rfl
@[simp] theorem pushSkipToken_st (s : PState) (t : PTok) : (s.pushSkipToken t).st = s.st := by
  unfold pushSkipToken; split
  · rfl
  · split <;> rfl
@[simp] theorem pushSkipToken_comments (s : PState) (t : PTok) : (s.pushSkipToken t).comments = s.comments := by
  unfold pushSkipToken; split
  · rfl
  · split <;> rfl
@[simp] theorem pushSkipToken_paused (s : PState) (t : PTok) : (s.pushSkipToken t).paused = s.paused := by
  unfold pushSkipToken; split
  · rfl
  · split <;> rfl
@[simp] theorem pushSkipToken_pausetoken (s : PState) (t : PTok) : (s.pushSkipToken t).pausetoken = s.pausetoken := by
  unfold pushSkipToken; split
  · rfl
  · split <;> rfl
@[simp] theorem pushSkipToken_out (s : PState) (t : PTok) : (s.pushSkipToken t).out = s.out := by
  unfold pushSkipToken; split
  · rfl
  · split <;> rfl
@[simp] theorem fresh_pos (s : PState) : s.fresh.pos = s.pos := by
  rfl
@[simp] theorem fresh_guessing (s : PState) : s.fresh.guessing = s.guessing := by
  rfl
@[simp] theorem fresh_inskip (s : PState) : s.fresh.inskip = s.inskip := by
  rfl
@[simp] theorem fresh_st (s : PState) : s.fresh.st = s.st := by
  rfl
@[simp] theorem fresh_comments (s : PState) : s.fresh.comments = s.comments := by
  rfl
@[simp] theorem fresh_paused (s : PState) : s.fresh.paused = s.paused := by
  rfl
@[simp] theorem fresh_pausetoken (s : PState) : s.fresh.pausetoken = s.pausetoken := by
  rfl
@[simp] theorem fresh_out (s : PState) : s.fresh.out = s.out := by
  rfl
@[simp] theorem pushEnds_pos (s : PState) (c : PConf) (u : Nat) : (s.pushEnds c u).pos = s.pos := by
  unfold pushEnds; split <;> rfl
@[simp] theorem pushEnds_guessing (s : PState) (c : PConf) (u : Nat) : (s.pushEnds c u).guessing = s.guessing := by
  unfold pushEnds; split <;> rfl
@[simp] theorem pushEnds_inskip (s : PState) (c : PConf) (u : Nat) : (s.pushEnds c u).inskip = s.inskip := by
  unfold pushEnds; split <;> rfl
@[simp] theorem pushEnds_st (s : PState) (c : PConf) (u : Nat) : (s.pushEnds c u).st = s.st := by
  unfold pushEnds; split <;> rfl
@[simp] theorem pushEnds_comments (s : PState) (c : PConf) (u : Nat) : (s.pushEnds c u).comments = s.comments := by
  unfold pushEnds; split <;> rfl
@[simp] theorem pushEnds_paused (s : PState) (c : PConf) (u : Nat) : (s.pushEnds c u).paused = s.paused := by
  unfold pushEnds; split <;> rfl
@[simp] theorem pushEnds_pausetoken (s : PState) (c : PConf) (u : Nat) : (s.pushEnds c u).pausetoken = s.pausetoken := by
  unfold pushEnds; split <;> rfl
@[simp] theorem pushEnds_out (s : PState) (c : PConf) (u : Nat) : (s.pushEnds c u).out = s.out := by
  unfold pushEnds; split <;> rfl
@[simp] theorem noteType_pos (s : PState) (c : PConf) (id : TokType) : (s.noteType c id).pos = s.pos := by
  unfold noteType; split <;> rfl
@[simp] theorem noteType_guessing (s : PState) (c : PConf) (id : TokType) : (s.noteType c id).guessing = s.guessing := by
  unfold noteType; split <;> rfl
@[simp] theorem noteType_inskip (s : PState) (c : PConf) (id : TokType) : (s.noteType c id).inskip = s.inskip := by
  unfold noteType; split <;> rfl
@[simp] theorem noteType_st (s : PState) (c : PConf) (id : TokType) : (s.noteType c id).st = s.st := by
  unfold noteType; split <;> rfl
@[simp] theorem noteType_comments (s : PState) (c : PConf) (id : TokType) : (s.noteType c id).comments = s.comments := by
  unfold noteType; split <;> rfl
@[simp] theorem noteType_paused (s : PState) (c : PConf) (id : TokType) : (s.noteType c id).paused = s.paused := by
  unfold noteType; split <;> rfl
@[simp] theorem noteType_pausetoken (s : PState) (c : PConf) (id : TokType) : (s.noteType c id).pausetoken = s.pausetoken := by
  unfold noteType; split <;> rfl
@[simp] theorem noteType_out (s : PState) (c : PConf) (id : TokType) : (s.noteType c id).out = s.out := by
  unfold noteType; split <;> rfl
@[simp] theorem mapTok_pos (s : PState) (u : Nat) (f : Tok → Tok) : (s.mapTok u f).pos = s.pos := by
  rfl
@[simp] theorem mapTok_guessing (s : PState) (u : Nat) (f : Tok → Tok) : (s.mapTok u f).guessing = s.guessing := by
  rfl
@[simp] theorem mapTok_inskip (s : PState) (u : Nat) (f : Tok → Tok) : (s.mapTok u f).inskip = s.inskip := by
  rfl
@[simp] theorem mapTok_st (s : PState) (u : Nat) (f : Tok → Tok) : (s.mapTok u f).st = s.st := by
  rfl
@[simp] theorem mapTok_comments (s : PState) (u : Nat) (f : Tok → Tok) : (s.mapTok u f).comments = s.comments := by
  rfl
@[simp] theorem mapTok_paused (s : PState) (u : Nat) (f : Tok → Tok) : (s.mapTok u f).paused = s.paused := by
  rfl
@[simp] theorem mapTok_pausetoken (s : PState) (u : Nat) (f : Tok → Tok) : (s.mapTok u f).pausetoken = s.pausetoken := by
  rfl
@[simp] theorem mapTok_out (s : PState) (u : Nat) (f : Tok → Tok) : (s.mapTok u f).out = s.out := by
  rfl
@[simp] theorem endPosition_pos (s : PState) (c : PConf) (id : TokType) : (s.endPosition c id).pos = s.pos := by
  unfold endPosition; split
  · split
    · rfl
    · dsimp only; split <;> split <;> simp
  · rfl
@[simp] theorem endPosition_guessing (s : PState) (c : PConf) (id : TokType) : (s.endPosition c id).guessing = s.guessing := by
  unfold endPosition; split
  · split
    · rfl
    · dsimp only; split <;> split <;> simp
  · rfl
@[simp] theorem endPosition_inskip (s : PState) (c : PConf) (id : TokType) : (s.endPosition c id).inskip = s.inskip := by
  unfold endPosition; split
  · split
    · rfl
    · dsimp only; split <;> split <;> simp
  · rfl
@[simp] theorem endPosition_st (s : PState) (c : PConf) (id : TokType) : (s.endPosition c id).st = s.st := by
  unfold endPosition; split
  · split
    · rfl
    · dsimp only; split <;> split <;> simp
  · rfl
@[simp] theorem endPosition_comments (s : PState) (c : PConf) (id : TokType) : (s.endPosition c id).comments = s.comments := by
  unfold endPosition; split
  · split
    · rfl
    · dsimp only; split <;> split <;> simp
  · rfl
@[simp] theorem endPosition_paused (s : PState) (c : PConf) (id : TokType) : (s.endPosition c id).paused = s.paused := by
  unfold endPosition; split
  · split
    · rfl
    · dsimp only; split <;> split <;> simp
  · rfl
@[simp] theorem endPosition_pausetoken (s : PState) (c : PConf) (id : TokType) : (s.endPosition c id).pausetoken = s.pausetoken := by
  unfold endPosition; split
  · split
    · rfl
    · dsimp only; split <;> split <;> simp
  · rfl
@[simp] theorem endPosition_out (s : PState) (c : PConf) (id : TokType) : (s.endPosition c id).out = s.out := by
  unfold endPosition; split
  · split
    · rfl
    · dsimp only; split <;> split <;> simp
  · rfl
@[simp] theorem pushSToken_pos (s : PState) (c : PConf) (id : TokType) : (s.pushSToken c id).pos = s.pos := by
  simp [pushSToken]
@[simp] theorem pushSToken_guessing (s : PState) (c : PConf) (id : TokType) : (s.pushSToken c id).guessing = s.guessing := by
  simp [pushSToken]
@[simp] theorem pushSToken_inskip (s : PState) (c : PConf) (id : TokType) : (s.pushSToken c id).inskip = s.inskip := by
  simp [pushSToken]
@[simp] theorem pushSToken_st (s : PState) (c : PConf) (id : TokType) : (s.pushSToken c id).st = s.st := by
  simp [pushSToken]
@[simp] theorem pushSToken_comments (s : PState) (c : PConf) (id : TokType) : (s.pushSToken c id).comments = s.comments := by
  simp [pushSToken]
@[simp] theorem pushSToken_paused (s : PState) (c : PConf) (id : TokType) : (s.pushSToken c id).paused = s.paused := by
  simp [pushSToken]
@[simp] theorem pushSToken_pausetoken (s : PState) (c : PConf) (id : TokType) : (s.pushSToken c id).pausetoken = s.pausetoken := by
  simp [pushSToken]
@[simp] theorem pushSToken_out (s : PState) (c : PConf) (id : TokType) : (s.pushSToken c id).out = s.out := by
  simp [pushSToken]
@[simp] theorem pushSSkipToken_pos (s : PState) (c : PConf) (id : TokType) : (s.pushSSkipToken c id).pos = s.pos := by
  simp [pushSSkipToken]
@[simp] theorem pushSSkipToken_guessing (s : PState) (c : PConf) (id : TokType) : (s.pushSSkipToken c id).guessing = s.guessing := by
  simp [pushSSkipToken]
@[simp] theorem pushSSkipToken_inskip (s : PState) (c : PConf) (id : TokType) : (s.pushSSkipToken c id).inskip = s.inskip := by
  simp [pushSSkipToken]
@[simp] theorem pushSSkipToken_st (s : PState) (c : PConf) (id : TokType) : (s.pushSSkipToken c id).st = s.st := by
  simp [pushSSkipToken]
@[simp] theorem pushSSkipToken_comments (s : PState) (c : PConf) (id : TokType) : (s.pushSSkipToken c id).comments = s.comments := by
  simp [pushSSkipToken]
@[simp] theorem pushSSkipToken_paused (s : PState) (c : PConf) (id : TokType) : (s.pushSSkipToken c id).paused = s.paused := by
  simp [pushSSkipToken]
@[simp] theorem pushSSkipToken_pausetoken (s : PState) (c : PConf) (id : TokType) : (s.pushSSkipToken c id).pausetoken = s.pausetoken := by
  simp [pushSSkipToken]
@[simp] theorem pushSSkipToken_out (s : PState) (c : PConf) (id : TokType) : (s.pushSSkipToken c id).out = s.out := by
  simp [pushSSkipToken]
@[simp] theorem pushSTokenFlush_pos (s : PState) (c : PConf) (id : TokType) : (s.pushSTokenFlush c id).pos = s.pos := by
  simp [pushSTokenFlush]
@[simp] theorem pushSTokenFlush_guessing (s : PState) (c : PConf) (id : TokType) : (s.pushSTokenFlush c id).guessing = s.guessing := by
  simp [pushSTokenFlush]
@[simp] theorem pushSTokenFlush_inskip (s : PState) (c : PConf) (id : TokType) : (s.pushSTokenFlush c id).inskip = s.inskip := by
  simp [pushSTokenFlush]
@[simp] theorem pushSTokenFlush_st (s : PState) (c : PConf) (id : TokType) : (s.pushSTokenFlush c id).st = s.st := by
  simp [pushSTokenFlush]
@[simp] theorem pushSTokenFlush_comments (s : PState) (c : PConf) (id : TokType) : (s.pushSTokenFlush c id).comments = s.comments := by
  simp [pushSTokenFlush]
@[simp] theorem pushSTokenFlush_paused (s : PState) (c : PConf) (id : TokType) : (s.pushSTokenFlush c id).paused = s.paused := by
  simp [pushSTokenFlush]
@[simp] theorem pushSTokenFlush_pausetoken (s : PState) (c : PConf) (id : TokType) : (s.pushSTokenFlush c id).pausetoken = s.pausetoken := by
  simp [pushSTokenFlush]
@[simp] theorem pushSTokenFlush_out (s : PState) (c : PConf) (id : TokType) : (s.pushSTokenFlush c id).out = s.out := by
  simp [pushSTokenFlush]
@[simp] theorem pushEToken_pos (s : PState) (c : PConf) (id : TokType) (e : Nat) : (s.pushEToken c id e).pos = s.pos := by
  simp [pushEToken]
@[simp] theorem pushEToken_guessing (s : PState) (c : PConf) (id : TokType) (e : Nat) : (s.pushEToken c id e).guessing = s.guessing := by
  simp [pushEToken]
@[simp] theorem pushEToken_inskip (s : PState) (c : PConf) (id : TokType) (e : Nat) : (s.pushEToken c id e).inskip = s.inskip := by
  simp [pushEToken]
@[simp] theorem pushEToken_st (s : PState) (c : PConf) (id : TokType) (e : Nat) : (s.pushEToken c id e).st = s.st := by
  simp [pushEToken]
@[simp] theorem pushEToken_comments (s : PState) (c : PConf) (id : TokType) (e : Nat) : (s.pushEToken c id e).comments = s.comments := by
  simp [pushEToken]
@[simp] theorem pushEToken_paused (s : PState) (c : PConf) (id : TokType) (e : Nat) : (s.pushEToken c id e).paused = s.paused := by
  simp [pushEToken]
@[simp] theorem pushEToken_pausetoken (s : PState) (c : PConf) (id : TokType) (e : Nat) : (s.pushEToken c id e).pausetoken = s.pausetoken := by
  simp [pushEToken]
@[simp] theorem pushEToken_out (s : PState) (c : PConf) (id : TokType) (e : Nat) : (s.pushEToken c id e).out = s.out := by
  simp [pushEToken]
@[simp] theorem pushESkipToken_pos (s : PState) (c : PConf) (id : TokType) : (s.pushESkipToken c id).pos = s.pos := by
  unfold pushESkipToken; dsimp only; split
  · split <;> simp
  · simp
@[simp] theorem pushESkipToken_guessing (s : PState) (c : PConf) (id : TokType) : (s.pushESkipToken c id).guessing = s.guessing := by
  unfold pushESkipToken; dsimp only; split
  · split <;> simp
  · simp
@[simp] theorem pushESkipToken_inskip (s : PState) (c : PConf) (id : TokType) : (s.pushESkipToken c id).inskip = s.inskip := by
  unfold pushESkipToken; dsimp only; split
  · split <;> simp
  · simp
@[simp] theorem pushESkipToken_st (s : PState) (c : PConf) (id : TokType) : (s.pushESkipToken c id).st = s.st := by
  unfold pushESkipToken; dsimp only; split
  · split <;> simp
  · simp
@[simp] theorem pushESkipToken_comments (s : PState) (c : PConf) (id : TokType) : (s.pushESkipToken c id).comments = s.comments := by
  unfold pushESkipToken; dsimp only; split
  · split <;> simp
  · simp
@[simp] theorem pushESkipToken_paused (s : PState) (c : PConf) (id : TokType) : (s.pushESkipToken c id).paused = s.paused := by
  unfold pushESkipToken; dsimp only; split
  · split <;> simp
  · simp
@[simp] theorem pushESkipToken_pausetoken (s : PState) (c : PConf) (id : TokType) : (s.pushESkipToken c id).pausetoken = s.pausetoken := by
  unfold pushESkipToken; dsimp only; split
  · split <;> simp
  · simp
@[simp] theorem pushESkipToken_out (s : PState) (c : PConf) (id : TokType) : (s.pushESkipToken c id).out = s.out := by
  unfold pushESkipToken; dsimp only; split
  · split <;> simp
  · simp
@[simp] theorem noteSkipPos_pos (s : PState) (c : PConf) : (s.noteSkipPos c).pos = s.pos := by
  rfl
@[simp] theorem noteSkipPos_guessing (s : PState) (c : PConf) : (s.noteSkipPos c).guessing = s.guessing := by
  rfl
@[simp] theorem noteSkipPos_inskip (s : PState) (c : PConf) : (s.noteSkipPos c).inskip = s.inskip := by
  rfl
@[simp] theorem noteSkipPos_st (s : PState) (c : PConf) : (s.noteSkipPos c).st = s.st := by
  rfl
@[simp] theorem noteSkipPos_comments (s : PState) (c : PConf) : (s.noteSkipPos c).comments = s.comments := by
  rfl
@[simp] theorem noteSkipPos_paused (s : PState) (c : PConf) : (s.noteSkipPos c).paused = s.paused := by
  rfl
@[simp] theorem noteSkipPos_pausetoken (s : PState) (c : PConf) : (s.noteSkipPos c).pausetoken = s.pausetoken := by
  rfl
@[simp] theorem noteSkipPos_out (s : PState) (c : PConf) : (s.noteSkipPos c).out = s.out := by
  rfl

end PState
end Srcml
