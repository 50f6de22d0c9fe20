import Verif.Model.ModeStack
import Verif.Model.Escape
/-
The stream parser: class `StreamMLParser`, between the grammar (`srcMLParser.g`) and the output. The grammar
itself is not modelled: it is any code made of the actions below (`Act`), of consuming a token, and of
speculative parsing that is taken back (`Exec`). Exceptions are covered by letting code end anywhere: what
follows an exception is the code of the handler.
-/
namespace Srcml

/-- A token in a buffer. `uid` is the identity of the token object. `elem` is, for an end token, the identity of
the start token of the element taken off the stack of open elements (bookkeeping of the model).
The elements of the buffers of src/parser/StreamMLParser.hpp:872-919. -/
structure PTok where
  uid : Nat
  tok : Tok
  elem : Nat := 0
  deriving DecidableEq, Repr

/-- What the parser is given: the tokens of the lexer before the end of file, the end-of-file token
(returned again and again after them), and the options that matter here. The arguments of the constructor, src/parser/StreamMLParser.hpp:60-67. -/
structure PConf where
  src : List Tok
  eof : Tok
  position : Bool
  cpp : Bool

/-- `StreamMLParser`, src/parser/StreamMLParser.hpp:872-919, with the parts of `srcMLParser`, `ModeStack` and the
ANTLR token buffer it works on. `pouttb`/`pskiptb` point to `pretb`/`skippretb` exactly while `inskip` is set
(lines 512-513 and 526-527), so they are not fields. Lines and columns are natural numbers (`int` in the code).
`out` are the tokens already taken off the front of `tb`, `ub` records undefined behaviour. -/
structure PState where
  /-- tokens of the source consumed so far (position in the ANTLR token buffer) -/
  pos : Nat := 0
  /-- `inputState->guessing` -/
  guessing : Nat := 0
  inskip : Bool := false
  tb : List PTok := []
  skiptb : List PTok := []
  pretb : List PTok := []
  skippretb : List PTok := []
  st : ModeStack := []
  /-- top first -/
  ends : List Nat := []
  /-- `open_comments`, top first -/
  comments : List TokType := []
  lastline : Nat := 0
  lastcolumn : Nat := 0
  slastline : Nat := 0
  slastcolumn : Nat := 0
  lasttypeendline : Nat := 0
  lasttypeendcolumn : Nat := 0
  lasttypestartline : Nat := 0
  lasttypestartcolumn : Nat := 0
  paused : Bool := false
  pausetoken : Option Nat := none
  next : Nat := 1
  out : List PTok := []
  ub : Bool := false
  deriving DecidableEq, Repr

/-- `whitespace_token_set`, src/parser/srcml_bitset_token_sets.hpp:152-168. -/
def whitespaceTokens : List TokType :=
  [chars! "WS", chars! "CONTROL_CHAR", chars! "EOL_BACKSLASH", chars! "WHOLE_COMMENT", chars! "BLOCK_COMMENT_START",
   chars! "BLOCK_COMMENT_END", chars! "JAVADOC_COMMENT_END", chars! "DOXYGEN_COMMENT_END",
   chars! "LINE_COMMENT_START", chars! "LINE_COMMENT_END", chars! "LINE_DOXYGEN_COMMENT_START",
   chars! "LINE_DOXYGEN_COMMENT_END", chars! "COMMENT_TEXT", chars! "JAVADOC_COMMENT_START",
   chars! "DOXYGEN_COMMENT_START"]

/-- `isSkipToken`, src/parser/StreamMLParser.hpp:150-167. -/
def isSkipType (inskip : Bool) (t : TokType) : Bool :=
  decide (t ∈ whitespaceTokens) || (decide (t = chars! "EOL") && !inskip)

/-- The element of a comment and the role of a comment token, from the cases of
src/parser/StreamMLParser.hpp:343-498: `(element, starts, ends)`. -/
def commentRole (t : TokType) : Option (TokType × Bool × Bool) :=
  if t = chars! "BLOCK_COMMENT_START" then some (chars! "SCOMMENT", true, false)
  else if t = chars! "BLOCK_COMMENT_END" then some (chars! "SCOMMENT", false, true)
  else if t = chars! "LINE_DOXYGEN_COMMENT_START" then some (chars! "SLINE_DOXYGEN_COMMENT", true, false)
  else if t = chars! "LINE_DOXYGEN_COMMENT_END" then some (chars! "SLINE_DOXYGEN_COMMENT", false, true)
  else if t = chars! "DOXYGEN_COMMENT_START" then some (chars! "SDOXYGEN_COMMENT", true, false)
  else if t = chars! "DOXYGEN_COMMENT_END" then some (chars! "SDOXYGEN_COMMENT", false, true)
  else if t = chars! "JAVADOC_COMMENT_START" then some (chars! "SJAVADOC_COMMENT", true, false)
  else if t = chars! "JAVADOC_COMMENT_END" then some (chars! "SJAVADOC_COMMENT", false, true)
  else if t = chars! "LINE_COMMENT_START" then some (chars! "SLINECOMMENT", true, false)
  else if t = chars! "LINE_COMMENT_END" then some (chars! "SLINECOMMENT", false, true)
  else if t = chars! "WHOLE_COMMENT" then some (chars! "SCOMMENT", true, true)
  else none

namespace PState

/-- `LT(1)`: the next token of the source (ANTLR token buffer). Used in src/parser/StreamMLParser.hpp:704-712 and throughout src/parser/srcMLParser.g. -/
def lt (s : PState) (c : PConf) : Tok := (c.src[s.pos]?).getD c.eof

/-- `LLkParser::consume`: the next token of the source is passed (ANTLR). Called in src/parser/StreamMLParser.hpp:315-330. -/
def advance (s : PState) : PState := { s with pos := s.pos + 1 }

/-- All the buffers, in the order in which their tokens will come out. src/parser/StreamMLParser.hpp:872-919. -/
def queue (s : PState) : List PTok := s.out ++ s.tb ++ s.skiptb ++ s.pretb ++ s.skippretb

/-- `flushSkip`, src/parser/StreamMLParser.hpp:614-639. -/
def flushSkip (s : PState) : PState :=
  if s.inskip then { s with pretb := s.pretb ++ s.skippretb, skippretb := [] }
  else { s with tb := s.tb ++ s.skiptb, skiptb := [] }

/-- `output().emplace_back`, src/parser/StreamMLParser.hpp:712. -/
def emplace (s : PState) (t : PTok) : PState :=
  if s.inskip then { s with pretb := s.pretb ++ [t] } else { s with tb := s.tb ++ [t] }

/-- `pushToken(rtoken)`, src/parser/StreamMLParser.hpp:704-712. -/
def pushToken (s : PState) (t : PTok) : PState := if s.guessing ≠ 0 then s else s.emplace t

/-- `pushTokenFlush`, src/parser/StreamMLParser.hpp:720-731. -/
def pushTokenFlush (s : PState) (t : PTok) : PState :=
  if s.guessing ≠ 0 then s else s.flushSkip.emplace t

/-- `pushSkipToken(rtoken)`, src/parser/StreamMLParser.hpp:761-769. -/
def pushSkipToken (s : PState) (t : PTok) : PState :=
  if s.guessing ≠ 0 then s
  else if s.inskip then { s with skippretb := s.skippretb ++ [t] } else { s with skiptb := s.skiptb ++ [t] }

/-- A new token object. Of the factories used in src/parser/StreamMLParser.hpp:207-308. -/
def fresh (s : PState) : PState := { s with next := s.next + 1 }

/-- The start token of `pushSToken` and `pushSSkipToken`, src/parser/StreamMLParser.hpp:210-212 and 224-226. -/
def startTok (s : PState) (c : PConf) (id : TokType) : Tok :=
  { type := id, category := .start, line := (s.lt c).line, column := (s.lt c).column }

/-- The start token of `pushSTokenFlush`, src/parser/StreamMLParser.hpp:237-252: the position of a previous type
is that of the last type. -/
def startTokFlush (s : PState) (c : PConf) (id : TokType) : Tok :=
  if id = chars! "STYPEPREV" then
    { s.startTok c id with line := s.lasttypestartline, column := s.lasttypestartcolumn }
  else s.startTok c id

/-- Saving the start of a type, src/parser/StreamMLParser.hpp:242-246. -/
def noteType (s : PState) (c : PConf) (id : TokType) : PState :=
  if id = chars! "STYPE" then
    { s with lasttypestartline := (s.lt c).line, lasttypestartcolumn := (s.lt c).column }
  else s

/-- `ends.emplace(ntoken)`, src/parser/StreamMLParser.hpp:214-216. -/
def pushEnds (s : PState) (c : PConf) (u : Nat) : PState :=
  if c.position then { s with ends := u :: s.ends } else s

/-- `pushSToken`, src/parser/StreamMLParser.hpp:207-219. -/
def pushSToken (s : PState) (c : PConf) (id : TokType) : PState :=
  (((s.pushEnds c s.next).pushToken ⟨s.next, s.startTok c id, 0⟩)).fresh

/-- `pushSSkipToken`, src/parser/StreamMLParser.hpp:221-233. -/
def pushSSkipToken (s : PState) (c : PConf) (id : TokType) : PState :=
  (((s.pushEnds c s.next).pushSkipToken ⟨s.next, s.startTok c id, 0⟩)).fresh

/-- `pushSTokenFlush`, src/parser/StreamMLParser.hpp:235-259. -/
def pushSTokenFlush (s : PState) (c : PConf) (id : TokType) : PState :=
  ((((s.noteType c id).pushEnds c s.next).pushTokenFlush ⟨s.next, s.startTokFlush c id, 0⟩)).fresh

/-- A change of one token object, wherever it is buffered; tokens already taken are out of reach.
For src/parser/StreamMLParser.hpp:268-293 and 858-870. -/
def mapTok (s : PState) (u : Nat) (f : Tok → Tok) : PState :=
  let g := fun p : PTok => if p.uid = u then { p with tok := f p.tok } else p
  { s with tb := s.tb.map g, skiptb := s.skiptb.map g, pretb := s.pretb.map g, skippretb := s.skippretb.map g }

/-- Setting the end position of a token, src/parser/StreamMLParser.hpp:278-279. -/
def setEnd (l col : Nat) (t : Tok) : Tok := { t with endline := l, endcolumn := col }

/-- The position part of `pushEToken`, src/parser/StreamMLParser.hpp:275-292; `ends.top()` of an empty stack
is undefined. -/
def endPosition (s : PState) (c : PConf) (id : TokType) : PState :=
  if c.position then
    match s.ends with
    | [] => { s with ub := true }
    | u :: us =>
      let s := if id = chars! "STYPE" then
        { s with lasttypeendline := s.lastline, lasttypeendcolumn := s.lastcolumn } else s
      let s := if id = chars! "STYPEPREV" then s.mapTok u (setEnd s.lasttypeendline s.lasttypeendcolumn)
        else s.mapTok u (setEnd s.lastline s.lastcolumn)
      { s with ends := us }
  else s

/-- `pushEToken`, src/parser/StreamMLParser.hpp:268-293. -/
def pushEToken (s : PState) (c : PConf) (id : TokType) (elem : Nat) : PState :=
  (((s.pushToken ⟨s.next, { type := id, category := .end_ }, elem⟩).fresh).endPosition c id)

/-- `pushESkipToken`, src/parser/StreamMLParser.hpp:295-308. -/
def pushESkipToken (s : PState) (c : PConf) (id : TokType) : PState :=
  let s := (s.pushSkipToken ⟨s.next, { type := id, category := .end_ }, 0⟩).fresh
  if c.position then
    match s.ends with
    | [] => { s with ub := true }
    | u :: us => { s.mapTok u (setEnd s.slastline s.slastcolumn) with ends := us }
  else s

/-! ### The element actions -/

/-- `currentState().push(id)`: an exception if there is no state, src/parser/StreamMLParser.hpp:84 and
src/parser/ModeStack.hpp:86-91. -/
def pushOpen (s : PState) (id : TokType) (u : Nat) : Option PState :=
  (ModeStack.push s.st (id, u)).map (fun st => { s with st })

/-- `startElement`, src/parser/StreamMLParser.hpp:82-86. -/
def startElement (s : PState) (c : PConf) (id : TokType) : PState :=
  match s.pushOpen id s.next with
  | some s => s.pushSTokenFlush c id
  | none => s

/-- `startNoSkipElement`, src/parser/StreamMLParser.hpp:95-99. -/
def startNoSkipElement (s : PState) (c : PConf) (id : TokType) : PState :=
  match s.pushOpen id s.next with
  | some s => s.pushSToken c id
  | none => s

/-- `addElement`, src/parser/StreamMLParser.hpp:136-139: no token is created. -/
def addElement (s : PState) (id : TokType) : PState := (s.pushOpen id 0).getD s

/-- `emptyElement`, src/parser/StreamMLParser.hpp:121-127. -/
def emptyElement (s : PState) (id : TokType) : PState :=
  (s.pushTokenFlush ⟨s.next, { type := id, category := .empty }, 0⟩).fresh

/-- `endElement` of the innermost open element, src/parser/StreamMLParser.hpp:107-114. It is only ever called for
that one (srcMLParser.g:278, 311-312 and ModeStack.hpp:459-461). Without a state or an open element an exception
is thrown before anything is changed (by `top()` being guarded, or `currentState()`). -/
def endTop (s : PState) (c : PConf) : PState :=
  match s.st with
  | m :: st =>
    match m.opens with
    | (id, u) :: es =>
      let issue := decide (m.flags &&& MODE_ISSUE_EMPTY_AT_POP ≠ 0)
      let s1 := if issue then s.pushSToken c id else s
      let s2 := s1.pushEToken c id (if issue then s.next else u)
      { s2 with st := { m with opens := es } :: st }
    | [] => s
  | [] => s

/-- Repeating `endTop`. For src/parser/ModeStack.hpp:454-466. -/
def endTops (c : PConf) : Nat → PState → PState
  | 0, s => s
  | n + 1, s => endTops c n (s.endTop c)

/-- Number of open elements of the current state. For src/parser/ModeStack.hpp:454-466. -/
def topSize (s : PState) : Nat := ((s.st.head?.map (·.opens)).getD []).length

/-- `popMode`, src/parser/ModeStack.hpp:454-466. -/
def popMode (s : PState) (c : PConf) : PState :=
  let s := endTops c s.topSize s
  { s with st := s.st.drop 1 }

/-- `endMode`, src/parser/ModeStack.hpp:110-116: an exception on the last state (and on an empty stack). -/
def endMode (s : PState) (c : PConf) : PState := if s.st.length ≤ 1 then s else s.popMode c

/-- `completeSkip`, src/parser/StreamMLParser.hpp:641-649. -/
def completeSkip (s : PState) (c : PConf) : PState :=
  match s.comments with
  | [] => s
  | id :: ids =>
    let s := { s with slastcolumn := (s.lt c).column - 1, slastline := (s.lt c).line }
    { s.pushESkipToken c id with comments := ids }

/-- `TokenPosition::setType` for an open element: its start token and its entry on the stack get the new type,
srcMLParser.g:193-200 and 772-775. The position is always taken right after a start element (lines 5292, 5318, 5355,
5536, 5672, 8034, 9116, 9125), so the token is a start token. -/
def retype (s : PState) (u : Nat) (id : TokType) : PState :=
  if s.st.any (fun m => m.opens.any (fun e => e.2 = u)) then
    let s1 := s.mapTok u (fun t => if t.category = .start then { t with type := id } else t)
    { s1 with st := s.st.map (fun m => { m with opens := m.opens.map (fun e => if e.2 = u then (id, u) else e) }) }
  else s

/-- The buffer that receives the output tokens, src/parser/StreamMLParser.hpp:740-742. -/
def output (s : PState) : List PTok := if s.inskip then s.pretb else s.tb

/-- `pauseStream`, src/parser/StreamMLParser.hpp:841-844; without any token in the buffer it is undefined. -/
def pauseStream (s : PState) : PState :=
  match s.output.getLast? with
  | some t => { s with pausetoken := some t.uid, paused := true }
  | none => { s with ub := true }

/-- `resumeStream`, src/parser/StreamMLParser.hpp:847-850. -/
def resumeStream (s : PState) : PState := { s with pausetoken := none, paused := false }

/-- Type of a buffered token (of any buffer). For src/parser/StreamMLParser.hpp:858-870. -/
def typeOf (s : PState) (u : Nat) : Option TokType :=
  (s.queue.find? (fun p => p.uid = u)).map (·.tok.type)

/-- The change of `nopStreamStart`. On a token of the source the change of type would show nowhere (its text is
written all the same) except for the token of a control character; it is left out here, which assumes that the stream
is not paused on such a token. The grammar pauses right after a start element, except in a Java enum
(srcMLParser.g:7154-7174). -/
def nopTok (t : Tok) : Tok :=
  if t.category = .start ∨ t.category = .end_ then { t with type := chars! "SNOP" } else t

/-- `nopStreamStart`, src/parser/StreamMLParser.hpp:858-870. -/
def nopStreamStart (s : PState) : PState :=
  match s.paused, s.pausetoken, s.output.getLast? with
  | true, some u, some b =>
    if s.typeOf u = some b.tok.type then
      ((s.mapTok u nopTok).mapTok b.uid nopTok).resumeStream
    else s
  | _, _, _ => s

/-- `while (size() > 1) endMode();`, srcMLParser.g:349-350 and 356-357. Each turn removes a mode, so the number of
modes bounds the number of turns. -/
def endModes (c : PConf) : Nat → PState → PState
  | 0, s => s
  | n + 1, s => if 1 < s.st.length then endModes c n (s.endMode c) else s

/-- `endAllModes`, srcMLParser.g:342-371, without the element for debugging (lines 345-346). -/
def endAllModes (s : PState) (c : PConf) : PState :=
  let s := if s.paused then (endModes c s.st.length s).nopStreamStart else s
  let s := s.resumeStream
  let s := endModes c s.st.length s
  let s := (s.completeSkip c).flushSkip
  if s.st.length = 1 then s.popMode c else s

/-! ### Consuming -/

/-- The current token as a buffered one. For src/parser/StreamMLParser.hpp:704-769. -/
def cur (s : PState) (c : PConf) : PTok := ⟨s.next, s.lt c, 0⟩

/-- `pushCorrectToken` and the rest of `consume` before its loop, src/parser/StreamMLParser.hpp:315-325 and
776-801. -/
def consumeHead (s : PState) (c : PConf) : PState :=
  let s1 := if isSkipType s.inskip (s.lt c).type then s.pushSkipToken (s.cur c) else s.pushTokenFlush (s.cur c)
  let s2 := s1.fresh.advance
  { s2 with lastline := (s2.lt c).line, lastcolumn := (s2.lt c).column - 1 }

/-- `pushSkipToken(); srcMLParser::consume();`, src/parser/StreamMLParser.hpp:359-360. -/
def skipCur (s : PState) (c : PConf) : PState := ((s.pushSkipToken (s.cur c)).fresh).advance

/-- `slastcolumn = ...; slastline = ...;`, src/parser/StreamMLParser.hpp:384-385. -/
def noteSkipPos (s : PState) (c : PConf) : PState :=
  { s with slastcolumn := (s.lt c).column - 1, slastline := (s.lt c).line }

/-- The empty element token of a control character, src/parser/StreamMLParser.hpp:344-352. -/
def controlTok (t : Tok) : Tok :=
  { type := t.type, category := .empty, text := controlText ((t.text.head?.getD '\x00').toNat) }

/-- `open_comments.pop()`; of an empty stack it is undefined. src/parser/StreamMLParser.hpp:378, 419, 431, 443 and 475. -/
def popComment (s : PState) : PState :=
  match s.comments with
  | [] => { s with ub := true }
  | _ :: cs => { s with comments := cs }

/-- The first part of `consumeSkippedToken`, one skipped token, src/parser/StreamMLParser.hpp:338-502. A line
comment that ends with its newline is closed before it. -/
def skipToken (s : PState) (c : PConf) : PState :=
  let t := s.lt c
  if t.type = chars! "CONTROL_CHAR" then
    ((s.pushSkipToken ⟨s.next, controlTok t, 0⟩).fresh).advance
  else match commentRole t.type with
    | some (el, true, true) => (((s.pushSSkipToken c el).skipCur c).noteSkipPos c).pushESkipToken c el
    | some (el, true, false) =>
      let s := (s.pushSSkipToken c el).skipCur c
      { s with comments := el :: s.comments }
    | some (el, _, _) =>
      let s := s.popComment
      let line := t.type = chars! "LINE_COMMENT_END" ∨ t.type = chars! "LINE_DOXYGEN_COMMENT_END"
      if line ∧ t.text.getLast? = some '\n' then ((s.noteSkipPos c).pushESkipToken c el).skipCur c
      else ((s.skipCur c).noteSkipPos c).pushESkipToken c el
    | none => s.skipCur c

/-- Does `consumeSkippedToken` start a nested rule (and which): the preprocessor, a macro call, Visual C++
assembly, src/parser/StreamMLParser.hpp:504-607. -/
def entersSkip (s : PState) (c : PConf) : Bool :=
  !s.inskip && ((c.cpp && decide ((s.lt c).type = chars! "PREPROC")) || decide ((s.lt c).type = chars! "MACRO_NAME")
    || decide ((s.lt c).type = chars! "VISUAL_CXX_ASM"))

/-- Before the nested rule, src/parser/StreamMLParser.hpp:511-515. -/
def enterSkip (s : PState) : PState := { s with inskip := true }

/-- After the nested rule, src/parser/StreamMLParser.hpp:524-537. -/
def leaveSkip (s : PState) : PState :=
  { s with skiptb := s.skiptb ++ (s.pretb ++ s.skippretb), pretb := [], skippretb := [], inskip := false }

/-- Start of speculative parsing, ANTLR and srcMLParser.g:1093-1094. -/
def beginGuess (s : PState) : PState := { s with guessing := s.guessing + 1 }

/-- End of speculative parsing that began at position `pos`, ANTLR and srcMLParser.g:1101-1102. Nothing else is
restored. -/
def endGuess (s : PState) (pos : Nat) : PState := { s with guessing := s.guessing - 1, pos := pos }

end PState

/-- The actions of grammar code. Modes are given as bit sets.
src/parser/StreamMLParser.hpp:82-139, 841-870 and src/parser/ModeStack.hpp:60-240, as called in src/parser/srcMLParser.g. -/
inductive Act where
  | startElement (id : TokType)
  | startNoSkipElement (id : TokType)
  | addElement (id : TokType)
  | emptyElement (id : TokType)
  | endTop
  | newMode (m : Mode)
  | endMode
  | endLastMode
  | setMode (m : Mode)
  | clearMode (m : Mode)
  | flushSkip
  | completeSkip
  | retype (u : Nat) (id : TokType)
  | pause
  | resume
  | nop
  deriving DecidableEq, Repr

/-- Effect of an action. An action that throws has no effect. src/parser/StreamMLParser.hpp:82-139, 841-870. -/
def Act.run (c : PConf) (s : PState) : Act → PState
  | .startElement id => s.startElement c id
  | .startNoSkipElement id => s.startNoSkipElement c id
  | .addElement id => s.addElement id
  | .emptyElement id => s.emptyElement id
  | .endTop => s.endTop c
  | .newMode m => { s with st := ModeStack.startNewMode s.st m }
  | .endMode => s.endMode c
  | .endLastMode => s.popMode c
  | .setMode m => { s with st := (ModeStack.setMode s.st m).getD s.st }
  | .clearMode m => { s with st := (ModeStack.clearMode s.st m).getD s.st }
  | .flushSkip => s.flushSkip
  | .completeSkip => s.completeSkip c
  | .retype u id => s.retype u id
  | .pause => s.pauseStream
  | .resume => s.resumeStream
  | .nop => s.nopStreamStart

/-- An element type: neither the end of file nor the control character, which the lexer alone produces. src/parser/srcMLParser.g:700-9605. -/
def isElementType (id : TokType) : Prop := id ≠ chars! "EOF" ∧ id ≠ chars! "CONTROL_CHAR"

/-- The actions the grammar may take: elements have element types. src/parser/srcMLParser.g:700-9605. -/
def Act.Valid : Act → Prop
  | .startElement id | .startNoSkipElement id | .addElement id | .emptyElement id | .retype _ id => isElementType id
  | _ => True

/-- Rules of good behaviour that the grammar keeps (read off srcMLParser.g, not proved): while guessing only
modes without elements are started and ended (the init actions of `preprocessor`, lines 9105-9109, `eol`, lines
9307-9309, and `terminate`); a rule run for a skipped line works on modes it started itself (more than `base`);
`addElement` and MODE_ISSUE_EMPTY_AT_POP are not used (only in the dead code at line 9430); the stream is turned
into a NOP only when the last token ends the element it was paused on; the type of an element is only changed by the
rule that started it (the positions are local variables), while its start token is still buffered. src/parser/srcMLParser.g:700-9605. -/
def Act.Regular (base : Nat) (s : PState) : Act → Prop
  | .startElement _ | .startNoSkipElement _ | .endTop => s.guessing = 0 ∧ base < s.st.length
  | .addElement _ => False
  | .emptyElement _ => s.guessing = 0
  | .newMode m => m &&& MODE_ISSUE_EMPTY_AT_POP = 0
  | .setMode m => m &&& MODE_ISSUE_EMPTY_AT_POP = 0 ∧ base < s.st.length
  | .clearMode _ => base < s.st.length
  | .endMode | .endLastMode => base < s.st.length ∧ (s.guessing = 0 ∨ s.topSize = 0)
  | .flushSkip | .completeSkip => s.guessing = 0
  | .retype u _ => s.guessing = 0 ∧ (∀ m ∈ s.st.drop (s.st.length - base), ∀ e ∈ m.opens, e.2 ≠ u) ∧
      (∀ p ∈ s.out, p.uid ≠ u)
  | .pause => s.guessing = 0 ∧ ∃ t, s.output.getLast? = some t ∧ t.tok.category = .start
  | .resume => True
  | .nop => s.guessing = 0 ∧ ∀ u b, s.pausetoken = some u → s.output.getLast? = some b →
      b.tok.category = .end_ ∧ b.elem = u

/-- The kinds of code that are run. `code base`: grammar code, started with `base` modes on the stack.
src/parser/StreamMLParser.hpp:175-193, 315-330 and 504-607. -/
inductive Kind where
  | code (base : Nat)
  | consume
  | skips
  | skipped
  | fill
  | work
  | next
  | driver

/-- The runs of the parser, from one state to another, for any behaviour of the grammar. With `strict` the grammar
behaves regularly. src/parser/StreamMLParser.hpp:175-607. -/
inductive Exec (c : PConf) (strict : Bool) : Kind → PState → PState → Prop
  /-- Code ends (or is left by an exception). -/
  | done {b s} : Exec c strict (.code b) s s
  | act {b s s'} (a : Act) (hv : a.Valid) (hr : strict = true → a.Regular b s) :
      Exec c strict (.code b) (a.run c s) s' → Exec c strict (.code b) s s'
  | consume {b s s1 s'} : Exec c strict .consume s s1 → Exec c strict (.code b) s1 s' →
      Exec c strict (.code b) s s'
  /-- Speculative parsing, ended normally or by a recognition exception. -/
  | guess {b s s1 s'} : Exec c strict (.code b) s.beginGuess s1 → Exec c strict (.code b) (s1.endGuess s.pos) s' →
      Exec c strict (.code b) s s'
  /-- Speculative parsing left by an exception that is not caught there (srcMLParser.g:1093-1102 has no handler). -/
  | escape {b s s1 s'} (h : strict = false) : Exec c strict (.code b) s.beginGuess s1 →
      Exec c strict (.code b) s1 s' → Exec c strict (.code b) s s'
  /-- `consume`, src/parser/StreamMLParser.hpp:315-330. -/
  | eat {s s'} (h : strict = true → isSkipType s.inskip (s.lt c).type = false) :
      Exec c strict .skips (s.consumeHead c) s' → Exec c strict .consume s s'
  /-- The loop `while (consumeSkippedToken());` ends: nothing is skipped here. -/
  | stop {s} (h1 : isSkipType s.inskip (s.lt c).type = false) (h2 : s.entersSkip c = false) :
      Exec c strict .skips s s
  | more {s s1 s'} : Exec c strict .skipped s s1 → Exec c strict .skips s1 s' → Exec c strict .skips s s'
  /-- The rule for a macro call left by an exception: there is no handler, src/parser/StreamMLParser.hpp:544-553. -/
  | abort {s s'} (h : strict = false) (hm : (s.lt c).type = chars! "MACRO_NAME") (hi : s.inskip = false) :
      Exec c strict (.code s.st.length) s.enterSkip s' → Exec c strict .skips s s'
  /-- `consumeSkippedToken` skips a token. -/
  | token {s} (h : isSkipType s.inskip (s.lt c).type = true) : Exec c strict .skipped s (s.skipToken c)
  /-- `consumeSkippedToken` runs a nested rule, src/parser/StreamMLParser.hpp:504-607. -/
  | special {s s1} (h1 : isSkipType s.inskip (s.lt c).type = false) (h : s.entersSkip c = true)
      (hb : strict = true → s1.st.length = s.st.length) :
      Exec c strict (.code s.st.length) s.enterSkip s1 → Exec c strict .skipped s s1.leaveSkip
  /-- `fillTokenBuffer`, src/parser/StreamMLParser.hpp:175-193. -/
  | fillSkip {s s1} : Exec c strict .skipped s s1 → Exec c strict .fill s s1.flushSkip
  | fillStart {s s'} (h1 : isSkipType s.inskip (s.lt c).type = false) (h2 : s.entersSkip c = false) :
      Exec c strict (.code 0) s s' → Exec c strict .fill s s'
  | fillError {s s'} (h1 : isSkipType s.inskip (s.lt c).type = false) (h2 : s.entersSkip c = false)
      (hr : strict = true → s'.guessing = 0) :
      Exec c strict (.code 0) s s' → Exec c strict .fill s (s'.emptyElement (chars! "SERROR_PARSE"))
  /-- What `nextToken` does after it took a token: any number of fills and consumes,
  src/parser/StreamMLParser.hpp:664-690. -/
  | idle {s} : Exec c strict .work s s
  | workFill {s s1 s'} : Exec c strict .fill s s1 → Exec c strict .work s1 s' → Exec c strict .work s s'
  | workConsume {s s1 s'} : Exec c strict .consume s s1 → Exec c strict .work s1 s' → Exec c strict .work s s'
  /-- `nextToken`, src/parser/StreamMLParser.hpp:662-696: the token returned before is taken off, and the loops end
  with a token to return, the stream not paused and, with positions, only the unit open. -/
  | next {s s' t rest} (h : s.tb = t :: rest) (hne : s'.tb ≠ []) (hp : s'.paused = false)
      (he : c.position = true → s'.ends.length ≤ 1) :
      Exec c strict .work { s with out := s.out ++ [t], tb := rest } s' → Exec c strict .next s s'
  | finish {s} : Exec c strict .driver s s
  | again {s s1 s'} : Exec c strict .next s s1 → Exec c strict .driver s1 s' → Exec c strict .driver s s'

/-- The parser after its constructor, src/parser/StreamMLParser.hpp:60-68 and srcMLParser.g:333-335, 766-769: one
mode, the unit element started, and the empty token for it. -/
def PState.init (c : PConf) : PState :=
  let s : PState := { st := ModeStack.startNewMode [] (MODE_TOP ||| 1 ||| (1#128 <<< 25)) }
  (s.startElement c (chars! "SUNIT")).emptyElement (chars! "SUNIT")

end Srcml
