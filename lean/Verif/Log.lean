import Verif.Clock

/-!
# The log (model)

/repo/src/utils/log.c and the lock function of /repo/src/brski/brski.cpp:72-80.  The stream is the list of bytes written
to it.  The threads that log are interleaved byte by byte, which is finer than the real program (one `fprintf` at a
time).  Simplified: the settings do not change while threads are running (`main` sets them before it starts the
servers, /repo/src/brski/brski.cpp:275-281); `strerror` and the text of `vfprintf` are members of the message.
-/

namespace Brski.Log

open BoolTime Clock

/-- `static struct { … } L`, /repo/src/utils/log.c:52-64 (the stream is the output of `Reach` below; `lock` says whether a
lock function is set). -/
structure Settings where
  lock : Bool
  level : UInt8
  quiet : Bool
  meta_ : Bool
  color : Bool
deriving Repr, DecidableEq

/-- The initial settings, /repo/src/utils/log.c:59-64. -/
def defaults : Settings := ⟨false, 0, false, true, true⟩

/-- The arguments of `log_msg`, /repo/src/utils/log.c:219-220, with the text of `strerror(err)`, the text of the format with
its arguments, and the instant of `gettimeofday`. -/
structure Msg where
  level : UInt8
  file : Bytes
  line : Nat
  ignoreLevel : Bool
  err : Int
  errText : Bytes
  text : Bytes
  time : Int
  usec : Nat
deriving Repr, DecidableEq

/-- `log_check_level`, /repo/src/utils/log.c:164-171; true suppresses the message. -/
def checkLevel (L : Settings) (level : UInt8) (ignoreLevel : Bool) : Bool :=
  if level < L.level && !ignoreLevel then true
  else if L.quiet && !ignoreLevel then true
  else false

/-- Digits of a non-negative `int` with `%d` (`err` is positive where it is printed, /repo/src/utils/log.c:187). -/
def decimal (n : Int) : Bytes := natDec n.toNat

/-- `get_error_text`, /repo/src/utils/log.c:184-193: `snprintf` keeps 29 characters. -/
def errorText (m : Msg) : Bytes :=
  if m.err > 0 then (str "[" ++ m.errText ++ str "(" ++ decimal m.err ++ str ")]").take 29 else []

/-- `level_names`, /repo/src/utils/log.c:66 and /repo/src/utils/log.h:31-32. -/
def levelNames : List Bytes := [str "TRACE", str "DEBUG", str "INFO", str "WARN", str "ERROR"]

/-- `level_colors`, /repo/src/utils/log.c:67 and /repo/src/utils/log.h:33-34. -/
def levelColors : List Bytes :=
  [27 :: str "[94m", 27 :: str "[36m", 27 :: str "[32m", 27 :: str "[33m", 27 :: str "[31m"]

/-- `%-5s`, /repo/src/utils/log.c:202,206. -/
def pad5 (s : Bytes) : Bytes := s ++ List.replicate (5 - s.length) 32

/-- `fprintf` of the meta data, /repo/src/utils/log.c:200-209; a level without a name reads past the array. -/
def metaText (L : Settings) (m : Msg) (stamp : Bytes) : Outcome Bytes :=
  if L.meta_ then
    match levelNames[m.level.toNat]?, levelColors[m.level.toNat]? with
    | some name, some color =>
      if L.color then
        .ok (stamp ++ str " " ++ color ++ pad5 name ++ 27 :: str "[0m" ++ errorText m ++ 27 :: str "[0m " ++
          27 :: str "[90m" ++ m.file ++ str ":" ++ natDec m.line ++ str ":" ++ 27 :: str "[0m ")
      else
        .ok (stamp ++ str " " ++ pad5 name ++ errorText m ++ str " " ++ m.file ++ str ":" ++ natDec m.line ++ str ": ")
    | _, _ => .ub
  else .ok []

/-- `print_to`, /repo/src/utils/log.c:195-217: the bytes it writes. -/
def printTo (L : Settings) (m : Msg) (stamp : Bytes) : Outcome Bytes :=
  (metaText L m stamp).bind fun pre =>
    .ok (pre ++ (if m.err > 0 then str "[" ++ m.errText ++ str "] " else []) ++ m.text ++ [10])

/-- What a thread does to the stream and to the mutex: `L.lock(true)`, one byte written, `L.lock(false)`
(/repo/src/utils/log.c:115-125, 198-216). -/
inductive Action where
  | lock
  | write (c : UInt8)
  | unlock
deriving Repr, DecidableEq

/-- `log_msg`, /repo/src/utils/log.c:219-247. -/
def logMsg (zone : Zone) (L : Settings) (m : Msg) : Outcome (List Action) :=
  if checkLevel L m.level m.ignoreLevel then .ok []
  else
    (timeToStr zone 25 m.time m.usec).bind fun stamp =>
      (if L.quiet then .ok [] else printTo L m stamp).bind fun out =>
        .ok ((if L.lock then [.lock] else []) ++ out.map .write ++ (if L.lock then [.unlock] else []))

/-- A thread that logs one message after the other (the functions of /repo/src/utils/log.c:249-312 without the
termination of the process). -/
def logMsgs (zone : Zone) (L : Settings) : List Msg → Outcome (List Action)
  | [] => .ok []
  | m :: ms => (logMsg zone L m).bind fun a => (logMsgs zone L ms).bind fun b => .ok (a ++ b)

/-- The owner of the mutex, what each thread still has to do, and the stream (/repo/src/brski/brski.cpp:72-80 and
/repo/src/utils/log.c:58). -/
structure State where
  owner : Option Nat
  todo : Nat → List Action
  out : Bytes

/-- `todo` of one thread changes (a step of a thread, /repo/src/utils/log.c:219-247). -/
def State.put (s : State) (i : Nat) (r : List Action) : Nat → List Action := fun j => if j = i then r else s.todo j

/-- Thread `i` does its next action: a lock waits until the mutex (`std::mutex`, /repo/src/brski/brski.cpp:72-80) is free; it is
not recursive. -/
inductive Step : State → Nat → State → Prop where
  | lock {s i r} : s.todo i = .lock :: r → s.owner = none → Step s i ⟨some i, s.put i r, s.out⟩
  | write {s i c r} : s.todo i = .write c :: r → Step s i ⟨s.owner, s.put i r, s.out ++ [c]⟩
  | unlock {s i r} : s.todo i = .unlock :: r → s.owner = some i → Step s i ⟨none, s.put i r, s.out⟩

/-- The states the threads can reach, whatever the scheduler does (/repo/src/brski/http/httplib.h, `ThreadPool`). -/
inductive Reach (prog : Nat → List Action) : State → Prop where
  | init : Reach prog ⟨none, prog, []⟩
  | step {s i s'} : Reach prog s → Step s i s' → Reach prog s'

end Brski.Log
