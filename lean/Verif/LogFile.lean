import Verif.Log

/-!
# Log files and messages that end the process (model)

/repo/src/utils/log.c:94-162 and 249-312: the functions that choose where messages go.  One thread; for several threads that log
at the same time see `Log`.  Simplified: a file has one path and nobody else touches it, and what is written to a stream is kept
(the streams are not buffered and are flushed after each message, /repo/src/utils/log.c:152,216; a full disc is not modelled).
-/

namespace Brski.LogFile
open Log Clock Outcome

/-- A file: its content and its permission bits (`fopen` and `umask`, /repo/src/utils/log.c:142-144). -/
structure File where
  content : Bytes
  mode : Nat
deriving Repr, DecidableEq

/-- A `FILE` made by `fopen`, /repo/src/utils/log.c:143. -/
structure Stream where
  path : Bytes
  isOpen : Bool
deriving Repr, DecidableEq

/-- The settings with `L.logfp` (/repo/src/utils/log.c:52-64; the index of a stream, `none` is NULL), all streams opened so far,
the files, what standard error has got, and the mask of the process. -/
structure World where
  set : Settings
  logfp : Option Nat
  streams : List Stream
  files : Bytes → Option File
  err : Bytes
  umask : Nat

/-- The calls of /repo/src/utils/log.h:83-109.  Whether `fopen` works (/repo/src/utils/log.c:143) is part of the call. -/
inductive Call where
  | setLock (b : Bool)
  | setLevel (l : UInt8)
  | setQuiet (b : Bool)
  | setMeta (b : Bool)
  | setColor (b : Bool)
  | openFile (path : Bytes) (works : Bool)
  | closeFile
  | message (m : Msg)
deriving Repr, DecidableEq

/-- `fopen(path, "a")`, /repo/src/utils/log.c:143: a new file has the permissions 0666 without those of the mask. -/
def fopenA (w : World) (path : Bytes) (works : Bool) : World :=
  if works then
    { w with
      logfp := some w.streams.length
      streams := w.streams ++ [⟨path, true⟩]
      files := fun q => if q = path then some ((w.files path).getD ⟨[], 0o666 &&& (0o777 ^^^ w.umask)⟩) else w.files q }
  else { w with logfp := none }

/-- `log_open_file`, /repo/src/utils/log.c:137-155, with its result. -/
def openFile (w : World) (path : Bytes) (works : Bool) : World × Int :=
  let w := { w with set := { w.set with color := false } }
  let m := w.umask
  let w := fopenA { w with umask := 0o77 } path works
  let w := { w with umask := m }
  match w.logfp with
  | none => (w, -1)
  | some _ => (w, 0)

/-- `log_close_file`, /repo/src/utils/log.c:157-162; closing a stream twice is undefined. -/
def closeFile (w : World) : Outcome World :=
  match w.logfp with
  | none => .ok w
  | some i =>
    match w.streams[i]? with
    | some ⟨p, true⟩ => .ok { w with logfp := none, streams := w.streams.set i ⟨p, false⟩ }
    | _ => .ub

/-- Bytes written to the stream of the log, /repo/src/utils/log.c:198-216; a closed stream is undefined. -/
def put (w : World) (b : Bytes) : Outcome World :=
  match w.logfp with
  | none => .ok { w with err := w.err ++ b }
  | some i =>
    match w.streams[i]? with
    | some ⟨p, true⟩ =>
      .ok { w with files := fun q => if q = p then (w.files p).map fun f => { f with content := f.content ++ b } else w.files q }
    | _ => .ub

/-- The bytes among the actions of a thread (/repo/src/utils/log.c:200-215). -/
def bytesOf : List Action → Bytes
  | [] => []
  | .write c :: r => c :: bytesOf r
  | _ :: r => bytesOf r

/-- `log_msg`, /repo/src/utils/log.c:219-247, called by one thread. -/
def say (zone : Zone) (w : World) (m : Msg) : Outcome World :=
  (logMsg zone w.set m).bind fun acts => put w (bytesOf acts)

/-- One call: the setters (/repo/src/utils/log.c:127-135), the files and the messages. -/
def call (zone : Zone) (w : World) : Call → Outcome World
  | .setLock b => .ok { w with set := { w.set with lock := b } }
  | .setLevel l => .ok { w with set := { w.set with level := l } }
  | .setQuiet b => .ok { w with set := { w.set with quiet := b } }
  | .setMeta b => .ok { w with set := { w.set with meta_ := b } }
  | .setColor b => .ok { w with set := { w.set with color := b } }
  | .openFile p works => .ok (openFile w p works).1
  | .closeFile => closeFile w
  | .message m => say zone w m

/-- A history of calls of /repo/src/utils/log.h:83-109. -/
def run (zone : Zone) (w : World) : List Call → Outcome World
  | [] => .ok w
  | c :: cs => (call zone w c).bind fun w => run zone w cs

/-- How a process ends in `terminate`, /repo/src/utils/log.c:94-113: by a signal, by `exit` with its handlers, or by `_exit`; the
status is `EXIT_FAILURE` in the last two. -/
inductive End where
  | abort
  | exit (status : Nat)
  | exitNow (status : Nat)
deriving Repr, DecidableEq

/-- `terminate`, /repo/src/utils/log.c:94-113; `dump` is the variable `EF_DUMPCORE` of the environment. -/
def terminate (dump : Option Bytes) (useExit3 : Bool) : End :=
  match dump with
  | some (_ :: _) => .abort
  | _ => if useExit3 then .exit 1 else .exitNow 1

/-- `log_error_exit`, /repo/src/utils/log.c:272-284. -/
def errorExit (zone : Zone) (dump : Option Bytes) (w : World) (m : Msg) : Outcome (World × End) :=
  (say zone w { m with ignoreLevel := false }).bind fun w => .ok (w, terminate dump true)

/-- `log_error_exit_proc`, /repo/src/utils/log.c:300-312. -/
def errorExitProc (zone : Zone) (dump : Option Bytes) (w : World) (m : Msg) : Outcome (World × End) :=
  (say zone w { m with ignoreLevel := true }).bind fun w => .ok (w, terminate dump false)

end Brski.LogFile
