import Verif.Pool

/-!
# Stopping a server (model)

`registrar_stop` and `masa_stop` (/repo/src/brski/registrar/registrar_server.cpp:75-80, /repo/src/brski/masa/masa_server.cpp:92-97),
which call `httplib_stop` (/repo/src/brski/http/httplib_wrapper.cpp:191-197) and by it `Server::stop`
(/repo/src/brski/http/httplib.h:6243-6250), beside `listen_internal` (6681-6759) in another thread and the threads of the pool.
`registrar_start` returns when `listen` has returned, but the context and the server are stored where others find them before
(registrar_server.cpp:55, httplib_wrapper.cpp:223), so that a running server can only be stopped by another thread.

The pool is that of `Pool`.  Added: which steps look at the members of the server, the listening socket, and a thread that stops the
server.  Simplified: what `accept` gives and the look at `svr_sock_` after it are one step; one call of `stop` only.
-/

namespace Brski.Stop
open Pool

/-- The thread that stops the server: before the call; after the test of `is_running_` that found it running
(/repo/src/brski/http/httplib.h:6244); after `exchange` (6246); before `delete server`
(/repo/src/brski/http/httplib_wrapper.cpp:195); before `delete context` (/repo/src/brski/registrar/registrar_server.cpp:78); after it. -/
inductive Stopper where
  | idle
  | running
  | exchanged
  | stopped
  | deleted
  | done
deriving Repr, DecidableEq

/-- The state: the pool; whether `svr_sock_` is valid, how often the descriptor of the listening socket was closed, `is_running_`
(/repo/src/brski/http/httplib.h:921,983); whether server and context are still there; whether `listen_internal` has returned. -/
structure St where
  pool : Pool.St
  valid : Bool
  closes : Nat
  running : Bool
  server : Bool
  context : Bool
  left : Bool
  stopper : Stopper
deriving Repr, DecidableEq

/-- What happens next (/repo/src/brski/http/httplib.h:6243-6250,6681-6759): `run`: `is_running_ = true` and the call of
`new_task_queue` (6683-6687); a step of the pool; `use`: a thread of the pool, serving a client, looks at the server or, in a handler,
at the context; `leave`: `is_running_ = false` (6684); the steps of the thread that stops the server. -/
inductive Ev where
  | run
  | pool (e : Pool.Ev)
  | use (i : Nat)
  | leave
  | test
  | exchange
  | close
  | delete
  | free
deriving Repr, DecidableEq

/-- After a step (/repo/src/brski/http/httplib.h:6681-6759): the next state, undefined behaviour, or the end of listening or of the
process in one of the ways of `Pool.Res`. -/
inductive Res where
  | ok (s : St)
  | ub
  | over
deriving Repr, DecidableEq

/-- `accept` and the tests of `svr_sock_`, /repo/src/brski/http/httplib.h:6689-6720: after an error that is not tried again the socket
is closed if it is still the server's; without a valid socket nothing is accepted. -/
def accept (s : St) (a : Accept) : Option Res :=
  if s.running = false then none
  else if s.server = false then some .ub
  else
    match a, s.valid with
    | .stopped, true => none
    | .conn, false => none
    | .err _, false => none
    | a, v =>
      match step s.pool (.accept a) with
      | some (.ok p) => some (.ok { s with pool := p, closes := if v && p.acceptor == .stopping then s.closes + 1 else s.closes })
      | some .ub => some .ub
      | some _ => some .over
      | none => none

/-- A step; `none` when it is not possible (/repo/src/brski/http/httplib.h:6243-6250,6681-6759). -/
def step (s : St) : Ev → Option Res
  | .run =>
    if s.running = false ∧ s.left = false then
      if s.server then some (.ok { s with running := true }) else some .ub
    else none
  | .pool (.accept a) => if s.pool.acceptor = .accepting then accept s a else none
  | .pool e =>
    if s.running = false then none
    else
      match Pool.step s.pool e with
      | some (.ok p) => some (.ok { s with pool := p })
      | some .ub => some .ub
      | some _ => some .over
      | none => none
  | .use i =>
    match s.pool.workers[i]? with
    | some (.running _) => if s.server && s.context then some (.ok s) else some .ub
    | _ => none
  | .leave =>
    if s.pool.acceptor = .returned ∧ s.left = false then
      if s.server then some (.ok { s with running := false, left := true }) else some .ub
    else none
  | .test => if s.stopper = .idle then some (.ok { s with stopper := if s.running then .running else .stopped }) else none
  | .exchange => if s.stopper = .running then some (.ok { s with valid := false, stopper := .exchanged }) else none
  | .close => if s.stopper = .exchanged then some (.ok { s with closes := s.closes + 1, stopper := .stopped }) else none
  | .delete => if s.stopper = .stopped then some (.ok { s with server := false, stopper := .deleted }) else none
  | .free => if s.stopper = .deleted then some (.ok { s with context := false, stopper := .done }) else none

/-- A run; nothing follows undefined behaviour (/repo/src/brski/http/httplib.h:6681-6759). -/
def run (s : St) : List Ev → Option Res
  | [] => some (.ok s)
  | e :: es => match step s e with
    | some (.ok s') => run s' es
    | r => if es = [] then r else none

/-- Before `listen_internal` with `n` threads to be started; the socket is bound
(/repo/src/brski/http/httplib.h:6657,6681, /repo/src/brski/http/httplib_wrapper.cpp:223-228). -/
def start (n : Nat) : St := ⟨Pool.start n, true, 0, false, true, true, false, .idle⟩

end Brski.Stop
