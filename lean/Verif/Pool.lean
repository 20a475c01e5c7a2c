import Verif.Base

/-!
# The accept loop and the pool of threads (model)

`ThreadPool` (/repo/src/brski/http/httplib.h:668-741) and `Server::listen_internal`
(/repo/src/brski/http/httplib.h:6681-6759), on which the registrar and the MASA run
(/repo/src/brski/http/httplib_wrapper.cpp:228).  One thread accepts, the others serve.  What happens under the mutex is one step;
all shared members are accessed under the mutex only.  `wait` on the condition releases the mutex in the same step in which it
goes to sleep and tests its condition again after each wake-up, also after one without a cause.  Connections are numbered in the
order of `accept`.
-/

namespace Brski.Pool

/-- A thread of the pool, /repo/src/brski/http/httplib.h:708-728: before the test of the condition (712-715), asleep in `wait`,
in `fn()` (726), after the loop (718). -/
inductive Worker where
  | ready
  | asleep
  | running (j : Nat)
  | ended
deriving Repr, DecidableEq

/-- The thread that accepts: in the constructor of the pool with threads left to start
(/repo/src/brski/http/httplib.h:670-675), in `accept` (6702), before `push_back` (682-683), before `notify_one` (686), before
`shutdown_ = true` (692-693), before `notify_all` (696), before the joins (699-701), after the return (6758). -/
inductive Acceptor where
  | creating (left : Nat)
  | accepting
  | adding
  | notifying
  | stopping
  | notifyingAll
  | joining
  | returned
deriving Repr, DecidableEq

/-- What `accept` gives (/repo/src/brski/http/httplib.h:6702-6721): a connection, an error, or an error because the socket was
closed by `stop` (6243-6250). -/
inductive Accept where
  | conn
  | err (errno : Nat)
  | stopped
deriving Repr, DecidableEq

/-- The state: `next` is the number of connections accepted, `started` and `finished` list the connections taken by threads and
served; `ret` is the local variable of `listen_internal` (/repo/src/brski/http/httplib.h:6682). -/
structure St where
  acceptor : Acceptor
  workers : List Worker
  jobs : List Nat
  shutdown : Bool
  next : Nat
  started : List Nat
  finished : List Nat
  ret : Bool
deriving Repr, DecidableEq

/-- What happens next: who moves, and what the environment answers.  `throws`: an exception leaves `process_and_close_socket`
(/repo/src/brski/http/httplib.h:726,6752). -/
inductive Ev where
  | spawn (ok : Bool)
  | begin
  | accept (a : Accept)
  | push (ok : Bool)
  | notify (w : Option Nat)
  | stop
  | notifyAll
  | join
  | wake (w : Nat)
  | take (w : Nat)
  | finish (w : Nat) (throws : Bool)
deriving Repr, DecidableEq

/-- After a step: the next state; an exception from `listen` (caught at /repo/src/brski/http/httplib_wrapper.cpp:229); undefined
behaviour; or the end of the process by `std::terminate`. -/
inductive Res where
  | ok (s : St)
  | thrown
  | ub
  | terminated
deriving Repr, DecidableEq

/-- The errors after which `accept` is tried again: EMFILE, EINTR and EAGAIN, /repo/src/brski/http/httplib.h:6705-6711. -/
def retries (errno : Nat) : Bool := errno = 24 || errno = 4 || errno = 11

/-- The threads of the pool, `CPPHTTPLIB_THREAD_POOL_COUNT`, /repo/src/brski/http/httplib.h:97-102,5997-5999. -/
def poolSize (hardware : Nat) : Nat := max 8 (if hardware > 0 then hardware - 1 else 0)

/-- `notify_all`, /repo/src/brski/http/httplib.h:696. -/
def Worker.woken : Worker → Worker
  | .asleep => .ready
  | w => w

/-- A step; `none` when it is not possible.  A thread that cannot be started or a job that cannot be stored raises an exception.
If threads have been started, the mutex and the condition they use are destroyed, which is undefined, before `std::terminate` is
called for the threads (/repo/src/brski/http/httplib.h:678,734-740, the queue being released at 6687).  An exception that leaves
a thread ends the process. -/
def step (s : St) : Ev → Option Res
  | .spawn ok =>
    match s.acceptor with
    | .creating (k + 1) =>
      if ok then some (.ok { s with acceptor := .creating k, workers := s.workers ++ [.ready] })
      else if s.workers = [] then some .thrown else some .ub
    | _ => none
  | .begin => if s.acceptor = .creating 0 then some (.ok { s with acceptor := .accepting }) else none
  | .accept a =>
    if s.acceptor = .accepting then
      match a with
      | .conn => some (.ok { s with acceptor := .adding, next := s.next + 1 })
      | .err e => if retries e then some (.ok s) else some (.ok { s with acceptor := .stopping, ret := false })
      | .stopped => some (.ok { s with acceptor := .stopping })
    else none
  | .push ok =>
    if s.acceptor = .adding then
      if ok then some (.ok { s with acceptor := .notifying, jobs := s.jobs ++ [s.next - 1] })
      else if s.workers = [] then some .thrown else some .ub
    else none
  | .notify w =>
    if s.acceptor = .notifying then
      match w with
      | none => if .asleep ∈ s.workers then none else some (.ok { s with acceptor := .accepting })
      | some i =>
        if s.workers[i]? = some .asleep then
          some (.ok { s with acceptor := .accepting, workers := s.workers.set i .ready })
        else none
    else none
  | .stop => if s.acceptor = .stopping then some (.ok { s with acceptor := .notifyingAll, shutdown := true }) else none
  | .notifyAll =>
    if s.acceptor = .notifyingAll then
      some (.ok { s with acceptor := .joining, workers := s.workers.map Worker.woken })
    else none
  | .join =>
    if s.acceptor = .joining ∧ ∀ w ∈ s.workers, w = .ended then some (.ok { s with acceptor := .returned }) else none
  | .wake i =>
    if s.workers[i]? = some .asleep then some (.ok { s with workers := s.workers.set i .ready }) else none
  | .take i =>
    if s.workers[i]? = some .ready then
      match s.jobs with
      | j :: js =>
        some (.ok { s with workers := s.workers.set i (.running j), jobs := js, started := s.started ++ [j] })
      | [] => some (.ok { s with workers := s.workers.set i (if s.shutdown then .ended else .asleep) })
    else none
  | .finish i throws =>
    match s.workers[i]? with
    | some (.running j) =>
      if throws then some .terminated
      else some (.ok { s with workers := s.workers.set i .ready, finished := s.finished ++ [j] })
    | _ => none

/-- A run (/repo/src/brski/http/httplib.h:6681-6759). -/
def run (s : St) : List Ev → Option Res
  | [] => some (.ok s)
  | e :: es => match step s e with
    | some (.ok s') => run s' es
    | r => if es = [] then r else none

/-- The start of `listen_internal`, with `n` threads to be started (/repo/src/brski/http/httplib.h:6682-6687). -/
def start (n : Nat) : St := ⟨.creating n, [], [], false, 0, [], [], true⟩

end Brski.Pool
