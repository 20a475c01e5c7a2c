import Verif.Pool
import Verif.Concurrent

/-!
# The handlers of the MASA in the threads of the pool (model)

`Pool` says which thread serves which connection and when, `Concurrent` what a voucher request does to the pointer all
requests share.  Here both run together: a thread that serves a connection performs the accesses of its requests one by one
(/repo/src/brski/http/httplib.h:707-727,6752, /repo/src/brski/masa/masa_api.cpp:57-183), and `fn()` returns when all are done.
-/

namespace Brski.PoolMasa
open Concurrent (Act)

/-- The accesses of voucher request `i` in program order: the certificate is loaded, the callback copies it `k` times, it is
released (/repo/src/brski/masa/masa_api.cpp:94-98,126-143,159,172). -/
def accesses (k i : Nat) : List Act := .load i :: (List.replicate k (.use i) ++ [.free i])

/-- The state of the pool, the accesses still to come on each connection, and those performed so far
(/repo/src/brski/http/httplib.h:668-741, /repo/src/brski/masa/masa_server.cpp:73-90). -/
structure Sys where
  pool : Pool.St
  left : Nat → List Act
  done : List Act

/-- What happens next: a step of the pool or the next access of the connection that thread `w` serves
(/repo/src/brski/http/httplib.h:707-727). -/
inductive Ev where
  | pool (e : Pool.Ev)
  | access (w : Nat)

/-- The thread `e` lets go of its connection although accesses are to come (/repo/src/brski/http/httplib.h:726). -/
def early (s : Sys) : Pool.Ev → Bool
  | .finish w _ =>
    match s.pool.workers[w]? with
    | some (.running j) => s.left j ≠ []
    | _ => false
  | _ => false

/-- A step; `none` when it is not possible or the pool is at its end (see C96 for that)
(/repo/src/brski/http/httplib.h:668-741,6681-6759). -/
def step (s : Sys) : Ev → Option Sys
  | .pool e =>
    if early s e then none
    else match Pool.step s.pool e with
      | some (.ok p) => some { s with pool := p }
      | _ => none
  | .access w =>
    match s.pool.workers[w]? with
    | some (.running j) =>
      match s.left j with
      | a :: r => some { s with left := fun i => if i = j then r else s.left i, done := s.done ++ [a] }
      | [] => none
    | _ => none

/-- A run (/repo/src/brski/http/httplib.h:6681-6759). -/
def run (s : Sys) : List Ev → Option Sys
  | [] => some s
  | e :: es => (step s e).bind fun s' => run s' es

/-- The start, with `n` threads to be started; the `j`th connection brings the voucher requests `reqs j`, one after another,
request `i` with `k i` callbacks (/repo/src/brski/http/httplib.h:3112-3132,6682-6687). -/
def start (n : Nat) (reqs : Nat → List Nat) (k : Nat → Nat) : Sys :=
  ⟨Pool.start n, fun j => (reqs j).flatMap fun i => accesses (k i) i, []⟩

end Brski.PoolMasa
