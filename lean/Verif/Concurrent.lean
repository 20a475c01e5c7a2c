import Verif.Server

/-!
# Concurrent requests at the MASA

The HTTP server runs each request in a thread of its pool; all requests share one `struct MasaContext`
(/repo/src/brski/masa/masa_server.cpp:73-90), whose member `ldevid_ca_cert` each request sets, reads in the
callback and releases (/repo/src/brski/masa/masa_api.cpp:94-98,32-52,159,172).  Everything else a request
touches is local to it.  The model interleaves these accesses; each access is atomic (the real ones are not,
so that the real program has more behaviours).
-/

namespace Brski.Concurrent
open Outcome

/-- The accesses of request `i` to the shared pointer: `load` reads the certificate file into a new block and
stores the pointer (/repo/src/brski/masa/masa_api.cpp:94-98), `use` copies the block behind the pointer
(/repo/src/brski/masa/masa_api.cpp:32-52), `free` releases it (/repo/src/brski/masa/masa_api.cpp:159,172). -/
inductive Act where
  | load (i : Nat)
  | use (i : Nat)
  | free (i : Nat)
deriving Repr, DecidableEq

/-- The request an access belongs to (/repo/src/brski/masa/masa_api.cpp:57-183). -/
def Act.id : Act → Nat
  | .load i => i
  | .use i => i
  | .free i => i

/-- Shared state: heap, the pointer `context->ldevid_ca_cert`, and which certificate each callback has copied so
far, `none` when the pointer was NULL (/repo/src/brski/masa/masa_config.h:31-36). -/
structure State where
  heap : Heap
  ctx : Option Nat
  used : List (Nat × Option Bytes)

/-- One access; `pin i` is the certificate request `i` reads from its file, `none` if it cannot be read: then the pointer is set
to NULL.  The pointer is not set to NULL by `free` (/repo/src/brski/masa/masa_api.cpp:94-98,32-52,159,172). -/
def step (pin : Nat → Option Bytes) (s : State) : Act → Outcome State
  | .load i =>
    match pin i with
    | some b => .ok ⟨(s.heap.alloc b).1, some (s.heap.alloc b).2, s.used⟩
    | none => .ok { s with ctx := none }
  | .use i =>
    match s.ctx with
    | none => .ok { s with used := s.used ++ [(i, none)] }
    | some p => (s.heap.read p).bind fun b => .ok { s with used := s.used ++ [(i, some b)] }
  | .free _ => (s.heap.freePtr s.ctx).bind fun h => .ok { s with heap := h }

/-- A schedule (threads of /repo/src/brski/http/httplib.h, `ThreadPool`). -/
def run (pin : Nat → Option Bytes) : State → List Act → Outcome State
  | s, [] => .ok s
  | s, a :: as => (step pin s a).bind fun s => run pin s as

/-- The server after its start (/repo/src/brski/masa/masa_server.cpp:73). -/
def start : State := ⟨Heap.empty, none, []⟩

end Brski.Concurrent
