import Verif.Base

/-!
# Opening sockets (model)

`create_socket` (/repo/src/brski/http/httplib.h:3167-3308), with which a client connects (`create_client_socket`, 3398-3479, and
`wait_until_socket_is_ready`, 2963-3026) and a server listens (`create_server_socket`, 6633-6649, `default_socket_options`,
1862-1879).  `ai_family` is not `AF_UNIX` (`address_family_` is `AF_UNSPEC`, 1015, 1392) and no interface is set (1399), so 3194-3223
and 3408-3418 are left out; likewise `TCP_NODELAY`, which is off (85-87).
-/

namespace Brski.Connect
open Outcome

/-- What is done to descriptors and to the list of addresses (/repo/src/brski/http/httplib.h:3227-3306): the list is acquired, read,
released; a descriptor is opened, used in a call, closed. -/
inductive Ev where
  | resolved
  | addr
  | released
  | opened (fd : Nat)
  | used (fd : Nat)
  | closed (fd : Nat)
deriving Repr, DecidableEq

/-- An element of the list of addresses and what the system does with it (/repo/src/brski/http/httplib.h:3234-3303): `v6`: the family
is `AF_INET6` (3286); `sock`: the descriptor given by `socket` (3258); `cloexec`: `fcntl` succeeds (3265); `env`: what `bind_or_connect` meets. -/
structure Addr (α : Type) where
  v6 : Bool
  sock : Option Nat
  cloexec : Bool
  env : α
deriving Repr, DecidableEq

/-- The loop of `create_socket`, /repo/src/brski/http/httplib.h:3234-3307.  `options`: there are `socket_options` (3282); `boc`:
`bind_or_connect` (3298) with its captured variables `σ`.  The result names the element for which `bind_or_connect` succeeded beside
the descriptor. -/
def tries {α σ : Type} (options : Bool) (boc : σ → Nat → α → Outcome (Bool × σ × List Ev)) :
    σ → List (Addr α) → Outcome (Option (Nat × Addr α) × σ × List Ev)
  | s, [] => ok (none, s, [.released])
  | s, a :: as =>
    match a.sock with
    | none => do
      let r ← tries options boc s as
      ok (r.1, r.2.1, .addr :: r.2.2)
    | some fd =>
      if a.cloexec then do
        let q ← boc s fd a.env
        let es := [.addr, .opened fd, .used fd] ++ (if options then [.used fd] else []) ++ (if a.v6 then [.used fd] else []) ++ q.2.2
        if q.1 then ok (some (fd, a), q.2.1, es ++ [.released])
        else do
          let r ← tries options boc q.2.1 as
          ok (r.1, r.2.1, es ++ .closed fd :: .addr :: r.2.2)
      else do
        let r ← tries options boc s as
        ok (r.1, r.2.1, [.addr, .opened fd, .used fd, .closed fd, .addr] ++ r.2.2)

/-- `create_socket`, /repo/src/brski/http/httplib.h:3167-3308: `none` when `getaddrinfo` fails (3227-3232). -/
def createSocket {α σ : Type} (options : Bool) (boc : σ → Nat → α → Outcome (Bool × σ × List Ev)) (s : σ) :
    Option (List (Addr α)) → Outcome (Option (Nat × Addr α) × σ × List Ev)
  | none => ok (none, s, [])
  | some l => do
    let r ← tries options boc s l
    ok (r.1, r.2.1, .resolved :: r.2.2)

/-! ## The client -/

/-- The values of `Error` that occur here (/repo/src/brski/http/httplib.h:2963-3026,3398-3479). -/
inductive Err where
  | success
  | connection
  | timeout
deriving Repr, DecidableEq

/-- What `select` meets while a connection is made (/repo/src/brski/http/httplib.h:2994-3025): the milliseconds to each interruption by
a signal, from the one before; then `select` fails (`fails`), or after `ready` milliseconds (`none`: never) the socket is readable or writable,
and `SO_ERROR` is `soError` (`none`: `getsockopt` fails). -/
structure Wait where
  interrupted : List Nat
  fails : Bool
  ready : Option Nat
  soError : Option Nat
deriving Repr, DecidableEq

/-- What `connect` results in (/repo/src/brski/http/httplib.h:3422-3429): done at once, an error, or `EINPROGRESS`. -/
inductive Meets where
  | done
  | refused
  | pending (w : Wait)
deriving Repr, DecidableEq

/-- `FD_SET`, /repo/src/brski/http/httplib.h:2996: writes outside of the set if the descriptor is not below `FD_SETSIZE`. -/
def fdSet (fd : Nat) : Outcome Unit := if fd < 1024 then ok () else ub

/-- `select` in `handle_EINTR`, /repo/src/brski/http/httplib.h:3005-3025 and 2866-2876, with `left` milliseconds left.  Linux stores the
time that is left in `tv`, so the next call goes on with it.  With the milliseconds spent. -/
def selects (w : Wait) : Nat → List Nat → Err × Nat
  | left, d :: ds =>
    if d ≤ left then ((selects w (left - d) ds).1, d + (selects w (left - d) ds).2) else (.timeout, left)
  | left, [] =>
    if w.fails then (.connection, 0)
    else match w.ready with
      | some d => if d ≤ left then (if w.soError = some 0 then .success else .connection, d) else (.timeout, left)
      | none => (.timeout, left)

/-- `wait_until_socket_is_ready`, /repo/src/brski/http/httplib.h:2963-3026, with the milliseconds spent. -/
def waitReady (limit fd : Nat) (w : Wait) : Outcome (Err × Nat) :=
  if 1024 ≤ fd then ok (.connection, 0)
  else do
    fdSet fd
    ok (selects w limit w.interrupted)

/-- The function passed by `create_client_socket`, /repo/src/brski/http/httplib.h:3407-3470, with `error` and the milliseconds spent. -/
def connectTo (limit : Nat) (s : Err × Nat) (fd : Nat) : Meets → Outcome (Bool × (Err × Nat) × List Ev)
  | .done => ok (true, (.success, s.2), [.used fd, .addr, .used fd, .used fd, .used fd, .used fd])
  | .refused => ok (false, (.connection, s.2), [.used fd, .addr, .used fd])
  | .pending w => do
    let r ← waitReady limit fd w
    if r.1 = .success then ok (true, (.success, s.2 + r.2), [.used fd, .addr, .used fd, .used fd, .used fd, .used fd, .used fd])
    else ok (false, (r.1, s.2 + r.2), [.used fd, .addr, .used fd, .used fd])

/-- What `create_client_socket` returns: the descriptor with the address it is connected to, `error`, the milliseconds spent in `select`,
the events (/repo/src/brski/http/httplib.h:3398-3479). -/
structure Opened where
  sock : Option (Nat × Addr Meets)
  error : Err
  spent : Nat
  events : List Ev
deriving Repr, DecidableEq

/-- `create_client_socket`, /repo/src/brski/http/httplib.h:3398-3479; there are no `socket_options` (1394); `error` is `Success` before
(7851-7945). -/
def clientSocket (limit : Nat) (l : Option (List (Addr Meets))) : Outcome Opened := do
  let r ← createSocket false (connectTo limit) (.success, 0) l
  let e := if r.1.isSome then .success else if r.2.1.1 = .success then .connection else r.2.1.1
  ok ⟨r.1, e, r.2.1.2, r.2.2⟩

/-- `CPPHTTPLIB_CONNECTION_TIMEOUT_SECOND`, in milliseconds, /repo/src/brski/http/httplib.h:25-27,1372. -/
def connectionLimit : Nat := 300000

/-! ## The server -/

/-- What `bind` and `listen` result in, /repo/src/brski/http/httplib.h:6641-6646. -/
structure Binds where
  bind : Bool
  listen : Bool
deriving Repr, DecidableEq

/-- The function passed by `create_server_socket`, /repo/src/brski/http/httplib.h:6640-6648. -/
def listenOn (_ : Unit) (fd : Nat) (b : Binds) : Outcome (Bool × Unit × List Ev) :=
  if b.bind then ok (b.listen, (), [.addr, .used fd, .used fd]) else ok (false, (), [.addr, .used fd])

/-- `Server::create_server_socket`, /repo/src/brski/http/httplib.h:6633-6649, with `default_socket_options` (1017, 1862-1879). -/
def serverSocket (l : Option (List (Addr Binds))) : Outcome (Option (Nat × Addr Binds) × List Ev) := do
  let r ← createSocket true listenOn () l
  ok (r.1, r.2.2)

/-! ## Ports in use -/

/-- A listening socket of some program: address with port, whether `SO_REUSEPORT` is set, and the user
(/repo/src/brski/http/httplib.h:1870-1872,6641). -/
structure Holder (β : Type) where
  addr : β
  reuse : Bool
  user : Nat
deriving Repr, DecidableEq

/-- The rule of Linux for `bind` to an address with a listening socket (called at /repo/src/brski/http/httplib.h:6641): it is refused
unless both sockets have `SO_REUSEPORT` and belong to one user.  `overlap`: the addresses have a destination in common. -/
def bindOk {β : Type} (overlap : β → β → Bool) (held : List (Holder β)) (h : Holder β) : Bool :=
  held.all fun b => !overlap b.addr h.addr || (b.reuse && h.reuse && b.user == h.user)

/-- An address at which a server tries to listen (/repo/src/brski/http/httplib.h:3234-3303,6640-6648): the result of `socket` and
`fcntl`, whether `SO_REUSEPORT` could be set, which nobody checks (1871), and the result of `listen`. -/
structure Site (β : Type) where
  addr : β
  v6 : Bool
  sock : Option Nat
  cloexec : Bool
  reuse : Bool
  listen : Bool
deriving Repr, DecidableEq

/-- The sites of a server of this user as `create_socket` meets them (/repo/src/brski/http/httplib.h:3234-3303): `bind` follows the rule of the system. -/
def meetSites {β : Type} (overlap : β → β → Bool) (held : List (Holder β)) (user : Nat) (l : List (Site β)) : List (Addr (Binds × β × Bool)) :=
  l.map fun a => ⟨a.v6, a.sock, a.cloexec, ⟨bindOk overlap held ⟨a.addr, a.reuse, user⟩, a.listen⟩, a.addr, a.reuse⟩

/-- `bind_to_port` of a server of this user among these listening sockets, /repo/src/brski/http/httplib.h:6216-6219,6633-6660: the
socket with which it listens. -/
def serve {β : Type} (overlap : β → β → Bool) (held : List (Holder β)) (user : Nat) (l : Option (List (Site β))) : Outcome (Option (Holder β)) := do
  let r ← createSocket true (fun u fd (b : Binds × β × Bool) => listenOn u fd b.1) () (l.map (meetSites overlap held user))
  ok (r.1.map fun p => ⟨p.2.env.2.1, p.2.env.2.2, user⟩)

/-- What a client meets at an address (/repo/src/brski/http/httplib.h:3422-3429): the system connects it to one of the sockets that listen there, and refuses when
there is none. -/
def meetHolders {β : Type} (overlap : β → β → Bool) (held : List (Holder β)) (a : β) : Meets :=
  if held.any fun b => overlap b.addr a then .done else .refused

/-- An address at which a client tries to connect, with the results of `socket` and `fcntl`, /repo/src/brski/http/httplib.h:3258-3268. -/
structure Via (β : Type) where
  addr : β
  v6 : Bool
  sock : Option Nat
  cloexec : Bool
deriving Repr, DecidableEq

/-- `create_client_socket` among these listening sockets, /repo/src/brski/http/httplib.h:3398-3479: the address it is connected to. -/
def reach {β : Type} (overlap : β → β → Bool) (held : List (Holder β)) (limit : Nat) (l : List (Via β)) : Outcome (Option β) := do
  let r ← createSocket false (fun s fd (p : Meets × β) => connectTo limit s fd p.1) (.success, 0)
    (some (l.map fun a => (⟨a.v6, a.sock, a.cloexec, meetHolders overlap held a.addr, a.addr⟩ : Addr (Meets × β))))
  ok (r.1.map fun p => p.2.env.2)

end Brski.Connect
