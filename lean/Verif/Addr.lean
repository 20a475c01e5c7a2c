import Verif.Ports
import Verif.Wire

/-!
# The fields the server adds to a request (model)

`Server::process_request` adds the addresses of both ends of the connection to the fields of a request
(/repo/src/brski/http/httplib.h:7038-7044), between those of the header and those of the trailer.  `Wire`, `Conn` and `Cut` leave them
out; that this changes nothing for the other fields is `C146_others`.
-/

namespace Brski.Addr
open Routes Wire

/-- The family of an address with its port, which for sockets of the file system is the process (`SO_PEERCRED`), if known
(/repo/src/brski/http/httplib.h:3484-3492,3522-3537). -/
inductive Family where
  | inet (port : Nat)
  | inet6 (port : Nat)
  | unix (pid : Option Int)
  | other
deriving Repr, DecidableEq

/-- An address with its numeric name; `none`: `getnameinfo` fails (/repo/src/brski/http/httplib.h:3494-3499). -/
structure Address where
  family : Family
  name : Option Bytes
deriving Repr, DecidableEq

/-- `get_ip_and_port`, /repo/src/brski/http/httplib.h:3484-3504: the two variables afterwards.  The port is set before the name is
asked for. -/
def ipAndPort (a : Address) (v : Bytes × Int) : Bytes × Int :=
  match a.family with
  | .inet p | .inet6 p =>
    match a.name with
    | some n => (n, p)
    | none => (v.1, p)
  | _ => v

/-- `get_local_ip_and_port`, /repo/src/brski/http/httplib.h:3506-3513; `none`: `getsockname` fails. -/
def localOf (a : Option Address) (v : Bytes × Int) : Bytes × Int :=
  match a with
  | some a => ipAndPort a v
  | none => v

/-- `get_remote_ip_and_port`, /repo/src/brski/http/httplib.h:3515-3541; `none`: `getpeername` fails. -/
def remoteOf (a : Option Address) (v : Bytes × Int) : Bytes × Int :=
  match a with
  | some a =>
    match a.family with
    | .unix (some pid) => (v.1, pid)
    | .unix none => v
    | _ => ipAndPort a v
  | none => v

/-- The variables of a new request, /repo/src/brski/http/httplib.h:543-546. -/
def unknown : Bytes × Int := ([], -1)

/-- The fields after the addresses were added, /repo/src/brski/http/httplib.h:7038-7044. -/
def withAddresses (remote here : Option Address) (hs : List Field) : List Field :=
  let r := remoteOf remote unknown
  let hs := addField hs (str "REMOTE_ADDR") r.1
  let hs := addField hs (str "REMOTE_PORT") (Ports.intDec r.2)
  let l := localOf here unknown
  let hs := addField hs (str "LOCAL_ADDR") l.1
  addField hs (str "LOCAL_PORT") (Ports.intDec l.2)

/-- The fields of a request with these lines in its header and in its trailer, /repo/src/brski/http/httplib.h:4018-4064,4173-4197,
7021-7044. -/
def fieldsOf (remote here : Option Address) (ls more : List Bytes) : List Field :=
  (more.filterMap parseHeader).foldl emplace (withAddresses remote here (readHeaders ls))

/-- What a handler is given, /repo/src/brski/http/httplib_wrapper.cpp:25-35,67-73. -/
def given (remote here : Option Address) (ls more : List Bytes) : List Field := getRequestHeader (fieldsOf remote here ls more)

end Brski.Addr
