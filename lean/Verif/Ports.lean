import Verif.Cli

/-!
# Ports (model)

The way of a port number from the configuration file (/repo/src/brski/config.c:167,338) and the command line
(/repo/src/brski/brski.cpp:162,294-295) to the socket layer and to the `Host` field of requests
(/repo/src/brski/http/httplib.h:3225,7157-7159,7629-7636).

`ini_getl` belongs to minIni, which is not part of the repository; its model is on the same footing as Ini.lean.
-/

namespace Brski.Ports

open Cli Config

/-- A digit of a number in base 16, for `strtol(…, 16)` in `ini_getl` (called at /repo/src/brski/config.c:167,338). -/
def hexDigitOf (c : UInt8) : Option Nat :=
  if 48 ≤ c && c ≤ 57 then some (c.toNat - 48)
  else if 97 ≤ c && c ≤ 102 then some (c.toNat - 87)
  else if 65 ≤ c && c ≤ 70 then some (c.toNat - 55)
  else none

/-- The value of the hexadecimal digits at the start (`strtol(…, 16)`, via /repo/src/brski/config.c:167,338). -/
def hexValue : Nat → Bytes → Nat
  | n, [] => n
  | n, c :: cs => match hexDigitOf c with
    | some d => hexValue (16 * n + d) cs
    | none => n

/-- `strtol(s, NULL, 16)`, which allows a prefix `0x` before a digit (via /repo/src/brski/config.c:167,338). -/
def strtol16 (s : Bytes) : Int :=
  let s := s.dropWhile isSpace
  let neg := s.head? == some 45
  let s := if s.head? == some 45 || s.head? == some 43 then s.drop 1 else s
  let s := match s with
    | a :: x :: d :: r => if a == 48 && (x == 120 || x == 88) && (hexDigitOf d).isSome then d :: r else s
    | _ => s
  let n : Int := hexValue 0 s
  if neg then max (-9223372036854775808) (-n) else min 9223372036854775807 n

/-- The buffer of `ini_getl` (`TCHAR LocalBuffer[64]` in minIni, called at /repo/src/brski/config.c:167,338). -/
def getlBuffer : Nat := 64

/-- `ini_getl(section, key, default, file)` of minIni (called at /repo/src/brski/config.c:167,338): base 16 when the
second character is an X. -/
def getl (file : Ini.IniFile) (sec key : Bytes) (dflt : Int) : Int :=
  match Ini.gets file sec key [] getlBuffer with
  | [] => dflt
  | a :: b :: r => if b == 120 || b == 88 then strtol16 (a :: b :: r) else strtol (a :: b :: r)
  | s => strtol s

/-- `(unsigned int)ini_getl("masa" | "registrar", "port", 0, filename)`, /repo/src/brski/config.c:167,338. -/
def filePort (file : Ini.IniFile) (s : Sec) : Nat := (getl file (secName s) (str "port") 0 % 4294967296).toNat

/-- The port of the registrar that `main` finds in the configuration after `load_brski_config`
(/repo/src/brski/brski.cpp:283-295, /repo/src/brski/config.c:338). -/
def loadedPort (files : Bytes → Option Ini.IniFile) (name : Bytes) : Nat :=
  match files name with
  | some f => filePort f .registrar
  | none => 0

/-- The conversion of the `unsigned int port` of the configuration (/repo/src/brski/registrar/registrar_config.h:16,
/repo/src/brski/masa/masa_config.h:19) to `int`, for `listen` (/repo/src/brski/http/httplib_wrapper.cpp:228) and the clients (/repo/src/brski/http/https_client.cpp:22-51). -/
def toInt (port : Nat) : Int := if port < 2147483648 then port else port - 4294967296

/-- `std::to_string(int)` (/repo/src/brski/http/httplib.h:3225,7159). -/
def intDec (i : Int) : Bytes := (if i < 0 then [45] else []) ++ BoolTime.natDec i.natAbs

/-- The service that `create_socket` asks `getaddrinfo` for, by a server (`bind_internal`,
/repo/src/brski/http/httplib.h:6651-6660) or a client (`create_client_socket`), /repo/src/brski/http/httplib.h:3225-3227. -/
def service (port : Nat) : Bytes := intDec (toInt port)

/-- `ClientImpl::adjust_host_string`, /repo/src/brski/http/httplib.h:7843-7849. -/
def adjustHost (host : Bytes) : Bytes := if 58 ∈ host then [91] ++ host ++ [93] else host

/-- The `Host` field of a request of an `SSLClient`, /repo/src/brski/http/httplib.h:7157-7159,7629-7636. -/
def hostField (host : Bytes) (port : Nat) : Bytes :=
  if toInt port = 443 then host else adjustHost host ++ [58] ++ service port

/-- `get_https_address`, /repo/src/brski/http/https_client.cpp:53-55. -/
def httpsAddress (host : Bytes) (port : Nat) : Bytes := str "https://" ++ host ++ [58] ++ service port

end Brski.Ports
