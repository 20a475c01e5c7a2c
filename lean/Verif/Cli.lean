import Verif.Config
import Verif.Utils

/-!
# The command line (model)

`process_options`, `get_command_id`, `show_help` and the beginning of `main` in /repo/src/brski/brski.cpp.  The C library's
`getopt` (glibc, `POSIXLY_CORRECT` not set) is modelled as a scan over the arguments: the permutation of `argv` is
represented by collecting the operands.  Arguments are C strings, given without their NUL; `argv[0]` exists.  Texts on
standard output are not modelled.
-/

namespace Brski.Cli

open Config DlList

/-- `CommandId`, /repo/src/brski/brski.cpp:35-43. -/
inductive Command where
  | exportPvr | pledgeRequest | verifyMasa | signCert | getSerial | startRegistrar | startMasa
deriving Repr, DecidableEq

/-- `command_list`, /repo/src/brski/brski.cpp:51-65 (without the help texts). -/
def commandList : List (Bytes × Command) :=
  [(str "epvr", .exportPvr), (str "preq", .pledgeRequest), (str "vmasa", .verifyMasa), (str "sign", .signCert),
   (str "serial", .getSerial), (str "registrar", .startRegistrar), (str "masa", .startMasa)]

/-- `get_command_id`, /repo/src/brski/brski.cpp:127-135; `none` is the exception. -/
def getCommandId (label : Bytes) : List (Bytes × Command) → Option Command
  | [] => none
  | e :: es => if e.1 = label then some e.2 else getCommandId label es

/-- GNU `basename` on a buffer: it looks for the last slash up to the NUL (/repo/src/brski/brski.cpp:92). -/
def basename (buf : Bytes) : Outcome Bytes :=
  (Utils.strlen buf).bind fun n => .ok ((buf.take n).reverse.takeWhile (· ≠ 47)).reverse

/-- `show_help`, /repo/src/brski/brski.cpp:86-109: the vector made from the name has no room for a NUL. -/
def showHelp (name : Bytes) : Outcome Unit := (basename name).bind fun _ => .ok ()

/-- The variables that `process_options` sets, /repo/src/brski/brski.cpp:137-141. -/
structure Opts where
  verbose : Bool
  config : Bytes
  inFile : Bytes
  outFile : Bytes
  port : Nat
  address : Bytes
deriving Repr, DecidableEq

/-- Their initial values, /repo/src/brski/brski.cpp:265-268. -/
def noOpts : Opts := ⟨false, [], [], [], 0, []⟩

/-- `isspace` in the C locale, as used by `strtol` (/repo/src/brski/brski.cpp:162). -/
def isSpace (c : UInt8) : Bool := c == 32 || (9 ≤ c && c ≤ 13)

/-- Decimal digits of `strtol` (/repo/src/brski/brski.cpp:162). -/
def isDigit (c : UInt8) : Bool := 48 ≤ c && c ≤ 57

/-- The value of a run of digits (/repo/src/brski/brski.cpp:162). -/
def digitsVal (ds : Bytes) : Nat := ds.foldl (fun n c => 10 * n + (c.toNat - 48)) 0

/-- `strtol(s, NULL, 10)` for a 64 bit `long` (/repo/src/brski/brski.cpp:162). -/
def strtol (s : Bytes) : Int :=
  let s := s.dropWhile isSpace
  let neg := s.head? == some 45
  let s := if s.head? == some 45 || s.head? == some 43 then s.drop 1 else s
  let n : Int := digitsVal (s.takeWhile isDigit)
  if neg then max (-9223372036854775808) (-n) else min 9223372036854775807 n

/-- `*port = strtol(…)` with `unsigned int *port`, /repo/src/brski/brski.cpp:162. -/
def portOf (s : Bytes) : Nat := (strtol s % 4294967296).toNat

/-- The switch over the result of `getopt`, /repo/src/brski/brski.cpp:145-179; `.error` is `std::exit`, with `true` for
success.  `help` is `show_help(argv[0])`. -/
def handle (help : Outcome Unit) (o : Opts) (c : UInt8) (arg : Bytes) : Outcome (Except Bool Opts) :=
  if c = 104 then help.bind fun _ => .ok (.error true)
  else if c = 118 then .ok (.error true)
  else if c = 99 then .ok (.ok { o with config := arg })
  else if c = 105 then .ok (.ok { o with inFile := arg })
  else if c = 111 then .ok (.ok { o with outFile := arg })
  else if c = 112 then .ok (.ok { o with port := portOf arg })
  else if c = 97 then .ok (.ok { o with address := arg })
  else if c = 100 then .ok (.ok { o with verbose := true })
  else if c = 58 then .ok (.error false)
  else if c = 63 then .ok (.error false)
  else help.bind fun _ => .ok (.error false)

/-- `OPT_STRING`, /repo/src/brski/brski.cpp:30. -/
def optString : Bytes := str ":c:i:o:p:a:dvh"

/-- `strchr(optstring, c)` in `getopt`, and whether a colon follows (/repo/src/brski/brski.cpp:144). -/
def findOpt (c : UInt8) : Bytes → Option Bool
  | [] => none
  | x :: r => if x = c then some (r.head? == some 58) else findOpt c r

/-- What `getopt` knows about an option character: `none` is unknown, `some true` takes an argument
(/repo/src/brski/brski.cpp:144). -/
def optKind (c : UInt8) : Option Bool := if c = 58 ∨ c = 59 then none else findOpt c optString

/-- The characters of one option word (`nextchar` of `getopt`).  The result is `.error` for an exit; otherwise the options
and the option that still waits for its argument in the next word (/repo/src/brski/brski.cpp:144-180). -/
def cluster (help : Outcome Unit) : Bytes → Opts → Outcome (Except Bool (Opts × Option UInt8))
  | [], o => .ok (.ok (o, none))
  | c :: cs, o =>
    match optKind c with
    | none => (handle help o 63 []).bind fun r => .ok (r.map fun o => (o, none))
    | some true =>
      if cs = [] then .ok (.ok (o, some c)) else (handle help o c cs).bind fun r => .ok (r.map fun o => (o, none))
    | some false =>
      (handle help o c []).bind fun r =>
        match r with
        | .error e => .ok (.error e)
        | .ok o => cluster help cs o

/-- What is known after the loop: the options, the operands in their order, and `optind` (/repo/src/brski/brski.cpp:144-182). -/
structure Scanned where
  opts : Opts
  operands : List Bytes
  optind : Nat
deriving Repr, DecidableEq

/-- `getopt` takes a word for options when it begins with a dash and is longer than that (/repo/src/brski/brski.cpp:144). -/
def isOption : Bytes → Bool
  | 45 :: _ :: _ => true
  | _ => false

/-- The loop over the arguments, /repo/src/brski/brski.cpp:144-180.  `pend` is an option whose argument is the next word;
`optind` counts the words that were taken for options. -/
def scan (help : Outcome Unit) : Option UInt8 → List Bytes → List Bytes → Nat → Opts → Outcome (Except Bool Scanned)
  | some _, [], _, _, o => (handle help o 58 []).bind fun r => .ok (r.map fun o => ⟨o, [], 0⟩)
  | some c, a :: rest, ops, n, o =>
    (handle help o c a).bind fun r =>
      match r with
      | .error e => .ok (.error e)
      | .ok o => scan help none rest ops (n + 1) o
  | none, [], ops, n, o => .ok (.ok ⟨o, ops, n⟩)
  | none, w :: rest, ops, n, o =>
    if w = [45, 45] then .ok (.ok ⟨o, ops ++ rest, n + 1⟩)
    else if isOption w then
      (cluster help w.tail o).bind fun r =>
        match r with
        | .error e => .ok (.error e)
        | .ok (o, pend) => scan help pend rest ops (n + 1) o
    else scan help none rest (ops ++ [w]) n o

/-- `process_options` either ends the process or returns (/repo/src/brski/brski.cpp:137-202). -/
inductive Parsed where
  | exit (success : Bool)
  | run (o : Opts) (c : Command)
deriving Repr, DecidableEq

/-- `process_options`, /repo/src/brski/brski.cpp:137-202. -/
def processOptions (help : Outcome Unit) (args : List Bytes) : Outcome Parsed :=
  (scan help none args [] 1 noOpts).bind fun r =>
    match r with
    | .error e => .ok (.exit e)
    | .ok s =>
      match s.operands with
      | [] => if s.optind ≤ 1 then help.bind fun _ => .ok (.exit true) else help.bind fun _ => .ok (.exit false)
      | label :: _ =>
        match getCommandId label commandList with
        | some c => .ok (.run s.opts c)
        | none => help.bind fun _ => .ok (.exit false)

/-- The commands for which the address and port of the registrar are overridden, /repo/src/brski/brski.cpp:291-293. -/
def usesRegistrar : Command → Bool
  | .pledgeRequest | .signCert | .startRegistrar => true
  | _ => false

/-- `if (config.rconf.bind_address != NULL) sys_free(…)`, /repo/src/brski/brski.cpp:298-299. -/
def freeOld (m : Mem) : Option Nat → Outcome Mem
  | none => .ok m
  | some p => m.freeData p

/-- The overrides, /repo/src/brski/brski.cpp:291-306; `al` says whether `strdup` succeeds, `false` in the result is
`return EXIT_FAILURE`. -/
def applyOverrides (al : Bool) (o : Opts) (cmd : Command) (m : Mem) (c : Conf) (port : Nat) :
    Outcome (Mem × Conf × Nat × Bool) :=
  if usesRegistrar cmd then
    let port := if o.port ≠ 0 then o.port else port
    if o.address ≠ [] then
      (freeOld m (c (.str .registrar .bindAddress))).bind fun m =>
        if al then
          let r := m.newData (o.address ++ [0])
          .ok (r.1, c.put (.str .registrar .bindAddress) (some r.2), port, true)
        else .ok (m, c.put (.str .registrar .bindAddress) none, port, false)
    else .ok (m, c, port, true)
  else .ok (m, c, port, true)

/-- What `main` has prepared when it comes to the switch over the commands (/repo/src/brski/brski.cpp:311), or the way it ended
before. -/
inductive Prepared where
  | exit (success : Bool) (m : Mem)
  | go (o : Opts) (cmd : Command) (m : Mem) (c : Conf) (port : Nat)

/-- `main` up to the switch, /repo/src/brski/brski.cpp:264-306; on a return the destructor of the configuration releases
its content (/repo/src/brski/brski.cpp:204-206).  `files` gives the parsed configuration files, `port` the port read from
it. -/
def prepare (help : Outcome Unit) (al : Sec → Alloc) (alDup : Bool) (files : Bytes → Option Ini.IniFile) (port : Bytes → Nat)
    (args : List Bytes) (m : Mem) : Outcome Prepared :=
  (processOptions help args).bind fun r =>
    match r with
    | .exit e => .ok (.exit e m)
    | .run o cmd =>
      (if cmd = .getSerial then .ok (m, (fun _ => none), true) else loadConfig al (files o.config) m fun _ => none).bind fun r =>
        if r.2.2 then
          (applyOverrides alDup o cmd r.1 r.2.1 (if cmd = .getSerial then 0 else port o.config)).bind fun q =>
            if q.2.2.2 then .ok (.go o cmd q.1 q.2.1 q.2.2.1)
            else (freeConfig q.1 q.2.1).bind fun z => .ok (.exit false z.1)
        else (freeConfig r.1 r.2.1).bind fun z => .ok (.exit false z.1)

end Brski.Cli
