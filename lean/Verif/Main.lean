import Verif.Pledge
import Verif.Cli
import Verif.Names

/-!
# The commands of the program (model)

The switch in `main` and `output_domain_cert` (/repo/src/brski/brski.cpp:205-263,308-525) for the commands of the pledge:
`epvr`, `preq`, `sign`, `vmasa` and `serial`; `cmsbuf_to_file`, `certbuf_to_file`, `keybuf_to_file`
(/repo/src/voucher/crypto_ossl.c:140-230) as far as their effect on the file goes (objects: C80).  The commands that start a
server end the model (C72).

Standard output is a list of bytes; every write to it succeeds.  A file is known by its name, other names for the same file
are left out.  The configuration is in the memory `Mem` of `Config`; what the commands allocate is on the heap of `Pledge`.
The files a command reads do not change while it runs.
-/

namespace Brski.Main
open Outcome DlList Config Cli Crypto Base64 BoolTime Server Pledge

/-- What the commands leave behind outside the process: standard output and the files (/repo/src/brski/brski.cpp:208-263). -/
structure Io where
  out : Bytes
  files : Bytes → Option Bytes

/-- A file gets new content (/repo/src/voucher/crypto_ossl.c:175,204). -/
def Io.put (io : Io) (name content : Bytes) : Io :=
  { io with files := fun n => if n = name then some content else io.files n }

/-- `std::fprintf(stdout, …)`, /repo/src/brski/brski.cpp:208-216. -/
def Io.print (io : Io) (text : Bytes) : Io := { io with out := io.out ++ text }

/-- The system below the commands: whether a file can be opened for writing, what is in the file when it has been closed
after the given bytes were written to the stream (the result of `fclose` and `BIO_free` is not looked at,
/repo/src/voucher/crypto_ossl.c:169,198,227), and the text OpenSSL writes for an object with its return value
(`PEM_write_X509`, `PEM_write_PrivateKey`, `SMIME_write_CMS`, /repo/src/voucher/crypto_ossl.c:161,190,219). -/
structure Sys (O : Ossl) where
  opens : Bytes → Bool
  keeps : Bytes → Bytes → Bytes
  pemCert : O.Cert → Bytes × Bool
  pemKey : O.Key → Bytes × Bool
  smime : O.Cms → Bytes × Bool

variable {O : Ossl}

/-- `certbuf_to_file`, /repo/src/voucher/crypto_ossl.c:174-201: the file is opened, and thereby emptied, first. -/
def certToFile (S : Sys O) (der name : Bytes) (io : Io) : Io × Bool :=
  if S.opens name then
    match O.d2iX509 der with
    | none => (io.put name (S.keeps name []), false)
    | some c => (io.put name (S.keeps name (S.pemCert c).1), (S.pemCert c).2)
  else (io, false)

/-- `keybuf_to_file`, /repo/src/voucher/crypto_ossl.c:203-230. -/
def keyToFile (S : Sys O) (der name : Bytes) (io : Io) : Io × Bool :=
  if S.opens name then
    match O.d2iKey der with
    | none => (io.put name (S.keeps name []), false)
    | some k => (io.put name (S.keeps name (S.pemKey k).1), (S.pemKey k).2)
  else (io, false)

/-- `cmsbuf_to_file`, /repo/src/voucher/crypto_ossl.c:140-172: here the conversion comes first. -/
def cmsToFile (S : Sys O) (der name : Bytes) (io : Io) : Io × Bool :=
  match O.d2iCms der with
  | none => (io, false)
  | some c =>
    if S.opens name then (io.put name (S.keeps name (S.smime c).1), (S.smime c).2) else (io, false)

/-- `snprintf(outf, 255, "%s.crt", out_filename.c_str())`, /repo/src/brski/brski.cpp:254,337,392,397: what does not fit is cut
off. -/
def outName (o ext : Bytes) : Bytes := (cstr o ++ ext).take 254

/-- `print_cert(text, 0)`, /repo/src/brski/brski.cpp:208-216: the text and a line feed. -/
def printText (buf : Bytes) (io : Io) : Io := io.print (cstr buf ++ [10])

/-- `output_domain_cert`, /repo/src/brski/brski.cpp:239-262. -/
def outputDomainCert (S : Sys O) (al : Allocator) (cert o : Bytes) (io : Io) : Outcome (Io × Bool) :=
  if o = [] then
    (array2base64str al cert).bind fun s =>
    match s with
    | none => .ok (io, false)
    | some (buf, _) => .ok (printText buf io, true)
  else .ok (certToFile S cert (outName o (str ".crt")) io)

/-- How a command ended: whether the exit status is `EXIT_SUCCESS`, its effects, the messages sent and the heap. -/
structure Ended where
  ok : Bool
  io : Io
  sent : List Msg
  heap : Heap

/-- The end of `preq` and of `vmasa`, /repo/src/brski/brski.cpp:361-367,452-459: the certificate is put out and then released
with the blocks `ps`; on a failure nothing is released. -/
def putOut (S : Sys O) (al : Allocator) (o : Bytes) (io : Io) (sent : List Msg) (p : Nat) (ps : List (Option Nat)) (h : Heap) :
    Outcome Ended :=
  (h.read p).bind fun pin =>
  (outputDomainCert S al pin o io).bind fun r =>
  if r.2 then (freeAll h (ps ++ [some p])).bind fun h => .ok ⟨true, r.1, sent, h⟩
  else .ok ⟨false, r.1, sent, h⟩

/-- `COMMAND_PLEDGE_REQUEST`, /repo/src/brski/brski.cpp:348-367. -/
def preq (S : Sys O) (e : PledgeEnv) (net : Net) (al : Allocator) (o : Bytes) (io : Io) (h : Heap) : Outcome Ended :=
  (postVoucher O e net h).bind fun r =>
  match r.pinned with
  | none => .ok ⟨false, io, r.sent, r.heap⟩
  | some p => putOut S al o io r.sent p [] r.heap

/-- `COMMAND_SIGN_CERT`, /repo/src/brski/brski.cpp:369-408: `alC` and `alK` are the allocators of the two encoders. -/
def sign (S : Sys O) (e : PledgeEnv) (g : Gen) (net : Net) (alC alK : Allocator) (o : Bytes) (io : Io) (h : Heap) :
    Outcome Ended :=
  (postSignCert O e g net h).bind fun r =>
  match r.out with
  | none => .ok ⟨false, io, r.sent, r.heap⟩
  | some (c, k) =>
    (r.heap.read c).bind fun cert =>
    (r.heap.read k).bind fun key =>
    if o = [] then
      (array2base64str alC cert).bind fun s =>
      match s with
      | none => .ok ⟨false, io, r.sent, r.heap⟩
      | some (buf, _) =>
        let io := printText buf io
        (array2base64str alK key).bind fun s =>
        match s with
        | none => .ok ⟨false, io, r.sent, r.heap⟩
        | some (buf, _) =>
          (freeAll r.heap [some c, some k]).bind fun h => .ok ⟨true, printText buf io, r.sent, h⟩
    else
      let x := certToFile S cert (outName o (str ".crt")) io
      if x.2 then
        let y := keyToFile S key (outName o (str ".key")) x.1
        if y.2 then (freeAll r.heap [some c, some k]).bind fun h => .ok ⟨true, y.1, r.sent, h⟩
        else .ok ⟨false, y.1, r.sent, r.heap⟩
      else .ok ⟨false, x.1, r.sent, r.heap⟩

/-- `voucher_pledge_request_to_smimefile`, /repo/src/brski/pledge/pledge_utils.c:113-134. -/
def requestFile (S : Sys O) (e : PledgeEnv) (reg name : Bytes) (io : Io) (h : Heap) : Outcome (Heap × Io × Bool) :=
  (requestArray O e reg h).bind fun a =>
  match a.2 with
  | none => .ok (a.1, io, false)
  | some p =>
    (a.1.read p).bind fun cms =>
    let x := cmsToFile S cms name io
    (freeAll a.1 [some p]).bind fun h => .ok (h, x.1, x.2)

/-- `COMMAND_EXPORT_PVR`, /repo/src/brski/brski.cpp:314-347; `tls` is what `file_to_x509buf` finds. -/
def exportPvr (S : Sys O) (e : PledgeEnv) (tls : FileRes) (o : Bytes) (io : Io) (h : Heap) : Outcome Ended :=
  (readFile h tls).bind fun f =>
  match f.2 with
  | none => .ok ⟨false, io, [], f.1⟩
  | some t =>
    (f.1.read t).bind fun reg =>
    if o = [] then
      (requestText O e reg f.1).bind fun q =>
      match q.2 with
      | none => (freeAll q.1 [some t]).bind fun h => .ok ⟨false, io, [], h⟩
      | some p =>
        (q.1.read p).bind fun text =>
        (freeAll q.1 [some p, some t]).bind fun h => .ok ⟨true, printText text io, [], h⟩
    else
      (requestFile S e reg (outName o (str ".smime")) io f.1).bind fun q =>
      if q.2.2 then (freeAll q.1 [some t]).bind fun h => .ok ⟨true, q.2.1, [], h⟩
      else .ok ⟨false, q.2.1, [], q.1⟩

/-- `serialize_base64str2array((const uint8_t *)inbuf, sz, …)`, /repo/src/brski/brski.cpp:431-433: like `decodeBody`, but for
all `sz` bytes. -/
def decodeInput (al : Allocator) (blk : Bytes) (h : Heap) (text : Bytes) : Outcome Body :=
  (base64str2array al blk text).bind fun r =>
  match r with
  | (some n, .owned b) => .ok ⟨(h.alloc b).1, some n, some (h.alloc b).2, b⟩
  | (none, .null) => .ok ⟨h, none, none, []⟩
  | (none, .dangling) => .ok ⟨(burn h).1, none, some (burn h).2, []⟩
  | _ => .ub

/-- `COMMAND_VERIFY_MASA`, /repo/src/brski/brski.cpp:409-460: `reg` is what `file_to_x509buf` finds under the name `inFile`, `inbuf`
the uninitialised buffer, `input` standard input.  The test for a decoding failure at 431-436 compares a `size_t` with 0 and
never succeeds; the decoded voucher is never released. -/
def vmasa (S : Sys O) (e : PledgeEnv) (inFile : Bytes) (reg : FileRes) (inbuf input : Bytes) (al : Allocator) (o : Bytes) (io : Io)
    (h : Heap) : Outcome Ended :=
  if inFile = [] then .ok ⟨false, io, [], h⟩
  else
    (Utils.readStdin input 0 inbuf).bind fun r =>
    match r.2 with
    | none => .ok ⟨false, io, [], h⟩
    | some sz =>
      (wr r.1 sz 0).bind fun buf =>
      (decodeInput e.masaAl e.blk h (buf.take sz)).bind fun m =>
      (readFile m.heap reg).bind fun f =>
      match f.2 with
      | none => .ok ⟨false, io, [], f.1⟩
      | some t =>
        (f.1.read t).bind fun cert =>
        (verifyRequest O e m.arr cert f.1).bind fun v =>
        match v.2 with
        | none => .ok ⟨false, io, [], v.1⟩
        | some p => putOut S al o io [] p [some t] v.1

/-- `COMMAND_GET_SERIAL`, /repo/src/brski/brski.cpp:461-503: `cert` is what `file_to_x509buf` finds, `names` OpenSSL's view of it.
The lists are those of `peerSerial`; they stay allocated when the command fails, which is not followed. -/
def getSerial (names : O.Cert → Names.Cert) (alI alS : Nat → Oracle) (inFile : Bytes) (cert : FileRes) (m : Mem) (io : Io) (h : Heap) :
    Outcome Ended :=
  if inFile = [] then .ok ⟨false, io, [], h⟩
  else
    (readFile h cert).bind fun f =>
    match f.2 with
    | none => .ok ⟨false, io, [], f.1⟩
    | some t =>
      (f.1.read t).bind fun der =>
      match O.d2iX509 der with
      | none => .ok ⟨false, io, [], f.1⟩
      | some c =>
        (Names.peerSerial alI alS m (some (names c))).bind fun r =>
        match r.2 with
        | none => .ok ⟨false, io, [], f.1⟩
        | some s => (freeAll f.1 [some t]).bind fun h => .ok ⟨true, io.print (cstr s), [], h⟩

/-! ## `main` -/

/-- A string of the configuration, `none` for NULL (/repo/src/brski/pledge/pledge_config.h:16-28). -/
def strOf (m : Mem) : Option Nat → Outcome (Option Bytes)
  | none => .ok none
  | some p => match m.dat p with
    | none => .ub
    | some b => .ok (some (cstr b))

/-- What is found under a configured path (/repo/src/voucher/crypto_ossl.c:286-360). -/
def fileAt (files : Bytes → Option Bytes) : Option Bytes → FileRes
  | none => .unset
  | some path => match files path with
    | none => .bad
    | some der => .der der

/-- `load_cert_files` (/repo/src/brski/config.c:673-710) on a list of the configuration; the list made is kept by value here. -/
def listOf (al0 : Bool) (al : Nat → Oracle) (files : Bytes → Option Bytes) (m : Mem) (paths : Option Nat) : Outcome Loaded :=
  (loadCertFiles al0 al (fun _ => files) m paths).bind fun r =>
  match r.2.2, r.2.1 with
  | true, none => .ok .absent
  | true, some l => (contents r.1 l).bind fun els => .ok (.list (els.map fun el => (el.1.flatten, el.2.2)))
  | false, none => .ok .noMem
  | false, some _ => .ok .freed

/-- Everything `main` depends on beside its arguments: the configuration files with the port in them and the allocations while they
are read, the certificate and key files, the system, the network behind an address and port, the key generator, standard
input with the buffer for it, the allocations of the commands (`rt`: those of the client functions; its configured members
are not used), and OpenSSL's view of names (/repo/src/brski/brski.cpp:264-526). -/
structure World (O : Ossl) where
  help : Outcome Unit
  conf : Sec → Alloc
  dup : Bool
  ini : Bytes → Option Ini.IniFile
  port : Bytes → Nat
  certs : Bytes → Option Bytes
  keys : Bytes → Option Bytes
  sys : Sys O
  net : Bytes → Nat → Net
  gen : Gen
  inbuf : Bytes
  input : Bytes
  rt : PledgeEnv
  listMem : LField → Bool
  listAl : LField → Nat → Oracle
  outAl : Nat → Allocator
  names : O.Cert → Names.Cert
  nameAl : Bool → Nat → Oracle

/-- The configuration as the client functions see it (/repo/src/brski/pledge/pledge_utils.c:22-111,
/repo/src/brski/pledge/pledge_request.cpp:35-90,92-120). -/
def envOf (W : World O) (m : Mem) (c : Conf) : Outcome PledgeEnv :=
  (strOf m (c (.str .registrar .bindAddress))).bind fun address =>
  (strOf m (c (.str .pledge .idevidKey))).bind fun keyPath =>
  (strOf m (c (.str .pledge .idevidCert))).bind fun certPath =>
  (strOf m (c (.str .pledge .createdOn))).bind fun createdOn =>
  (strOf m (c (.str .pledge .nonce))).bind fun nonce =>
  (strOf m (c (.str .pledge .serialNumber))).bind fun serial =>
  (strOf m (c (.str .pledge .cmsSignCert))).bind fun signCert =>
  (strOf m (c (.str .pledge .cmsSignKey))).bind fun signKey =>
  (listOf (W.listMem .add) (W.listAl .add) W.certs m (c (.list .pledge .add))).bind fun additional =>
  (listOf (W.listMem .verifyCerts) (W.listAl .verifyCerts) W.certs m (c (.list .pledge .verifyCerts))).bind fun verifyCerts =>
  (listOf (W.listMem .verifyStore) (W.listAl .verifyStore) W.certs m (c (.list .pledge .verifyStore))).bind fun verifyStore =>
  .ok { W.rt with
    address := address, keyPath := keyPath, certPath := certPath, createdOn := createdOn, nonce := nonce, serial := serial,
    signCert := fileAt W.certs signCert, signKey := fileAt W.keys signKey, additional := additional,
    verifyCerts := verifyCerts, verifyStore := verifyStore }

/-- How the process ends: before a command, after a command of the pledge, or with a server (/repo/src/brski/brski.cpp:264-526). -/
inductive Done where
  | early (ok : Bool)
  | ran (cmd : Command) (r : Ended)
  | serves (cmd : Command)

/-- The switch over the commands, /repo/src/brski/brski.cpp:312-523. -/
def command (W : World O) (o : Opts) (cmd : Command) (m : Mem) (c : Conf) (port : Nat) (io : Io) (h : Heap) : Outcome Done :=
  match cmd with
  | .exportPvr =>
    (envOf W m c).bind fun e =>
    (strOf m (c (.str .registrar .tlsCert))).bind fun path =>
    (exportPvr W.sys e (fileAt W.certs path) o.outFile io h).bind fun r => .ok (.ran cmd r)
  | .pledgeRequest =>
    (envOf W m c).bind fun e =>
    (preq W.sys e (W.net (e.address.getD []) port) (W.outAl 0) o.outFile io h).bind fun r => .ok (.ran cmd r)
  | .signCert =>
    (envOf W m c).bind fun e =>
    (sign W.sys e W.gen (W.net (e.address.getD []) port) (W.outAl 0) (W.outAl 1) o.outFile io h).bind fun r => .ok (.ran cmd r)
  | .verifyMasa =>
    (envOf W m c).bind fun e =>
    (vmasa W.sys e o.inFile (fileAt W.certs (some o.inFile)) W.inbuf W.input (W.outAl 0) o.outFile io h).bind fun r =>
    .ok (.ran cmd r)
  | .getSerial =>
    (getSerial W.names (W.nameAl false) (W.nameAl true) o.inFile (fileAt W.certs (some o.inFile)) m io h).bind fun r =>
    .ok (.ran cmd r)
  | .startRegistrar | .startMasa => .ok (.serves cmd)

/-- `main`, /repo/src/brski/brski.cpp:264-526; at the end the destructor releases the configuration
(/repo/src/brski/brski.cpp:204-206). -/
def main (W : World O) (args : List Bytes) (m : Mem) (io : Io) (h : Heap) : Outcome Done :=
  (prepare W.help W.conf W.dup W.ini W.port args m).bind fun p =>
  match p with
  | .exit s _ => .ok (.early s)
  | .go o cmd m c port =>
    (command W o cmd m c port io h).bind fun d =>
    (freeConfig m c).bind fun _ => .ok d

end Brski.Main
