import Verif.Names
import Verif.Utils

/-!
# The contents of certificates (model)

`set_certificate_meta`, `crypto_generate_eccert`, `crypto_generate_rsacert`, `crypto_sign_cert`
(/repo/src/voucher/crypto_ossl.c:793-1186), `crypto_getrand` (1696-1714), `gen_rand64` and `generate_sign_cert`
(/repo/src/brski/pledge/pledge_request.cpp:212-297), as far as the certificates they make are concerned.  The objects are
those of `Res` (C80); here a certificate is what it contains.

A call into OpenSSL that can fail for reasons of its own (memory) does so as `ok` says.  Signature algorithm, key
identifiers and the details of encodings are left out.
-/

namespace Brski.X509
open Outcome Names BoolTime

/-- The signed part of an `X509` object (/repo/src/voucher/crypto_ossl.c:856-960); the version is the number stored, 2 for
`X509_VERSION_3`.  Times are seconds since 1970.  Extensions are pairs of object and value. -/
structure Tbs (Pub : Type) where
  version : Nat
  serial : Int
  notBefore : Int
  notAfter : Int
  issuer : List Entry
  subject : List Entry
  exts : List (Nat × Bytes)
  pub : Option Pub
deriving DecidableEq

/-- An `X509` object with its signature (/repo/src/voucher/crypto_ossl.c:962-976). -/
structure Cert (Pub Sig : Type) where
  tbs : Tbs Pub
  sig : Option Sig
deriving DecidableEq

/-- OpenSSL below these functions: keys, `X509_sign`, `X509_verify`, `OBJ_txt2obj`, the restrictions of the string table on a
value, `ASN1_TIME_set_string` with `ASN1_TIME_normalize`, `X509V3_EXT_conf_nid` for basic constraints, and the encodings
(/repo/src/voucher/crypto_ossl.c:555-600,822-976). -/
structure Lib where
  Key : Type
  Pub : Type
  Sig : Type
  pub : Key → Pub
  sign : Key → Tbs Pub → Option Sig
  verify : Pub → Tbs Pub → Sig → Bool
  object : Bytes → Option Nat
  fits : Nat → Bytes → Bool
  time : Bytes → Option Int
  constraints : Bytes → Option Bytes
  ecKey : Bytes → Option Key
  rsaKey : Bytes → Option Key
  anyKey : Bytes → Option Key
  i2d : Cert Pub Sig → Option Bytes
  d2i : Bytes → Option (Cert Pub Sig)

/-- The calls that can fail for reasons of their own (/repo/src/voucher/crypto_ossl.c:793-1104); `entry b i` adds the `i`th entry
of the issuer (`b` false) or the subject. -/
inductive Step where
  | newCert | version | newInt | setInt | setSerial | before | newTime | setAfter | after
  | newName (b : Bool) | entry (b : Bool) (i : Nat) | setName (b : Bool) | addExt | setPub
deriving DecidableEq

/-- `struct crypto_cert_meta`, /repo/src/voucher/crypto.h:25-68; the lists with their keys and values, `none` is NULL. -/
structure Meta where
  serial : Nat
  notBefore : Int
  notAfter : Int
  absolute : Option Bytes
  issuer : Option (List (Option Bytes × Option Bytes))
  subject : Option (List (Option Bytes × Option Bytes))
  constraints : Option Bytes

variable (L : Lib)

/-- The fresh object of `X509_new`, /repo/src/voucher/crypto_ossl.c:997. -/
def empty : Cert L.Pub L.Sig := ⟨⟨0, 0, 0, 0, [], [], [], none⟩, none⟩

/-- The UTF-8 text of a character given by its number below 256: `MBSTRING_ASC` makes one character of each byte
(/repo/src/voucher/crypto_ossl.c:843). -/
def latin (b : UInt8) : Bytes := if b < 128 then [b] else [(192 : UInt8) ||| (b >>> 6), (128 : UInt8) ||| (b &&& 63)]

/-- The text `ASN1_STRING_to_UTF8` gives for a value set with `MBSTRING_ASC` (/repo/src/voucher/crypto_ossl.c:656-662,843). -/
def latinText (v : Bytes) : Bytes := v.flatMap latin

/-- `X509_NAME_add_entry_by_txt(name, key, MBSTRING_ASC, value, -1, -1, 0)`, /repo/src/voucher/crypto_ossl.c:843-844: the
entry is appended. -/
def addEntry (ok : Bool) (name : List Entry) (key value : Bytes) : Option (List Entry) :=
  match L.object key with
  | none => none
  | some nid => if ok && L.fits nid value then some (name ++ [⟨nid, some (latinText value)⟩]) else none

/-- The loop of `add_x509name_keyvalues`, /repo/src/voucher/crypto_ossl.c:830-851. -/
def addPairs (ok : Nat → Bool) : Nat → List (Option Bytes × Option Bytes) → List Entry → Option (List Entry)
  | _, [], name => some name
  | i, (some k, some v) :: ps, name =>
    match addEntry L (ok i) name (cstr k) (cstr v) with
    | none => none
    | some name => addPairs ok (i + 1) ps name
  | _, _ :: _, _ => none

/-- `set_certificate_serialnumber`, /repo/src/voucher/crypto_ossl.c:793-820. -/
def setSerial (ok : Step → Bool) (n : Nat) (t : Tbs L.Pub) : Option (Tbs L.Pub) :=
  if ok .newInt && ok .setInt && ok .setSerial then some { t with serial := n } else none

/-- The end of the validity in `set_certificate_meta`, /repo/src/voucher/crypto_ossl.c:876-908; `now` is the clock at the call of
`X509_gmtime_adj`. -/
def setAfter (ok : Step → Bool) (now : Int) (m : Meta) (t : Tbs L.Pub) : Option (Tbs L.Pub) :=
  match m.absolute with
  | some a =>
    if m.notAfter ≠ 0 then none
    else if ok .newTime then
      match L.time (cstr a) with
      | none => none
      | some e => if ok .setAfter then some { t with notAfter := e } else none
    else none
  | none => if ok .after then some { t with notAfter := now + m.notAfter } else none

/-- A name in `set_certificate_meta`, /repo/src/voucher/crypto_ossl.c:910-924,926-940: `none` when it fails. -/
def makeName (ok : Step → Bool) (b : Bool) (pairs : List (Option Bytes × Option Bytes)) : Option (List Entry) :=
  if ok (.newName b) then
    match addPairs L (fun i => ok (.entry b i)) 0 pairs [] with
    | none => none
    | some n => if ok (.setName b) then some n else none
  else none

/-- The number of the extension, `NID_basic_constraints` of OpenSSL's obj_mac.h (/repo/src/voucher/crypto_ossl.c:943). -/
def basicConstraints : Nat := 87

/-- The extension in `set_certificate_meta`, /repo/src/voucher/crypto_ossl.c:942-957. -/
def setExt (ok : Step → Bool) (m : Meta) (t : Tbs L.Pub) : Option (Tbs L.Pub) :=
  match m.constraints with
  | none => some t
  | some c =>
    match L.constraints (cstr c) with
    | none => none
    | some e => if ok .addExt then some { t with exts := t.exts ++ [(basicConstraints, e)] } else none

/-- `set_certificate_meta`, /repo/src/voucher/crypto_ossl.c:856-960; `now k` is the clock at the `k`th call of
`X509_gmtime_adj`. -/
def setMeta (ok : Step → Bool) (now : Nat → Int) (m : Meta) (t : Tbs L.Pub) : Option (Tbs L.Pub) :=
  if ok .version then
    (setSerial L ok m.serial { t with version := 2 }).bind fun t =>
    if ok .before then
      (setAfter L ok (now 1) m { t with notBefore := now 0 + m.notBefore }).bind fun t =>
      (match m.issuer with
        | none => some t
        | some ps => (makeName L ok false ps).map fun n => { t with issuer := n }).bind fun t =>
      (match m.subject with
        | none => some t
        | some ps => (makeName L ok true ps).map fun n => { t with subject := n }).bind fun t =>
      setExt L ok m t
    else none
  else none

/-- `sign_sha256_certificate`, /repo/src/voucher/crypto_ossl.c:962-976. -/
def signSha (x : Cert L.Pub L.Sig) (k : L.Key) : Option (Cert L.Pub L.Sig) :=
  match L.sign k x.tbs with
  | none => none
  | some s => if L.verify (L.pub k) x.tbs s then some { x with sig := some s } else none

/-- `crypto_generate_eccert` and `crypto_generate_rsacert`, /repo/src/voucher/crypto_ossl.c:978-1104, with the reader of keys
of each (`crypto_eckey2context`, `crypto_rsakey2context`, 555-578); `none` is a negative length. -/
def genCert (read : Bytes → Option L.Key) (ok : Step → Bool) (now : Nat → Int) (m : Meta) (key : Bytes) : Option Bytes :=
  if ok .newCert then
    (setMeta L ok now m (empty L).tbs).bind fun t =>
    (read key).bind fun k =>
    if ok .setPub then
      (signSha L ⟨{ t with pub := some (L.pub k) }, none⟩ k).bind L.i2d
    else none
  else none

/-- `crypto_sign_cert`, /repo/src/voucher/crypto_ossl.c:1106-1186, for arguments that are not NULL; `ok` says whether
`X509_set_issuer_name` works. -/
def signCert (ok : Bool) (key ca cert : Bytes) : Option Bytes :=
  (L.anyKey key).bind fun k =>
  (L.d2i ca).bind fun c =>
  (L.d2i cert).bind fun x =>
  if ok then (signSha L { x with tbs := { x.tbs with issuer := c.tbs.subject } } k).bind L.i2d else none

/-! ## Random numbers -/

/-- `crypto_getrand`, /repo/src/voucher/crypto_ossl.c:1696-1714: the buffer afterwards and whether 0 is returned.  The length
is converted to `int`; `RAND_bytes` refuses negative numbers.  `rng n` are `n` random bytes, `none` when there are none. -/
def getRand (rng : Nat → Option Bytes) (buf : Bytes) : Bytes × Bool :=
  if buf.length = 0 then (buf, false)
  else
    let n := buf.length % 4294967296
    if n < 2147483648 then
      match rng n with
      | none => (buf, false)
      | some r => (r.take n ++ buf.drop n, true)
    else (buf, false)

/-- `gen_rand64`, /repo/src/brski/pledge/pledge_request.cpp:212-221: `rnd seed k` is the `k`th result of `rand` after
`srand(seed)`, a number below `RAND_MAX + 1 = 2^31`; the seed is the time in seconds. -/
def genRand64 (rnd : Nat → Nat → Nat) (time : Nat) : Nat :=
  (List.range 5).foldl (fun v k => (v * 2147483648 + rnd (time % 4294967296) k) % 18446744073709551616) 0

/-! ## `generate_sign_cert` -/

/-- The metadata of `generate_sign_cert`, /repo/src/brski/pledge/pledge_request.cpp:229-236,245-270. -/
def pledgeMeta (number : Nat) (name : Bytes) : Meta where
  serial := number
  notBefore := 0
  notAfter := 0
  absolute := some (str "99991231235959Z")
  issuer := some []
  subject := some [(some (str "C"), some (str "IE")), (some (str "CN"), some (str "ldevid-cert")), (some (str "serialNumber"), some name)]
  constraints := some (str "CA:false")

/-- What `generate_sign_cert` depends on (/repo/src/brski/pledge/pledge_request.cpp:224-297): clock and generators, the
uninitialised text buffer, the allocations for lists (0-4), the generated key (`none`: -1) and the calls of
`crypto_generate_eccert`. -/
structure GenEnv where
  rnd : Nat → Nat → Nat
  time : Nat
  rng : Nat → Option Bytes
  rands : Bytes
  mem : Nat → Bool
  key : Option Bytes
  ok : Step → Bool
  now : Nat → Int

/-- `generate_sign_cert`, /repo/src/brski/pledge/pledge_request.cpp:224-297: `none` is -1, otherwise key and certificate, each `none`
when its length is -1 (which is not noticed there). -/
def generate (e : GenEnv) : Outcome (Option (Option Bytes × Option Bytes)) :=
  let r := getRand e.rng (List.replicate 8 0)
  if r.2 then
    (Utils.printfHex (some e.rands) 16 (some r.1) true).bind fun t =>
    match t.1 with
    | none => .ub
    | some t =>
      if e.mem 0 && e.mem 1 && e.mem 2 && e.mem 3 && e.mem 4 then
        .ok (some (e.key, e.key.bind fun k => genCert L L.ecKey e.ok e.now (pledgeMeta (genRand64 e.rnd e.time) (cstr t)) k))
      else .ok none
  else .ok none

end Brski.X509
