import Verif.Voucher
import Verif.Jsmn

/-!
# Voucher JSON text (model)

Serialisation (/repo/src/voucher/serialize.c:21-109,380-397,
/repo/src/voucher/voucher.c:520-688) and deserialisation
(/repo/src/voucher/voucher.c:690-873) of vouchers.
-/

namespace Brski.VoucherJson

open Brski.Voucher BoolTime Jsmn

/-- Allocation behaviour and C library variant during a call.  Every allocation site of a
call has its own index, hence `mem` describes every possible pattern of failures; `blk` is the
uninitialised local array of the base64 decoder (/repo/src/voucher/serialize.c:178).
Environment of /repo/src/voucher/voucher.c. -/
structure Env where
  lib : TimeLib
  mem : Nat → Allocator
  blk : Bytes
  blk_len : blk.length = 4

/-- An environment without memory exhaustion, for concrete instances
(/repo/src/utils/os.h:75). -/
def Env.plain : Env := ⟨TimeLib.plain, fun _ => zeroAllocator, [0, 0, 0, 0], rfl⟩

/-! ## The JSON joiner on buffers -/

/-- `strcpy`-like write of the bytes `s` at offset `i`, every byte bounds-checked
(`sprintf`, `strcat` at /repo/src/voucher/serialize.c:40,67,90,106). -/
def wrAll (buf : Bytes) (i : Nat) : Bytes → Outcome Bytes
  | [] => .ok buf
  | c :: s => (wr buf i c).bind fun b => wrAll b (i + 1) s

/-- `strcat(buf, s)`: append after the first NUL of the buffer, including the terminator.  A
buffer without NUL makes it undefined (/repo/src/voucher/serialize.c:67,90,106). -/
def strcat (buf s : Bytes) : Outcome Bytes :=
  if (0 : UInt8) ∈ buf then wrAll buf (buf.takeWhile (· ≠ 0)).length (s ++ [0]) else .ub

/-- `sys_realloc_array(p, 1, n)`, /repo/src/utils/os.c:32-37: new block keeping the old
content, the rest uninitialised. -/
def realloc (al : Allocator) (buf : Bytes) (n : Nat) : Option Bytes :=
  match al.malloc n with
  | none => none
  | some b => some (buf.take n ++ b.drop (min n buf.length))

/-- `concatenate_keyvalue`, /repo/src/voucher/serialize.c:21-46, on C strings. -/
def concatenateKeyvalue (al : Allocator) (key value : Bytes) (separator : Bool) :
    Outcome (Option Bytes) :=
  let length := key.length + value.length + 2 + (if separator then 1 else 0)
  match al.malloc length with
  | none => .ok none
  | some buf =>
    (wrAll buf 0 (key ++ [58] ++ value ++ (if separator then [44] else []) ++ [0])).bind fun b =>
    .ok (some b)

/-- Bytes of the C string in a buffer (`strlen` and reads at
/repo/src/voucher/serialize.c:80,90).  A buffer without NUL makes it undefined. -/
def cstring (buf : Bytes) : Outcome Bytes :=
  if (0 : UInt8) ∈ buf then .ok (buf.takeWhile (· ≠ 0)) else .ub

/-- The loop of `serialize_keyvalue2json`, /repo/src/voucher/serialize.c:72-95.  `n` is the
number of remaining elements, `json`/`length` the local variables. -/
def kvLoop (mem : Nat → Allocator) (k : Nat) : List (Bytes × Bytes) → Bytes → Nat →
    Outcome (Option (Bytes × Nat))
  | [], json, length => .ok (some (json, length))
  | (key, value) :: rest, json, length =>
    (concatenateKeyvalue (mem k) key value (!rest.isEmpty)).bind fun concat =>
    match concat with
    | none => .ok none
    | some concat =>
      (cstring concat).bind fun s =>
      let length := length + s.length
      match realloc (mem (k + 1)) json length with
      | none => .ok none
      | some tmp =>
        (strcat tmp s).bind fun json => kvLoop mem (k + 2) rest json length

/-- `serialize_keyvalue2json`, /repo/src/voucher/serialize.c:48-109, on the list of key and
value C strings; the result is the whole allocated block, `none` is NULL. -/
def keyvalue2json (mem : Nat → Allocator) (kvs : List (Bytes × Bytes)) : Outcome (Option Bytes) :=
  if kvs.length = 0 then .ok none
  else match (mem 0).malloc 2 with
    | none => .ok none
    | some b =>
      (strcat (b.map fun _ => 0) (str "{")).bind fun json =>
      (kvLoop mem 1 kvs json 2).bind fun r =>
      match r with
      | none => .ok none
      | some (json, length) =>
        match realloc (mem (2 * kvs.length + 1)) json (length + 1) with
        | none => .ok none
        | some tmp => (strcat tmp (str "}")).bind fun json => .ok (some json)

/-! ## Serialisation -/

/-- `serialize_escapestr`, /repo/src/voucher/serialize.c:380-397 (memory available): the text
between quotes, without any escaping. -/
def escapestr (s : Bytes) : Bytes := [34] ++ s ++ [34]

/-- `VOUCHER_ATTRIBUTE_NAMES`, /repo/src/voucher/voucher_defs.h:30-44. -/
def attrName : Attr → Bytes
  | .createdOn => str "created-on"
  | .expiresOn => str "expires-on"
  | .assertion => str "assertion"
  | .serialNumber => str "serial-number"
  | .idevidIssuer => str "idevid-issuer"
  | .pinnedDomainCert => str "pinned-domain-cert"
  | .revocationChecks => str "domain-cert-revocation-checks"
  | .nonce => str "nonce"
  | .lastRenewalDate => str "last-renewal-date"
  | .priorSigned => str "prior-signed-voucher-request"
  | .proximityCert => str "proximity-registrar-cert"
  | .other => []

/-- The order of `enum VoucherAttributes`, /repo/src/voucher/voucher.h:59-204, visited by the
loop at /repo/src/voucher/voucher.c:597. -/
def attrOrder : List Attr :=
  [.createdOn, .expiresOn, .assertion, .serialNumber, .idevidIssuer, .pinnedDomainCert,
   .revocationChecks, .nonce, .lastRenewalDate, .priorSigned, .proximityCert]

/-- `VOUCHER_ROOT_NAME`, /repo/src/voucher/voucher_defs.h:46. -/
def rootName : Bytes := str "ietf-voucher:voucher"

/-- `VOUCHER_ASSERTION_NAMES[assertion]`, /repo/src/voucher/voucher_defs.h:48-49: four
entries, the first one NULL; any other index is out of bounds. -/
def assertionName (n : Int) : Outcome (Option Bytes) :=
  if n = 0 then .ok none
  else if n = 1 then .ok (some (str "verified"))
  else if n = 2 then .ok (some (str "logged"))
  else if n = 3 then .ok (some (str "proximity"))
  else .ub

/-- `escape_serialize_time`, /repo/src/voucher/voucher.c:520-535 (memory available). -/
def serTime (env : Env) (t : Tm) : Option Bytes := (time2str env.lib t).map escapestr

/-- The `length` bytes read from an array (/repo/src/voucher/voucher.c:539). -/
def arrBytes (a : BinArr) : Outcome Bytes :=
  match a.array with
  | some b => if a.length ≤ b.length then .ok (b.take a.length) else .ub
  | none => if a.length = 0 then .ok [] else .ub

/-- `escape_serialize_array`, /repo/src/voucher/voucher.c:537-551.  The base64 text is read
back as a C string. -/
def serArray (env : Env) (k : Nat) (a : BinArr) : Outcome (Option Bytes) :=
  (arrBytes a).bind fun src =>
  (Base64.array2base64str (env.mem k) src).bind fun r =>
  match r with
  | none => .ok none
  | some (buf, _) => (cstring buf).bind fun s => .ok (some (escapestr s))

/-- `serialize_attr_voucher`, /repo/src/voucher/voucher.c:553-583. -/
def serAttr (env : Env) (k : Nat) (v : Voucher) (a : Attr) : Outcome (Option Bytes) :=
  match a with
  | .createdOn => .ok (serTime env v.createdOn)
  | .expiresOn => .ok (serTime env v.expiresOn)
  | .lastRenewalDate => .ok (serTime env v.lastRenewal)
  | .assertion => (assertionName v.assertion).bind fun r => .ok (r.map escapestr)
  | .serialNumber => .ok (v.serial.map escapestr)
  | .idevidIssuer => serArray env k v.idevidIssuer
  | .pinnedDomainCert => serArray env k v.pinned
  | .nonce => serArray env k v.nonce
  | .priorSigned => serArray env k v.prior
  | .proximityCert => serArray env k v.proximity
  | .revocationChecks => .ok (some (bool2str v.revocation))
  | .other => .ok none

/-- The loop of `voucher_to_keyvalue`, /repo/src/voucher/voucher.c:597-624: key/value pairs of
the non-empty attributes.  Allocation failures of the list nodes and copies are left out (see
the list model for those); `none` is NULL. -/
def toKeyvalue (env : Env) (v : Voucher) : List Attr → Outcome (Option (List (Bytes × Bytes)))
  | [] => .ok (some [])
  | a :: as =>
    if attrNonempty v a then
      (serAttr env as.length v a).bind fun r =>
      match r with
      | none => .ok none
      | some value =>
        (toKeyvalue env v as).bind fun rest =>
        .ok (rest.map fun l => (escapestr (attrName a), value) :: l)
    else toKeyvalue env v as

/-- The C string in the block returned by the joiner, as read by its callers
(/repo/src/voucher/voucher.c:636,669,680). -/
def asString (r : Outcome (Option Bytes)) : Outcome (Option Bytes) :=
  r.bind fun b => match b with
    | none => .ok none
    | some b => (cstring b).bind fun s => .ok (some s)

/-- `serialize_voucher` for a non-NULL voucher, /repo/src/voucher/voucher.c:628-688
(with `serialize_child_voucher`).  The result is the C string, `none` is NULL. -/
def serialize (env : Env) (v : Voucher) : Outcome (Option Bytes) :=
  (toKeyvalue env v attrOrder).bind fun kvs =>
  match kvs with
  | none => .ok none
  | some kvs =>
    (asString (keyvalue2json (fun k => env.mem (k + 20)) kvs)).bind fun child =>
    match child with
    | none => .ok none
    | some child =>
      asString (keyvalue2json (fun k => env.mem (k + 60)) [(escapestr rootName, child)])

/-! ## Deserialisation -/

/-- `strncmp(a, b, n) == 0` where `a` is a C string literal and `b` points into a buffer whose
bytes from there on are given; reading outside the buffer is undefined
(/repo/src/voucher/voucher.c:28,825). -/
def strncmpEq : Bytes → Bytes → Nat → Outcome Bool
  | _, _, 0 => .ok true
  | _, [], _ + 1 => .ub
  | [], c :: _, _ + 1 => .ok (c == 0)
  | x :: a, c :: b, n + 1 => if x = c then strncmpEq a b n else .ok false

/-- `check_size_str_equal`, /repo/src/voucher/voucher.c:26-33. -/
def checkSizeStrEqual (src dst : Bytes) (n : Nat) : Outcome Bool :=
  (strncmpEq src dst n).bind fun e => .ok (e && src.length == n)

/-- The `n` bytes at offset `i` of the JSON buffer; not having them all is undefined.  The
value parsers below read at most these bytes (/repo/src/voucher/voucher.c:839-843). -/
def slice (js : Bytes) (i n : Nat) : Outcome Bytes :=
  if i + n ≤ js.length then .ok ((js.drop i).take n) else .ub

/-- `set_attr_strtime_voucher`, /repo/src/voucher/voucher.c:690-709: `snprintf` copies up to 63
bytes, stopping at a NUL. -/
def setStrtime (env : Env) (v : Option Voucher) (a : Attr) (value : Bytes) :
    Outcome (Option Voucher × Bool) :=
  match str2time env.lib ((value.takeWhile (· ≠ 0)).take 63) with
  | none => .ok (v, false)
  | some t => Call.runPtr v (.time a (some t))

/-- The loop of `set_attr_strenum_voucher`, /repo/src/voucher/voucher.c:159-173. -/
def setStrenum (v : Option Voucher) (a : Attr) (value : Bytes) :
    Outcome (Option Voucher × Bool) :=
  (checkSizeStrEqual (str "verified") value value.length).bind fun e1 =>
  if e1 then Call.runPtr v (.enum a 1) else
  (checkSizeStrEqual (str "logged") value value.length).bind fun e2 =>
  if e2 then Call.runPtr v (.enum a 2) else
  (checkSizeStrEqual (str "proximity") value value.length).bind fun e3 =>
  if e3 then Call.runPtr v (.enum a 3) else .ok (v, false)

/-- `set_attr_nstr_voucher` as called at /repo/src/voucher/voucher.c:735: the function does not
check the voucher pointer (/repo/src/voucher/voucher.c:175-195), so that storing through NULL
is undefined. -/
def setNstrPtr (al : Allocator) (v : Option Voucher) (value : Bytes) :
    Outcome (Option Voucher × Bool) :=
  match v with
  | some v => let r := setNstr al v .serialNumber value value.length; .ok (some r.1, r.2)
  | none => if value.length < 128 then .ub else .ok (none, false)

/-- `set_attr_base64_voucher`, /repo/src/voucher/voucher.c:269-289.  The local array is
released on all paths after a successful decode and not touched after a failed one. -/
def setBase64 (env : Env) (k : Nat) (v : Option Voucher) (a : Attr) (value : Bytes) :
    Outcome (Option Voucher × Bool) :=
  (Base64.base64str2array (env.mem k) env.blk value).bind fun r =>
  match r with
  | (some n, .owned b) => Call.runPtr v (.array a (some ⟨some b, n⟩) (env.mem (k + 1)))
  | (some _, _) => .ub
  | (none, _) => .ok (v, false)

/-- `set_attr_strbool_voucher`, /repo/src/voucher/voucher.c:92-108. -/
def setStrbool (v : Option Voucher) (a : Attr) (value : Bytes) : Outcome (Option Voucher × Bool) :=
  match str2bool value with
  | none => .ok (v, false)
  | some b => Call.runPtr v (.bool a b)

/-- Comparison order of `set_keyvalue_voucher`, /repo/src/voucher/voucher.c:714-795. -/
def keyOrder : List Attr :=
  [.createdOn, .expiresOn, .assertion, .serialNumber, .idevidIssuer, .pinnedDomainCert,
   .revocationChecks, .nonce, .lastRenewalDate, .priorSigned, .proximityCert]

/-- First attribute of the list whose name equals the key
(the `if … else if …` chain at /repo/src/voucher/voucher.c:715-792). -/
def findKey (key : Bytes) : List Attr → Outcome (Option Attr)
  | [] => .ok none
  | a :: as =>
    (checkSizeStrEqual (attrName a) key key.length).bind fun e =>
    if e then .ok (some a) else findKey key as

/-- `set_keyvalue_voucher`, /repo/src/voucher/voucher.c:711-796. -/
def setKeyvalue (env : Env) (k : Nat) (v : Option Voucher) (key value : Bytes) :
    Outcome (Option Voucher × Bool) :=
  (findKey key keyOrder).bind fun a =>
  match a with
  | some .createdOn => setStrtime env v .createdOn value
  | some .expiresOn => setStrtime env v .expiresOn value
  | some .lastRenewalDate => setStrtime env v .lastRenewalDate value
  | some .assertion => setStrenum v .assertion value
  | some .serialNumber => setNstrPtr (env.mem k) v value
  | some .revocationChecks => setStrbool v .revocationChecks value
  | some .idevidIssuer => setBase64 env k v .idevidIssuer value
  | some .pinnedDomainCert => setBase64 env k v .pinnedDomainCert value
  | some .nonce => setBase64 env k v .nonce value
  | some .priorSigned => setBase64 env k v .priorSigned value
  | some .proximityCert => setBase64 env k v .proximityCert value
  | some .other => .ok (v, false)
  | none => .ok (v, false)

/-- Start and length (`end - start`) of a token; an open token (end -1) would give a negative
length, which is treated as undefined (/repo/src/voucher/voucher.c:823,839-840). -/
def span (t : Tok) : Outcome (Nat × Nat) :=
  match t.stop with
  | some e => if t.start ≤ e then .ok (t.start, e - t.start) else .ub
  | none => .ub

/-- Bytes of a token (/repo/src/voucher/voucher.c:839-843). -/
def tokBytes (js : Bytes) (t : Tok) : Outcome Bytes :=
  (span t).bind fun p => slice js p.1 p.2

/-- The member loop, /repo/src/voucher/voucher.c:834-853: `n` members left, `j` the next one.
`none` is the failure exit. -/
def memberLoop (env : Env) (js : Bytes) (toks : List Tok) (idx : Nat) :
    Nat → Nat → Option Voucher → Outcome (Option (Option Voucher))
  | 0, _, v => .ok (some v)
  | n + 1, j, v =>
    let keyIdx := idx + j * 2 + 1
    let valueIdx := idx + (j * 2 + 1) + 1
    if keyIdx < toks.length ∧ valueIdx < toks.length then
      match toks[keyIdx]?, toks[valueIdx]? with
      | some kt, some vt =>
        (tokBytes js kt).bind fun key =>
        (tokBytes js vt).bind fun value =>
        (setKeyvalue env (2 * j + 1) v key value).bind fun r =>
        if r.2 then memberLoop env js toks idx n (j + 1) r.1 else .ok none
      | _, _ => .ub
    else .ok none

/-- Pointer `json + i` (/repo/src/voucher/voucher.c:825): the bytes from there on.  A pointer
beyond the end of the buffer is undefined. -/
def suffix (js : Bytes) (i : Nat) : Outcome Bytes :=
  if i ≤ js.length then .ok (js.drop i) else .ub

/-- The search for the root member, /repo/src/voucher/voucher.c:822-861, over the tokens from
index `idx` on; `none` is the NULL result (root not found or malformed). -/
def rootLoop (env : Env) (js : Bytes) (toks : List Tok) (v : Option Voucher) :
    List Tok → Nat → Outcome (Option (Option Voucher))
  | [], _ => .ok none
  | t :: rest, idx =>
    (span t).bind fun p =>
    (suffix js p.1).bind fun sfx =>
    (strncmpEq rootName sfx p.2).bind fun e =>
    if e then
      match rest with
      | [] => .ok none
      | obj :: _ =>
        if obj.type = .object then memberLoop env js toks (idx + 1) obj.size 0 v
        else .ok none
    else rootLoop env js toks v rest (idx + 1)

/-- `deserialize_voucher` for a non-NULL buffer, /repo/src/voucher/voucher.c:798-873.  The
result is the returned pointer (`none` is NULL).  The result of `init_voucher` is not checked
by the code, so that a NULL voucher is passed on when memory is exhausted. -/
def deserialize (env : Env) (js : Bytes) : Outcome (Option Voucher) :=
  (Jsmn.parse 32 js).bind fun r =>
  match r with
  | .error _ => .ok none
  | .ok toks =>
    match toks with
    | [] => .ok none
    | t :: rest =>
      if t.type ≠ .object then .ok none
      else
        let v : Option Voucher := ((env.mem 0).malloc 240).map fun _ => Voucher.init
        (rootLoop env js toks v rest 1).bind fun r => .ok (r.getD none)

end Brski.VoucherJson
