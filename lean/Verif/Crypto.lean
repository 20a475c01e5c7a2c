import Verif.VoucherJson

/-!
# CMS and certificate handling (model)

The decision logic of /repo/src/voucher/crypto_ossl.c:1188-1694 around OpenSSL, and
/repo/src/voucher/voucher.c:970-1044.  OpenSSL itself is a structure of uninterpreted functions.
-/

namespace Brski.Crypto
open Outcome Brski.Voucher VoucherJson

/-- The OpenSSL functions used by /repo/src/voucher/crypto_ossl.c:127-1694, uninterpreted.
`sigOk m cs`: the signatures of the message are valid for the signer certificates found in the
message or in `cs`; `trustOk m cs st`: the signer certificates chain up to the store;
`content` is the text the message encloses; `signers` are the signer certificates
(`CMS_get0_signers`); `buildChain` is `X509_build_chain` (`[]` stands for failure). -/
structure Ossl where
  Cms : Type
  Cert : Type
  Crl : Type
  Key : Type
  d2iCms : Bytes → Option Cms
  d2iX509 : Bytes → Option Cert
  i2dX509 : Cert → Option Bytes
  d2iCrl : Bytes → Option Crl
  d2iKey : Bytes → Option Key
  sigOk : Cms → List Cert → Bool
  trustOk : Cms → List Cert → List Cert × List Crl → Bool
  content : Cms → Bytes
  signers : Cms → List Cert
  buildChain : Cert → List Cert → Option (List Cert × List Crl) → List Cert
  cmsSign : Cert → Key → List Cert → Bytes → Option Bytes

/-- The values of a `struct BinaryArrayList`: bytes and flags in order
(/repo/src/voucher/array.h:113-118; the pointer structure is modelled in `DlList`). -/
abbrev CertList := List (Bytes × Int)

/-- `get_certificate_stack`, /repo/src/voucher/crypto_ossl.c:1188-1210 (the empty stack is
allocated); `none` is NULL. -/
def certStack (O : Ossl) : CertList → Option (List O.Cert)
  | [] => some []
  | (der, _) :: l =>
    match O.d2iX509 der with
    | none => none
    | some c => (certStack O l).map (c :: ·)

/-- `get_certificate_store`, /repo/src/voucher/crypto_ossl.c:1230-1297: the loop at 1252-1294 with
the store filled so far.  An element that is neither a certificate nor a revocation list leads to
`push_ptr_list` with NULL, which fails (/repo/src/voucher/crypto_ossl.c:107-110).  `ok` tells
whether `X509_STORE_add_cert`, `X509_STORE_add_crl` and `push_ptr_list` succeed. -/
def certStore (O : Ossl) (ok : Nat → Bool) : Nat → List O.Cert × List O.Crl → CertList →
    Option (List O.Cert × List O.Crl)
  | _, st, [] => some st
  | k, st, (der, flags) :: l =>
    if flags = 0 then
      match O.d2iX509 der with
      | none => none
      | some c => if ok k then certStore O ok (k + 1) (st.1 ++ [c], st.2) l else none
    else if flags = 1 then
      match O.d2iCrl der with
      | none => none
      | some c => if ok k then certStore O ok (k + 1) (st.1, st.2 ++ [c]) l else none
    else none

/-- A stack that may be absent (/repo/src/voucher/crypto_ossl.c:1384-1392,1630-1637): OpenSSL treats
a NULL stack like an empty one; `none` is failure. -/
def optStack (O : Ossl) (certs : Option CertList) : Option (List O.Cert) :=
  match certs with
  | none => some []
  | some l => certStack O l

/-- A store that may be absent (/repo/src/voucher/crypto_ossl.c:1325-1336,1639-1650); outer `none`
is failure, inner `none` the NULL store. -/
def optStore (O : Ossl) (ok : Nat → Bool) (store : Option CertList) :
    Option (Option (List O.Cert × List O.Crl)) :=
  match store with
  | none => some none
  | some l => if ok 0 then (certStore O ok 1 ([], []) l).map some else none

/-- `crypto_verify_cert`, /repo/src/voucher/crypto_ossl.c:1299-1356; `cert = none` and `certs = none`
are NULL.  The result `true` stands for 0. -/
def verifyCert (O : Ossl) (ok : Nat → Bool) (cert : Option Bytes) (certs store : Option CertList) : Bool :=
  match cert, certs with
  | some cert, some certs =>
    match O.d2iX509 cert with
    | none => false
    | some x =>
      match certStack O certs with
      | none => false
      | some cs =>
        match optStore O ok store with
        | none => false
        | some st => !(O.buildChain x cs st).isEmpty
  | _, _ => false

/-- The loop of `exatract_cms_certs`, /repo/src/voucher/crypto_ossl.c:1583-1605 (memory for the
list available). -/
def signerDers (O : Ossl) : List O.Cert → Option CertList
  | [] => some []
  | c :: l =>
    match O.i2dX509 c with
    | none => none
    | some der => (signerDers O l).map ((der, 0) :: ·)

/-- `exatract_cms_certs`, /repo/src/voucher/crypto_ossl.c:1562-1608: outer `none` is -1, inner `none`
the NULL list left when there are no signers. -/
def extractCerts (O : Ossl) (m : O.Cms) : Option (Option CertList) :=
  if (O.signers m).isEmpty then some none else (signerDers O (O.signers m)).map some

/-- `CMS_verify` as called at /repo/src/voucher/crypto_ossl.c:1659-1661: with a NULL store the flag
`CMS_NO_SIGNER_CERT_VERIFY` is given and only the signatures are checked. -/
def cmsVerify (O : Ossl) (m : O.Cms) (cs : List O.Cert) (st : Option (List O.Cert × List O.Crl)) : Bool :=
  match st with
  | none => O.sigOk m cs
  | some st => O.trustOk m cs st && O.sigOk m cs

/-- The result of a successful `crypto_verify_cms`: the enclosed text and, if asked for, the signer
certificates (/repo/src/voucher/crypto_ossl.c:1610-1614). -/
structure Verified where
  data : Bytes
  certs : Option CertList
deriving Repr, DecidableEq

/-- `crypto_verify_cms` with non-NULL `data`, /repo/src/voucher/crypto_ossl.c:1610-1694.  `out` tells
whether `out_certs` is given, `ok` whether the allocations inside succeed; `none` is -1.  The length
is passed on as a `long` (/repo/src/voucher/crypto_ossl.c:127-131): `d2i_CMS_ContentInfo` refuses a
negative one without reading anything.  No block is that large, so this concerns only the length
`SIZE_MAX` an unnoticed decoding failure leaves beside a pointer that must not be read (represented
without array, see `Server`). -/
def verifyCms (O : Ossl) (ok : Nat → Bool) (cms : Option BinArr) (certs store : Option CertList)
    (out : Bool) : Outcome (Option Verified) :=
  match cms with
  | none => .ok none
  | some cms =>
    if cms.array.isNone ∧ 2 ^ 63 ≤ cms.length then .ok none
    else
    (arrBytes cms).bind fun der => .ok <|
    match O.d2iCms der with
    | none => none
    | some m =>
      match optStack O certs with
      | none => none
      | some cs =>
        match optStore O ok store with
        | none => none
        | some st =>
          if cmsVerify O m cs st && ok 1000000 then
            if out then (extractCerts O m).map fun l => ⟨O.content m, l⟩
            else some ⟨O.content m, none⟩
          else none

/-- `BIO_write(mem, data, length)` into a fresh memory BIO (/repo/src/voucher/crypto_ossl.c:1363-1375): what the BIO holds
afterwards.  The `size_t` is converted to `int`; OpenSSL writes nothing for a negative number and returns 0, which is not
taken for an error.  (Lack of memory is part of `cmsSign`.) -/
def bioWrite (data : Bytes) : Bytes :=
  let n := data.length % 4294967296
  if n < 2147483648 then data.take n else []

/-- `crypto_sign_eccms`, `crypto_sign_rsacms` and `crypto_sign_cms` with `sign_withkey_cms`,
/repo/src/voucher/crypto_ossl.c:1358-1560, for non-NULL data; they differ in the function that reads the key
(`crypto_eckey2context`, `crypto_rsakey2context`, `crypto_key2context`, /repo/src/voucher/crypto_ossl.c:555-588).  `none` is
-1.  Allocation failures inside OpenSSL are part of `cmsSign`. -/
def signCmsBy (O : Ossl) (readKey : Bytes → Option O.Key) (data : Bytes) (cert key : BinArr) (certs : Option CertList) :
    Outcome (Option Bytes) :=
  if cert.array.isNone ∨ key.array.isNone then .ok none
  else
    (arrBytes key).bind fun k => (arrBytes cert).bind fun c => .ok <|
    match readKey k with
    | none => none
    | some k =>
      match O.d2iX509 c with
      | none => none
      | some c =>
        match optStack O certs with
        | none => none
        | some cs => O.cmsSign c k cs (bioWrite data)

/-- `crypto_sign_cms`, /repo/src/voucher/crypto_ossl.c:1517-1560. -/
def signCms (O : Ossl) (data : Bytes) (cert key : BinArr) (certs : Option CertList) : Outcome (Option Bytes) :=
  signCmsBy O O.d2iKey data cert key certs

/-- `sign_cms_voucher` for a non-NULL voucher, /repo/src/voucher/voucher.c:970-1015; `none` is
NULL. -/
def signCmsVoucher (O : Ossl) (env : Env) (v : Voucher) (cert key : Option BinArr)
    (certs : Option CertList) : Outcome (Option Bytes) :=
  match cert, key with
  | some cert, some key =>
    (serialize env v).bind fun s =>
    match s with
    | none => .ok none
    | some s => signCms O s cert key certs
  | _, _ => .ok none

/-- `verify_cms_voucher`, /repo/src/voucher/voucher.c:1017-1044; `none` is NULL.  An empty content
gives a NULL buffer, which `deserialize_voucher` refuses (/repo/src/voucher/voucher.c:799-803). -/
def verifyCmsVoucher (O : Ossl) (env : Env) (ok : Nat → Bool) (cms : Option BinArr)
    (certs store : Option CertList) (out : Bool) : Outcome (Option (Voucher × Option CertList)) :=
  (verifyCms O ok cms certs store out).bind fun r =>
  match r with
  | none => .ok none
  | some r =>
    if r.data = [] then .ok none
    else (deserialize env r.data).bind fun v => .ok (v.map fun v => (v, r.certs))

end Brski.Crypto
