import Verif.Crypto
import Verif.SpecJson

/-!
# Specification of signed vouchers and of the trust decisions

Relations about OpenSSL objects, written without the loops and decision functions of the model.
-/

namespace Brski.Spec
open Crypto Brski.Voucher

/-- All certificates of the list decode, in order, to the given ones (the flags play no role).
Specification for /repo/src/voucher/crypto_ossl.c:1188-1210. -/
inductive Decoded (O : Ossl) : CertList → List O.Cert → Prop where
  | nil : Decoded O [] []
  | cons {der : Bytes} {f : Int} {c : O.Cert} {l : CertList} {cs : List O.Cert} :
      O.d2iX509 der = some c → Decoded O l cs → Decoded O ((der, f) :: l) (c :: cs)

/-- All elements of the trust list decode to certificates (flag 0) or revocation lists (flag 1).
Specification for /repo/src/voucher/crypto_ossl.c:1230-1297. -/
inductive TrustList (O : Ossl) : CertList → List O.Cert → List O.Crl → Prop where
  | nil : TrustList O [] [] []
  | cert {der : Bytes} {c : O.Cert} {l : CertList} {cs : List O.Cert} {rs : List O.Crl} :
      O.d2iX509 der = some c → TrustList O l cs rs → TrustList O ((der, 0) :: l) (c :: cs) rs
  | crl {der : Bytes} {r : O.Crl} {l : CertList} {cs : List O.Cert} {rs : List O.Crl} :
      O.d2iCrl der = some r → TrustList O l cs rs → TrustList O ((der, 1) :: l) cs (r :: rs)

/-- The certificates supplied beside a message: none, or a decodable list.  Specification for
/repo/src/voucher/crypto_ossl.c:1384-1392,1630-1637. -/
def Extra (O : Ossl) (certs : Option CertList) (cs : List O.Cert) : Prop :=
  match certs with
  | none => cs = []
  | some l => Decoded O l cs

/-- The message `m` passes the check with the supplied certificates and trust list: its signatures
are valid and, if a trust list is supplied, its signers chain to that list.  Specification for
/repo/src/voucher/crypto_ossl.c:1610-1694. -/
def Passes (O : Ossl) (m : O.Cms) (certs store : Option CertList) : Prop :=
  ∃ cs, Extra O certs cs ∧ O.sigOk m cs = true ∧
    ∀ l, store = some l → ∃ xs rs, TrustList O l xs rs ∧ O.trustOk m cs (xs, rs) = true

/-- The bytes `der` are a message enclosing `text` that passes the check.  Specification for
/repo/src/voucher/crypto_ossl.c:1610-1694. -/
def Authentic (O : Ossl) (certs store : Option CertList) (der text : Bytes) : Prop :=
  ∃ m, O.d2iCms der = some m ∧ O.content m = text ∧ Passes O m certs store

/-- The list holds the encodings of the signers of the message `der`; no list if there are none.
Specification for /repo/src/voucher/crypto_ossl.c:1562-1608. -/
def SignersOf (O : Ossl) (der : Bytes) (out : Option CertList) : Prop :=
  ∃ m, O.d2iCms der = some m ∧
    ((O.signers m = [] ∧ out = none) ∨
     (O.signers m ≠ [] ∧ ∃ ders : List Bytes, out = some (ders.map fun d => (d, 0)) ∧
        (O.signers m).map O.i2dX509 = ders.map some))

/-- The text is the JSON encoding of the voucher (see C20).  Specification for
/repo/src/voucher/voucher.c:643-688. -/
def Encoded (v : Voucher) (text : Bytes) : Prop :=
  ∃ val : Attr → FlatValue, (∀ a, present v a = true → IsValue v a (val a)) ∧
    text = (voucherDoc v val).render

/-- What is handed to the signature of a text: all of it if it is shorter than 2 GiB, otherwise a beginning of it (see C98).
Specification for /repo/src/voucher/crypto_ossl.c:1358-1425. -/
def Handed (text part : Bytes) : Prop := part <+: text ∧ (text.length < 2 ^ 31 → part = text)

/-- `cms` is a signature, made with the given certificate, key and additional certificates, over
the encoding of the voucher.  Specification for /repo/src/voucher/voucher.c:970-1015. -/
def SignedVoucher (O : Ossl) (cert key : Option BinArr) (additional : Option CertList) (v : Voucher)
    (cms : Bytes) : Prop :=
  ∃ cert' key' x k cs text part, cert = some (.of cert') ∧ key = some (.of key') ∧
    O.d2iX509 cert' = some x ∧ O.d2iKey key' = some k ∧ Extra O additional cs ∧
    Encoded v text ∧ Handed text part ∧ O.cmsSign x k cs part = some cms

end Brski.Spec
