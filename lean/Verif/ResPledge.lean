import Verif.ResReq

/-!
# Ownership in the pledge (model)

/repo/src/brski/pledge/pledge_utils.c:23-156 and /repo/src/brski/pledge/pledge_request.cpp:34-374 in the framework
of `Res`: memory and library calls may fail at any point (drawn from the tape).  Contents are left out;
C++ strings release themselves, that their allocation may throw is not modelled.
-/

namespace Brski.Res
open Outcome

/-- What an onboarding depends on besides the tape: the configured times and nonce and the lists of files
(/repo/src/brski/pledge/pledge_utils.c:35-66, /repo/src/brski/pledge/pledge_request.cpp:45-70), the answer of the
registrar to the request (175-181) and to the enrolment (349-354).  The nonce is decoded twice and may fail once
for lack of memory, hence two values. -/
structure Plan where
  created : Bool
  nonce1 : Option Body
  nonce2 : Option Body
  add : Option (List Entry)
  certs : Option (List Entry)
  store : Option (List Entry)
  answer : Body
  enrolled : Body

/-- The release at the end of `voucher_pledge_request_to_array`, /repo/src/brski/pledge/pledge_utils.c:96-99,103-107
(`cms` is NULL at the second place). -/
def requestEnd (nonce cert key : Option Bin) (add : Option ArrList) : Prog Unit := do
  freeBinO nonce
  freeBinO cert
  freeBinO key
  freeArrO add

/-- `voucher_pledge_request_to_array` from the files on, /repo/src/brski/pledge/pledge_utils.c:68-110. -/
def requestFiles (lib : Lib) (add : Option (List Entry)) (nonce : Option Bin) : Prog (Option Bin) := do
  match ← fileToCert with
  | none => do
    requestEnd nonce none none none
    pure none
  | some cert =>
    match ← fileToKey with
    | none => do
      requestEnd nonce (some cert) none none
      pure none
    | some key =>
      match ← loadCerts lib add with
      | (false, l) => do
        requestEnd nonce (some cert) (some key) l
        pure none
      | (true, l) =>
        match ← signPledge lib nonce.isSome (lenO l) with
        | none => do
          requestEnd nonce (some cert) (some key) l
          pure none
        | some cms => do
          requestEnd nonce (some cert) (some key) l
          pure (some cms)

/-- `voucher_pledge_request_to_array`, /repo/src/brski/pledge/pledge_utils.c:23-110; `created`: the time can be read
(36-45).  A nonce that cannot be decoded is released with whatever the decoder left in it (57-58). -/
def requestArray (lib : Lib) (created : Bool) (nonce : Option Body) (add : Option (List Entry)) : Prog (Option Bin) :=
  match created, nonce with
  | false, _ => pure none
  | true, none => requestFiles lib add none
  | true, some b => do
    match ← mk .mem with
    | none => pure none
    | some hd =>
      match ← decode b with
      | (false, a) => do
        freeBin ⟨hd, a⟩
        pure none
      | (true, a) => requestFiles lib add (some ⟨hd, a⟩)

/-- `voucher_pledge_request_to_smimefile`, /repo/src/brski/pledge/pledge_utils.c:112-132. -/
def requestFile (lib : Lib) (created : Bool) (nonce : Option Body) (add : Option (List Entry)) : Prog Bool := do
  match ← requestArray lib created nonce add with
  | none => pure false
  | some cms =>
    match ← cmsToFile with
    | false => do
      freeBin cms
      pure false
    | true => do
      freeBin cms
      pure true

/-- `voucher_pledge_request_to_base64`, /repo/src/brski/pledge/pledge_utils.c:134-156. -/
def requestText (lib : Lib) (created : Bool) (nonce : Option Body) (add : Option (List Entry)) : Prog (Option Id) := do
  match ← requestArray lib created nonce add with
  | none => pure none
  | some cms =>
    match ← mk .mem with
    | none => do
      freeBin cms
      pure none
    | some text => do
      freeBin cms
      pure (some text)

/-- The release at the end of `verify_masa_pledge_request`,
/repo/src/brski/pledge/pledge_request.cpp:80-82,86-88. -/
def checkEnd (nonce : Option Bin) (certs store : Option ArrList) : Prog Unit := do
  freeBinO nonce
  freeArrO certs
  freeArrO store

/-- `verify_masa_pledge_request` with the nonce decoded, /repo/src/brski/pledge/pledge_request.cpp:61-90: whether it
returns 0, and the array in `pinned_domain_cert`. -/
def checkFiles (lib : Lib) (certs store : Option (List Entry)) (nonce : Option Bin) : Prog (Bool × Option Id) := do
  match ← loadCerts lib certs with
  | (false, cs) => do
    checkEnd nonce cs none
    pure (false, none)
  | (true, cs) =>
    match ← loadCerts lib store with
    | (false, st) => do
      checkEnd nonce cs st
      pure (false, none)
    | (true, st) => do
      let r ← accept lib (lenO cs) (flagsO st) none false
      match r.ok with
      | false => do
        checkEnd nonce cs st
        pure (false, r.pin)
      | true => do
        checkEnd nonce cs st
        pure (true, r.pin)

/-- `verify_masa_pledge_request`, /repo/src/brski/pledge/pledge_request.cpp:34-90.  A nonce that cannot be decoded
is released at 55 and again at 86. -/
def checkAnswer (lib : Lib) (nonce : Option Body) (certs store : Option (List Entry)) : Prog (Bool × Option Id) :=
  match nonce with
  | none => checkFiles lib certs store none
  | some b => do
    match ← mk .mem with
    | none => do
      checkEnd none none none
      pure (false, none)
    | some hd =>
      match ← decode b with
      | (false, a) => do
        freeBin ⟨hd, a⟩
        checkEnd (some ⟨hd, none⟩) none none
        pure (false, none)
      | (true, a) => checkFiles lib certs store (some ⟨hd, a⟩)

/-- `https_post_request` as far as references go (/repo/src/brski/http/httplib_wrapper.cpp:252-261): a negative
status, or a status and a copy of the certificate or NULL. -/
def post : Prog (Option (Int × Option Id)) := do
  let status ← draw
  if status < 0 then pure none
  else do
    let peer ← mk .x509
    pure (some (status, peer))

/-- `crypto_cert2buf` and the release of the certificate,
/repo/src/brski/pledge/pledge_request.cpp:127-134,165-172. -/
def peerBuf (peer : Option Id) : Prog (Option Bin) := do
  match ← certToBuf peer with
  | none => do
    dropO .x509 peer
    pure none
  | some b => do
    dropO .x509 peer
    pure (some b)

/-- `post_voucher_pledge_request` with a usable answer, /repo/src/brski/pledge/pledge_request.cpp:174-196.  The length
is unsigned, so that a refused answer is not noticed. -/
def answered (lib : Lib) (p : Plan) (cert : Bin) : Prog (Bool × Option Id) := do
  let a := (← decode p.answer).2
  match ← checkAnswer lib p.nonce2 p.certs p.store with
  | (false, pin) => do
    dropO .mem a
    freeBin cert
    pure (false, pin)
  | (true, pin) => do
    dropO .mem a
    freeBin cert
    pure (true, pin)

/-- `post_voucher_pledge_request`, /repo/src/brski/pledge/pledge_request.cpp:92-196: whether it returns 0, and the
array in `pinned_domain_cert`.  The first `yes` says whether the three parameters are given (100-113). -/
def askVoucher (lib : Lib) (p : Plan) : Prog (Bool × Option Id) := do
  match ← yes with
  | false => pure (false, none)
  | true =>
    match ← post with
    | none => pure (false, none)
    | some (_, peer) =>
      match ← peerBuf peer with
      | none => pure (false, none)
      | some cert => do
        let text ← requestText lib p.created p.nonce1 p.add
        freeBin cert
        match text with
        | none => pure (false, none)
        | some text => do
          drop .mem text
          match ← post with
          | none => pure (false, none)
          | some (status, peer) =>
            if 400 ≤ status then do
              dropO .x509 peer
              pure (false, none)
            else
              match ← peerBuf peer with
              | none => pure (false, none)
              | some cert => answered lib p cert

/-- The metadata of /repo/src/brski/pledge/pledge_request.cpp:229-236,256-270: an absolute end of validity, an empty
name of the issuer, three entries for the subject, and constraints. -/
def signMeta : Meta := ⟨true, false, some [], some [(true, true), (true, true), (true, true)], true⟩

/-- The pushes of /repo/src/brski/pledge/pledge_request.cpp:256-270: whether all succeed, and the elements. -/
def pushes (lib : Lib) (l : List (Id × Id × Id)) : Nat → Prog (Bool × List (Id × Id × Id))
  | 0 => pure (true, l)
  | n + 1 => do
    match ← pushKv lib l with
    | none => pure (false, l)
    | some l => pushes lib l n

/-- `generate_sign_cert`, /repo/src/brski/pledge/pledge_request.cpp:223-297: `none` is -1, otherwise the arrays of
certificate and key.  A missing key or certificate is not noticed, the lengths being unsigned (272-284). -/
def makeKeyCert (lib : Lib) : Prog (Option (Option Id × Option Id)) := do
  match ← yes with
  | false => pure none
  | true =>
    match ← mk .mem with
    | none => pure none
    | some issuer =>
      match ← mk .mem with
      | none => do
        freeKv issuer []
        pure none
      | some subject =>
        match ← pushes lib [] 3 with
        | (false, l) => do
          freeKv issuer []
          freeKv subject l
          pure none
        | (true, l) => do
          let key ← genEcKey lib
          let cert ← genCert lib (some signMeta) key.isSome true
          freeKv issuer []
          freeKv subject l
          pure (some (cert, key))

/-- `post_sign_cert_err:`, /repo/src/brski/pledge/pledge_request.cpp:369-373. -/
def signEnd (cert key pin : Option Id) : Prog Unit := do
  dropO .mem cert
  dropO .mem key
  dropO .mem pin

/-- The second `serialize_array2base64str` of /repo/src/brski/pledge/pledge_request.cpp:327-332 and the copy of the
text: it refuses the length of a certificate that was not made (/repo/src/voucher/serialize.c:118-121). -/
def encodeOwn : Option Id → Prog Bool
  | none => pure false
  | some c => do
    use .mem c
    match ← mk .mem with
    | none => pure false
    | some text => do
      drop .mem text
      pure true

/-- `post_sign_cert`, /repo/src/brski/pledge/pledge_request.cpp:299-374: `none` is -1, otherwise the arrays of
certificate and key. -/
def onboard (lib : Lib) (p : Plan) : Prog (Option (Option Id × Option Id)) := do
  match ← makeKeyCert lib with
  | none => pure none
  | some (cert, key) =>
    match ← askVoucher lib p with
    | (false, pin) => do
      signEnd cert key pin
      pure none
    | (true, pin) =>
      match ← encodeOwn pin with
      | false => do
        signEnd cert key pin
        pure none
      | true =>
        match ← encodeOwn cert with
        | false => do
          signEnd cert key pin
          pure none
        | true => do
          let status ← draw
          if status < 0 ∨ 400 ≤ status then do
            signEnd cert key pin
            pure none
          else do
            dropO .mem cert
            match ← decode p.enrolled with
            | (false, c) => do
              signEnd c key pin
              pure none
            | (true, c) => do
              dropO .mem pin
              pure (some (c, key))

end Brski.Res
