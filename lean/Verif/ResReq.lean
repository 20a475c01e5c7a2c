import Verif.Res

/-!
# Ownership in requests and in the servers' handlers (model)

/repo/src/voucher/request.c:20-581 and the handlers of /repo/src/brski/registrar/registrar_api.cpp:31-432 and
/repo/src/brski/masa/masa_api.cpp:27-183 in the framework of `Res`.  Contents are left out again: which of
the checks succeed is drawn from the tape.  A voucher is one block here (its inside is the subject of
C12); arguments that are only read are not tracked.  C++ strings release themselves and are left out;
that their allocation may throw is not modelled.
-/

namespace Brski.Res
open Outcome

/-- `free_binary_array` of a pointer that may be NULL, /repo/src/voucher/array.c:154-159. -/
def freeBinO : Option Bin → Prog Unit
  | none => pure ()
  | some b => freeBin b

/-- `free_array_list` of a pointer that may be NULL, /repo/src/voucher/array.c:42-55. -/
def freeArrO : Option ArrList → Prog Unit
  | none => pure ()
  | some l => freeArr l

/-- A call that looks at or changes a voucher and may fail, such as `set_attr_voucher`
(/repo/src/voucher/voucher.c:291-340). -/
def setAttr (v : Id) : Prog Bool := do
  use .mem v
  yes

/-- Several such calls; the first failure ends them (/repo/src/voucher/request.c:37-86). -/
def setAttrs (v : Id) : Nat → Prog Bool
  | 0 => pure true
  | n + 1 => do
    match ← setAttr v with
    | false => pure false
    | true => setAttrs v n

/-- `sign_cms_voucher` for arguments that are not NULL, /repo/src/voucher/voucher.c:970-1015. -/
def signVoucher (lib : Lib) (v : Id) (certs : Option Nat) : Prog (Option Bin) := do
  use .mem v
  match ← mk .mem with
  | none => pure none
  | some text =>
    match ← mk .mem with
    | none => do
      drop .mem text
      pure none
    | some hd => do
      use .mem text
      match ← signCms lib certs with
      | none => do
        drop .mem text
        freeBin ⟨hd, none⟩
        pure none
      | some a => do
        drop .mem text
        pure (some ⟨hd, a⟩)

/-- `sign_pledge_voucher_request`, /repo/src/voucher/request.c:20-98; `nonce`: a nonce is given, which
makes five attributes instead of four. -/
def signPledge (lib : Lib) (nonce : Bool) (certs : Option Nat) : Prog (Option Bin) := do
  match ← mk .mem with
  | none => pure none
  | some v =>
    match ← setAttrs v (if nonce then 5 else 4) with
    | false => do
      drop .mem v
      pure none
    | true =>
      match ← signVoucher lib v certs with
      | none => do
        drop .mem v
        pure none
      | some cms => do
        drop .mem v
        pure (some cms)

/-- `sign_voucher_request` for a serial number and an issuer that are not NULL,
/repo/src/voucher/request.c:100-245: three checks of the pledge's request (133-164), then the new request,
with the nonce if there is one (182). -/
def signRequest (lib : Lib) (pc : Option Nat) (ps : Option (List Int)) (certs : Option Nat) : Prog (Option Bin) := do
  match (← verifyVoucher lib pc ps false).1 with
  | none => pure none
  | some p =>
    match ← setAttrs p 3 with
    | false => do
      drop .mem p
      pure none
    | true =>
      match ← mk .mem with
      | none => do
        drop .mem p
        pure none
      | some v => do
        let nonce ← setAttr p
        match ← setAttrs v (if nonce then 5 else 4) with
        | false => do
          drop .mem p
          drop .mem v
          pure none
        | true =>
          match ← signVoucher lib v certs with
          | none => do
            drop .mem p
            drop .mem v
            pure none
          | some cms => do
            drop .mem p
            drop .mem v
            pure (some cms)

/-- The release at the end of `sign_masa_pledge_voucher`, /repo/src/voucher/request.c:434-437,441-444. -/
def issueEnd (certs : Option ArrList) (v p m : Option Id) : Prog Unit := do
  freeArrO certs
  dropO .mem v
  dropO .mem p
  dropO .mem m

/-- `sign_masa_pledge_voucher` for an expiry time and a callback that are not NULL,
/repo/src/voucher/request.c:247-446.  The callback (371) gives an array or fails.  When no voucher can be
read (270-273) `registrar_certs` is not released. -/
def issue (lib : Lib) (rc : Option Nat) (rs : Option (List Int)) (pc : Option Nat) (ps : Option (List Int))
    (add : Option Nat) : Prog (Option Bin) := do
  let r ← verifyVoucher lib rc rs true
  match r.1 with
  | none => pure none
  | some v =>
    match ← setAttrs v 2 with
    | false => do
      issueEnd r.2 (some v) none none
      pure none
    | true => do
      let q ← verifyVoucher lib pc ps false
      match q.1 with
      | none => do
        issueEnd r.2 (some v) none none
        pure none
      | some p =>
        match ← setAttrs p 2 with
        | false => do
          issueEnd r.2 (some v) (some p) none
          pure none
        | true =>
          match ← mk .mem with
          | none => do
            issueEnd r.2 (some v) (some p) none
            pure none
          | some m => do
            let nonce ← setAttr v
            match ← setAttrs m (if nonce then 2 else 1) with
            | false => do
              issueEnd r.2 (some v) (some p) (some m)
              pure none
            | true =>
              match ← mk .mem with
              | none => do
                issueEnd r.2 (some v) (some p) (some m)
                pure none
              | some pin =>
                match ← setAttr m with
                | false => do
                  drop .mem pin
                  issueEnd r.2 (some v) (some p) (some m)
                  pure none
                | true => do
                  drop .mem pin
                  match ← setAttrs m 3 with
                  | false => do
                    issueEnd r.2 (some v) (some p) (some m)
                    pure none
                  | true =>
                    match ← signVoucher lib m add with
                    | none => do
                      issueEnd r.2 (some v) (some p) (some m)
                      pure none
                    | some cms => do
                      issueEnd r.2 (some v) (some p) (some m)
                      pure (some cms)

/-- What the pledge's check leaves (/repo/src/voucher/request.c:448-456): whether it returns 0,
`*pledge_out_certs` and the array in `*pinned_domain_cert`. -/
structure Accepted where
  ok : Bool
  certs : Option ArrList
  pin : Option Id
deriving Repr, DecidableEq

/-- `push_array_list` of /repo/src/voucher/request.c:547-548 on a list that may be NULL
(/repo/src/voucher/array.c:59-62). -/
def pushArrO (lib : Lib) (l : Option ArrList) (a : Id) : Prog (Option ArrList) :=
  match l with
  | none => pure none
  | some l => pushArr lib l a

/-- `verify_masa_pledge_voucher` for a serial number that is not NULL, /repo/src/voucher/request.c:448-581;
`out`: `pledge_out_certs` is given.  When the list cannot be made or extended the copy of the pinned
certificate is not released (547-553). -/
def accept (lib : Lib) (certs : Option Nat) (store dom : Option (List Int)) (out : Bool) : Prog Accepted := do
  let r ← verifyVoucher lib certs store out
  match r.1 with
  | none => pure ⟨false, r.2, none⟩
  | some v =>
    match ← setAttrs v 3 with
    | false => do
      drop .mem v
      pure ⟨false, r.2, none⟩
    | true =>
      match ← mk .mem with
      | none => do
        drop .mem v
        pure ⟨false, r.2, none⟩
      | some cp => do
        let l ← (Option.map fun hd => (⟨hd, []⟩ : ArrList)) <$> mk .mem
        match ← pushArrO lib l cp with
        | none => do
          freeArrO l
          drop .mem v
          pure ⟨false, r.2, none⟩
        | some l => do
          drop .mem cp
          match ← verifyCert lib l.els.length dom with
          | false => do
            freeArr l
            drop .mem v
            pure ⟨false, r.2, none⟩
          | true => do
            freeArr l
            match ← mk .mem with
            | none => do
              drop .mem v
              pure ⟨false, r.2, none⟩
            | some pin => do
              drop .mem v
              pure ⟨true, r.2, some pin⟩

/-! ## Files and bodies -/

/-- What happens to a path in `load_cert_files` (/repo/src/brski/config.c:691-708): the certificate is read
and stored, it cannot be read (694), or there is no memory for the element (700). -/
inductive Entry where
  | good | unreadable | noMemory
deriving Repr, DecidableEq

/-- The loop of `load_cert_files`, /repo/src/brski/config.c:691-707.  The certificate is as
`file_to_x509buf` leaves it (C80).  On failure the list is released and the pointer to it stays in
`*out`. -/
def loadLoop (lib : Lib) (l : ArrList) : List Entry → Prog (Bool × Option ArrList)
  | [] => pure (true, some l)
  | .unreadable :: _ => do
    freeArr l
    pure (false, some l)
  | .noMemory :: _ => do
    let hd ← fresh .mem
    let a ← fresh .mem
    freeBin ⟨hd, some a⟩
    freeArr l
    pure (false, some l)
  | .good :: es => do
    let hd ← fresh .mem
    let a ← fresh .mem
    let el ← fresh .mem
    use .mem a
    match lib.copy l.els.length with
    | false => undefined
    | true => do
      let cp ← fresh .mem
      freeBin ⟨hd, some a⟩
      loadLoop lib ⟨l.hd, l.els ++ [(el, cp)]⟩ es

/-- `load_cert_files`, /repo/src/brski/config.c:673-710: whether it returns 0, and `*out`. -/
def loadCerts (lib : Lib) : Option (List Entry) → Prog (Bool × Option ArrList)
  | none => pure (true, none)
  | some [] => pure (true, none)
  | some (e :: es) => do
    match ← mk .mem with
    | none => pure (false, none)
    | some hd => loadLoop lib ⟨hd, []⟩ (e :: es)

/-- The kinds of bodies (/repo/src/voucher/serialize.c:176-279): decoded, refused with a NULL pointer
(198-208), refused for its padding (243-245). -/
inductive Body where
  | data | nothing | padding
deriving Repr, DecidableEq

/-- `serialize_base64str2array`, /repo/src/voucher/serialize.c:176-279: the result and `*out`.  After bad
padding `*out` points to the released block. -/
def decode : Body → Prog (Bool × Option Id)
  | .data => do
    let a ← fresh .mem
    pure (true, some a)
  | .nothing => pure (false, none)
  | .padding => do
    let a ← fresh .mem
    drop .mem a
    pure (false, some a)

/-- The number of elements given as certificates (/repo/src/brski/masa/masa_api.cpp:138-142). -/
def lenO (l : Option ArrList) : Option Nat := l.map fun l => l.els.length

/-- The flags of the elements given as store, 0 by /repo/src/brski/config.c:700. -/
def flagsO (l : Option ArrList) : Option (List Int) := l.map fun l => l.els.map fun _ => 0

/-! ## The MASA -/

/-- The configured lists of the MASA, in the order in which they are loaded
(/repo/src/brski/masa/masa_api.cpp:110-136). -/
structure Paths where
  rc : Option (List Entry)
  rs : Option (List Entry)
  pc : Option (List Entry)
  ps : Option (List Entry)
  add : Option (List Entry)

/-- The variables of `masa_requestvoucher` that are released at its end
(/repo/src/brski/masa/masa_api.cpp:66-75). -/
structure Vars where
  ca : Option Bin := none
  cert : Option Bin := none
  key : Option Bin := none
  rc : Option ArrList := none
  rs : Option ArrList := none
  pc : Option ArrList := none
  ps : Option ArrList := none
  add : Option ArrList := none
  body : Option Id := none
  out : Option Bin := none

/-- The release at the end of `masa_requestvoucher`, /repo/src/brski/masa/masa_api.cpp:159-168,172-181
(the order of certificate and key differs between the two). -/
def masaEnd (v : Vars) : Prog Unit := do
  freeBinO v.ca
  freeBinO v.cert
  freeBinO v.key
  freeArrO v.rc
  freeArrO v.rs
  freeArrO v.pc
  freeArrO v.ps
  freeArrO v.add
  dropO .mem v.body
  freeBinO v.out

/-- `masa_requestvoucher`, /repo/src/brski/masa/masa_api.cpp:57-183.  `ca` is the pointer in
`context->ldevid_ca_cert`; the second result is that pointer afterwards.  `expiry`: the configured time can
be read (82).  The length of the body is unsigned, so that a refused body is not noticed (87-92). -/
def masaRequest (lib : Lib) (expiry : Bool) (ps : Paths) (ca : Option Bin) (body : Body) :
    Prog (Int × Option Bin) :=
  match expiry with
  | false => do
    masaEnd { ca := ca }
    pure (400, ca)
  | true => do
    let b := (← decode body).2
    match ← fileToCert with
    | none => do
      masaEnd { body := b }
      pure (400, none)
    | some ca =>
      match ← fileToCert with
      | none => do
        masaEnd { ca := some ca, body := b }
        pure (400, some ca)
      | some cert =>
        match ← fileToKey with
        | none => do
          masaEnd { ca := some ca, cert := some cert, body := b }
          pure (400, some ca)
        | some key =>
          match ← loadCerts lib ps.rc with
          | (false, rc) => do
            masaEnd { ca := some ca, cert := some cert, key := some key, rc := rc, body := b }
            pure (400, some ca)
          | (true, rc) =>
            match ← loadCerts lib ps.rs with
            | (false, rs) => do
              masaEnd { ca := some ca, cert := some cert, key := some key, rc := rc, rs := rs, body := b }
              pure (400, some ca)
            | (true, rs) =>
              match ← loadCerts lib ps.pc with
              | (false, pc) => do
                masaEnd { ca := some ca, cert := some cert, key := some key, rc := rc, rs := rs, pc := pc, body := b }
                pure (400, some ca)
              | (true, pc) =>
                match ← loadCerts lib ps.ps with
                | (false, st) => do
                  masaEnd { ca := some ca, cert := some cert, key := some key, rc := rc, rs := rs, pc := pc, ps := st,
                            body := b }
                  pure (400, some ca)
                | (true, st) =>
                  match ← loadCerts lib ps.add with
                  | (false, add) => do
                    masaEnd { ca := some ca, cert := some cert, key := some key, rc := rc, rs := rs, pc := pc, ps := st,
                              add := add, body := b }
                    pure (400, some ca)
                  | (true, add) =>
                    match ← issue lib (lenO rc) (flagsO rs) (lenO pc) (flagsO st) (lenO add) with
                    | none => do
                      masaEnd { ca := some ca, cert := some cert, key := some key, rc := rc, rs := rs, pc := pc, ps := st,
                                add := add, body := b }
                      pure (400, some ca)
                    | some out =>
                      match ← mk .mem with
                      | none => do
                        masaEnd { ca := some ca, cert := some cert, key := some key, rc := rc, rs := rs, pc := pc,
                                  ps := st, add := add, body := b, out := some out }
                        pure (400, some ca)
                      | some text => do
                        drop .mem text
                        masaEnd { ca := some ca, cert := some cert, key := some key, rc := rc, rs := rs, pc := pc,
                                  ps := st, add := add, body := b, out := some out }
                        pure (200, some ca)

/-- A MASA serving requests one after another, all with the same context
(/repo/src/brski/masa/masa_api.cpp:62); `ca` is the pointer in the context at first. -/
def masaServe (lib : Lib) (expiry : Bool) (ps : Paths) (ca : Option Bin) : List Body → Prog (List Int)
  | [] => pure []
  | b :: bs => do
    let r ← masaRequest lib expiry ps ca b
    let rest ← masaServe lib expiry ps r.2 bs
    pure (r.1 :: rest)

/-! ## The registrar -/

/-- Allocations of the registrar whose failure is not handled: `bare` is the `malloc` at
/repo/src/brski/registrar/registrar_api.cpp:191, `kv` the calls of `init_keyvalue_list` at 33-34, 53-54
(numbers 0 to 3) and 154-155 (numbers 0 and 1). -/
structure Mem where
  bare : Bool
  kv : Nat → Bool

/-- `free_keyvalue_list`, /repo/src/voucher/keyvalue.c:40-66: the elements. -/
def freeKvEls : List (Id × Id × Id) → Prog Unit
  | [] => pure ()
  | (el, k, v) :: l => do
    drop .mem k
    drop .mem v
    drop .mem el
    freeKvEls l

/-- `free_keyvalue_list`, /repo/src/voucher/keyvalue.c:53-66. -/
def freeKv (hd : Id) (l : List (Id × Id × Id)) : Prog Unit := do
  freeKvEls l
  drop .mem hd

/-- `init_keyvalue_list`, /repo/src/voucher/keyvalue.c:27-38, with number `k`. -/
def initKv (mem : Mem) (k : Nat) : Prog (Option Id) :=
  match mem.kv k with
  | false => pure none
  | true => some <$> fresh .mem

/-- `save_to_log`, /repo/src/brski/registrar/registrar_api.cpp:31-88.  When one of two lists cannot be made
the other one is lost (38-41,56-61). -/
def saveLog (lib : Lib) (mem : Mem) (ix lx : Id) : Prog Unit := do
  match ← initKv mem 0, ← initKv mem 1 with
  | some ii, some is => do
    let i ← certMeta lib (some ix)
    match i.1 with
    | false => do
      freeKv ii i.2.1
      freeKv is i.2.2
    | true =>
      match ← initKv mem 2, ← initKv mem 3 with
      | some li, some ls => do
        let l ← certMeta lib (some lx)
        match l.1 with
        | false => do
          freeKv ii i.2.1
          freeKv is i.2.2
          freeKv li l.2.1
          freeKv ls l.2.2
        | true => do
          match ← mk .file with
          | none => pure ()
          | some f => do
            use .file f
            drop .file f
          freeKv ii i.2.1
          freeKv is i.2.2
          freeKv li l.2.1
          freeKv ls l.2.2
      | _, _ => do
        freeKv ii i.2.1
        freeKv is i.2.2
  | _, _ => pure ()

/-- `post_voucher_request`, /repo/src/brski/registrar/registrar_api.cpp:90-133, with
/repo/src/brski/http/httplib_wrapper.cpp:246-262: `none` is -1. -/
def postRequest : Prog (Option Int) := do
  match ← mk .mem with
  | none => pure none
  | some text => do
    drop .mem text
    let status ← draw
    if status < 0 then pure none
    else do
      let peer ← mk .x509
      dropO .x509 peer
      if 400 ≤ status then pure (some 400) else pure (some 0)

/-- `registrar_requestvoucher`, /repo/src/brski/registrar/registrar_api.cpp:135-304, for the client certificate
`x`.  An exception (157) ends in the exception handler, status 505
(/repo/src/brski/http/httplib_wrapper.cpp:174-189).  Objects are released in the reverse order of their
construction. -/
def registrarRequest (lib : Lib) (mem : Mem) (x : Id) (pc ps add : Option (List Entry)) (body : Body) :
    Prog Int := do
  match ← initKv mem 0, ← initKv mem 1 with
  | some mi, some ms => do
    let m ← certMeta lib (some x)
    match m.1 with
    | false => do
      freeKv mi m.2.1
      freeKv ms m.2.2
      pure 400
    | true =>
      match ← yes with
      | false => do
        freeKv mi m.2.1
        freeKv ms m.2.2
        pure 400
      | true =>
        match ← certIssuer (some x) with
        | none => do
          freeKv mi m.2.1
          freeKv ms m.2.2
          pure 400
        | some iss =>
          match mem.bare with
          | false => undefined
          | true => do
            let hd ← fresh .mem
            let b := (← decode body).2
            match ← yes with
            | false => do
              freeBin ⟨hd, b⟩
              freeBin iss
              freeKv mi m.2.1
              freeKv ms m.2.2
              pure 500
            | true =>
              match ← fileToCert with
              | none => do
                freeBin ⟨hd, b⟩
                freeBin iss
                freeKv mi m.2.1
                freeKv ms m.2.2
                pure 500
              | some tls =>
                match ← fileToCert with
                | none => do
                  freeBin tls
                  freeBin ⟨hd, b⟩
                  freeBin iss
                  freeKv mi m.2.1
                  freeKv ms m.2.2
                  pure 500
                | some cert =>
                  match ← fileToKey with
                  | none => do
                    freeBin cert
                    freeBin tls
                    freeBin ⟨hd, b⟩
                    freeBin iss
                    freeKv mi m.2.1
                    freeKv ms m.2.2
                    pure 500
                  | some key =>
                    match ← loadCerts lib pc with
                    | (false, _) => do
                      freeBin key
                      freeBin cert
                      freeBin tls
                      freeBin ⟨hd, b⟩
                      freeBin iss
                      freeKv mi m.2.1
                      freeKv ms m.2.2
                      pure 500
                    | (true, pc) =>
                      match ← loadCerts lib ps with
                      | (false, _) => do
                        freeArrO pc
                        freeBin key
                        freeBin cert
                        freeBin tls
                        freeBin ⟨hd, b⟩
                        freeBin iss
                        freeKv mi m.2.1
                        freeKv ms m.2.2
                        pure 500
                      | (true, ps) =>
                        match ← loadCerts lib add with
                        | (false, _) => do
                          freeArrO ps
                          freeArrO pc
                          freeBin key
                          freeBin cert
                          freeBin tls
                          freeBin ⟨hd, b⟩
                          freeBin iss
                          freeKv mi m.2.1
                          freeKv ms m.2.2
                          pure 500
                        | (true, add) =>
                          match ← signRequest lib (lenO pc) (flagsO ps) (lenO add) with
                          | none => do
                            freeArrO add
                            freeArrO ps
                            freeArrO pc
                            freeBin key
                            freeBin cert
                            freeBin tls
                            freeBin ⟨hd, b⟩
                            freeBin iss
                            freeKv mi m.2.1
                            freeKv ms m.2.2
                            pure 400
                          | some cms => do
                            let r ← postRequest
                            freeBin cms
                            freeArrO add
                            freeArrO ps
                            freeArrO pc
                            freeBin key
                            freeBin cert
                            freeBin tls
                            freeBin ⟨hd, b⟩
                            freeBin iss
                            freeKv mi m.2.1
                            freeKv ms m.2.2
                            pure (match r with | none => 502 | some _ => 200)
  | _, _ => pure 505

/-- The release at the end of `registrar_est_simpleenroll`,
/repo/src/brski/registrar/registrar_api.cpp:422-424,428-430. -/
def enrollEnd (c : Option Id) (cert key : Option Bin) : Prog Unit := do
  dropO .mem c
  freeBinO cert
  freeBinO key

/-- `registrar_est_simpleenroll`, /repo/src/brski/registrar/registrar_api.cpp:354-432, for the client
certificate `x`. -/
def enroll (lib : Lib) (mem : Mem) (x : Id) (body : Body) : Prog Int := do
  match ← decode body with
  | (false, c) => do
    enrollEnd c none none
    pure 400
  | (true, c) =>
    match ← fileToCert with
    | none => do
      enrollEnd c none none
      pure 400
    | some cert =>
      match ← fileToKey with
      | none => do
        enrollEnd c (some cert) none
        pure 400
      | some key => do
        match ← signCert c with
        | (false, c) => do
          enrollEnd c (some cert) (some key)
          pure 400
        | (true, c) =>
          match ← mk .mem with
          | none => do
            enrollEnd c (some cert) (some key)
            pure 400
          | some text => do
            match ← mk .x509 with
            | none => pure ()
            | some sx => do
              saveLog lib mem x sx
              drop .x509 sx
            drop .mem text
            enrollEnd c (some cert) (some key)
            pure 200

end Brski.Res
