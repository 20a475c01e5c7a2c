import Verif.PropsRequest

/-!
# C29, C30, C31: the decision of the MASA
-/

namespace Brski.Props
open Outcome Brski.Voucher VoucherJson Crypto BoolTime Spec Request

/-- The voucher to be issued (specification for /repo/src/voucher/request.c:348-432; RFC 8995
section 5.6). -/
def issuedVoucher (serial : Bytes) (nonce : BinArr) (pin : Bytes) (expires : Tm) : Voucher :=
  { Voucher.init with
    expiresOn := expires, assertion := 3, serial := some serial, pinned := .of pin,
    revocation := false, nonce := nonce }

theorem issuedVoucher_ok {s pin : Bytes} {n : BinArr} {t : Tm} (hn : BinArr.Wf n)
    (h0 : (0 : UInt8) ∉ s) (hl : s.length ≤ 127) : VoucherOk (issuedVoucher s n pin t) := by
  refine ⟨⟨fun n h => ?_, fun x h => ?_⟩, rfl, rfl, hn, rfl, rfl⟩
  · cases h; exact .inr (.inr (.inr rfl))
  · cases h; exact ⟨by omega, h0⟩

theorem needSerial_eq (v : Voucher) : needSerial v = .ok v.serial := by
  unfold needSerial
  obtain ⟨c, e, a, s, i, p, r, n, lr, pr, px⟩ := v
  cases s <;> rfl

theorem wantArray_cases {v : Voucher} {a : Attr} {x : BinArr} (hx : getArray v a = some x)
    (hp : attrNonempty v a = arrayNonempty (some x)) (hw : BinArr.Wf x) :
    (x = .empty ∧ wantArray v a = none) ∨ ∃ b, x = .of b ∧ wantArray v a = some (.of b) := by
  unfold wantArray
  rw [hp, hx]
  rcases wf_cases hw with rfl | ⟨b, rfl⟩
  · left; exact ⟨rfl, by simp [nonempty_empty]⟩
  · right; exact ⟨b, rfl, by simp [nonempty_of]⟩

theorem want_nonce {v : Voucher} (hv : VoucherOk v) :
    (v.nonce = .empty ∧ wantArray v .nonce = none) ∨
      ∃ b, v.nonce = .of b ∧ wantArray v .nonce = some (.of b) :=
  wantArray_cases rfl rfl hv.2.2.2.1

theorem want_prior {v : Voucher} (hv : VoucherOk v) :
    (v.prior = .empty ∧ wantArray v .priorSigned = none) ∨
      ∃ b, v.prior = .of b ∧ wantArray v .priorSigned = some (.of b) :=
  wantArray_cases rfl rfl hv.2.2.2.2.1

theorem want_pinned {v : Voucher} (hv : VoucherOk v) :
    (v.pinned = .empty ∧ wantArray v .pinnedDomainCert = none) ∨
      ∃ b, v.pinned = .of b ∧ wantArray v .pinnedDomainCert = some (.of b) :=
  wantArray_cases rfl rfl hv.2.2.1

theorem want_nonce_spec {v : Voucher} (hv : VoucherOk v) :
    (∀ n, wantArray v .nonce = some n → ∃ b, n = .of b) ∧ (wantArray v .nonce).getD .empty = v.nonce := by
  rcases want_nonce hv with ⟨h1, h2⟩ | ⟨b, h1, h2⟩
  · rw [h2, h1]; exact ⟨fun n h => (by cases h), rfl⟩
  · rw [h2, h1]; exact ⟨fun n h => (by cases h; exact ⟨b, rfl⟩), rfl⟩

/-- The callback keeps its contract: it is defined and returns arrays with their bytes
(/repo/src/voucher/voucher.h, `voucher_req_fn`). -/
def CallbackOk (cb : Callback) : Prop :=
  ∀ s l, ∃ r, cb s l = .ok r ∧ ∀ x, r = some x → BinArr.Wf x

/-- Creation of the voucher: nothing, or signing exactly the specified voucher. -/
theorem masaVoucher_cases (O : Ossl) (rt : Rt) (serial : Bytes) (nonce : Option BinArr)
    (regCerts : Option CertList) (expires : Tm) (cb : Callback) (hcb : CallbackOk cb)
    (cert key : Option BinArr) (add : Option CertList) (h0 : (0 : UInt8) ∉ serial)
    (hl : serial.length ≤ 127) (hn : ∀ n, nonce = some n → ∃ b, n = .of b) :
    masaVoucher O rt serial nonce regCerts expires cb cert key add = .ok none ∨
    ∃ pin, cb serial regCerts = .ok (some (.of pin)) ∧
      masaVoucher O rt serial nonce regCerts expires cb cert key add =
        signCmsVoucher O (rt.json 2) (issuedVoucher serial (nonce.getD .empty) pin expires) cert key add := by
  unfold masaVoucher
  split
  · rcases setNonce_cases (rt.mem 0) Voucher.init nonce
      (fun n h => by obtain ⟨b, rfl⟩ := hn n h; exact wf_of b) with ⟨rfl, e⟩ | ⟨-, hset⟩
    · exact .inl (setOr_fail e)
    · rcases hset with e | ⟨w, e⟩
      · rw [setOr_true e, setOr_true (set_assertion _ _)]
        obtain ⟨r, hr, hw⟩ := hcb serial regCerts
        rw [hr, bind'_ok]
        cases r with
        | none => exact .inl rfl
        | some pin =>
          simp only
          rcases wf_cases (hw pin rfl) with rfl | ⟨p, rfl⟩
          · exact .inl (setOr_fail (array_refused _ _ _ (by simp) _ fun y h => by cases h; rfl))
          · rcases setOr_sets (sets_pinned (rt.mem 2) _ p) (k := fun v =>
              setOr (setVa (rt.mem 3) v .serialNumber (.str (some serial))) fun v =>
              setOr (setVa (rt.mem 4) v .revocationChecks (.int 0)) fun v =>
              setOr (setVa (rt.mem 5) v .expiresOn (.time (some expires))) fun v =>
              signCmsVoucher O (rt.json 2) v cert key add) with e | e
            · exact .inl e
            · rw [e]
              rcases setOr_sets (setStr_sets (rt.mem 3) _ serial h0 hl) (k := fun v =>
                setOr (setVa (rt.mem 4) v .revocationChecks (.int 0)) fun v =>
                setOr (setVa (rt.mem 5) v .expiresOn (.time (some expires))) fun v =>
                signCmsVoucher O (rt.json 2) v cert key add) with e | e
              · exact .inl e
              · rw [e, setOr_true (set_revocation _ _), setOr_true (set_expires _ _ _)]
                exact .inr ⟨p, rfl, rfl⟩
      · exact .inl (setOr_fail e)
  · exact .inl rfl

/-- What the MASA requires of a registrar request `rtext` with the pledge request inside
(specification for /repo/src/voucher/request.c:266-346; RFC 8995 section 5.5). -/
structure Consistent (O : Ossl) (rt : Rt) (c : Bytes) (rc rs pc ps : Option CertList) (vr pv : Voucher)
    (serial : Bytes) : Prop where
  registrar : ∃ text, Authentic O rc rs c text ∧ Reads (rt.json 0) text vr
  named : vr.serial = some serial
  pledge : ∃ prior text, vr.prior = .of prior ∧ Authentic O pc ps prior text ∧ Reads (rt.json 1) text pv
  same : pv.serial = some serial

theorem of_content {x : BinArr} {b : Bytes} (h : x = .of b) : Props.content x = b := by rw [h]; rfl

/-- **C29** Whenever the MASA issues a voucher, the registrar request passed verification under the
registrar trust material and names a serial number, the pledge request inside passed verification
under the pledge trust material and names the same serial number; the voucher is a signature over
exactly assertion proximity, this serial number, the certificate chosen by the callback (called
with this serial number and the signers of the registrar request), revocation checks off, the
given expiry and the nonce of the registrar request.  For every allocation outcome, every
verification scheme, every callback. -/
theorem C29_consistent (O : Ossl) (hsm : Small O) (rt : Rt) (req : Option BinArr) (expires : Tm)
    (cb : Callback) (hcb : CallbackOk cb) (cert key : Option BinArr) (rc rs pc ps add : Option CertList)
    (hq : ArgWf req) (hc : ArgWf cert) (hk : ArgWf key) (cms : Bytes)
    (h : signMasaPledgeVoucher O rt req (some expires) (some cb) cert key rc rs pc ps add = .ok (some cms)) :
    ∃ x vr pv serial signers pin, req = some x ∧
      Consistent O rt (Props.content x) rc rs pc ps vr pv serial ∧
      SignersOf O (Props.content x) signers ∧ cb serial signers = .ok (some (.of pin)) ∧
      SignedVoucher O cert key add (issuedVoucher serial vr.nonce pin expires) cms := by
  unfold signMasaPledgeVoucher at h
  simp only at h
  cases hv : verifyCmsVoucher O (rt.json 0) (rt.ok 0) req rc rs true with
  | ub => rw [hv] at h; cases h
  | ok q =>
    rw [hv, bind'_ok] at h
    cases q with
    | none => cases h
    | some q =>
      obtain ⟨vr, signers⟩ := q
      obtain ⟨x, text, rfl, hA, hR, hok, hsg⟩ := verifyCmsVoucher_sound O hsm (rt.json 0) (rt.ok 0) req hq
        rc rs true vr signers hv
      simp only [needSerial_eq, bind'_ok] at h
      cases hs : vr.serial with
      | none => rw [hs] at h; cases h
      | some serial =>
        rw [hs] at h
        simp only at h
        rcases want_prior hok with ⟨-, hp⟩ | ⟨prior, hpr, hp⟩
        · rw [hp] at h; cases h
        · rw [hp] at h
          simp only at h
          cases hv2 : verifyCmsVoucher O (rt.json 1) (rt.ok 1) (some (.of prior)) pc ps false with
          | ub => rw [hv2] at h; cases h
          | ok q =>
            rw [hv2, bind'_ok] at h
            cases q with
            | none => cases h
            | some q =>
              obtain ⟨pv, l⟩ := q
              obtain ⟨x2, text2, hx2, hA2, hR2, hok2, -⟩ := verifyCmsVoucher_sound O hsm (rt.json 1) (rt.ok 1) _
                (fun y h => by cases h; exact wf_of prior) pc ps false pv l hv2
              cases hx2
              simp only at h
              cases hs2 : pv.serial with
              | none => rw [hs2] at h; cases h
              | some pserial =>
                rw [hs2] at h
                simp only at h
                split at h
                · cases h
                · rename_i he
                  obtain rfl : serial = pserial := by simpa using he
                  obtain ⟨hn1, hn2⟩ := want_nonce_spec hok
                  have hser := serial_ok hok hs
                  rcases masaVoucher_cases O rt serial (wantArray vr .nonce) signers expires cb hcb cert key add
                    hser.1 hser.2 hn1 with e | ⟨pin, e1, e⟩
                  · rw [e] at h; cases h
                  · rw [e, hn2] at h
                    rcases signCmsVoucher_cases O (rt.json 2) _ (issuedVoucher_ok (pin := pin) (t := expires)
                      hok.2.2.2.1 hser.1 hser.2) cert key hc hk add with e' | ⟨cms', hsig, e'⟩
                    · rw [e'] at h; cases h
                    · rw [e'] at h
                      cases h
                      exact ⟨x, vr, pv, serial, signers, pin, rfl,
                        ⟨⟨text, hA, hR⟩, hs, ⟨prior, text2, hpr, hA2, hR2⟩, hs2⟩, hsg rfl, e1, hsig⟩

/-- **C29**, definedness: when the vouchers can be allocated the MASA call is always defined. -/
theorem C29_defined (O : Ossl) (hsm : Small O) (rt : Rt) (hal0 : Alloc (rt.json 0)) (hal1 : Alloc (rt.json 1))
    (req : Option BinArr) (expires : Option Tm)
    (cb : Option Callback) (hcb : ∀ f, cb = some f → CallbackOk f) (cert key : Option BinArr)
    (rc rs pc ps add : Option CertList) (hq : ArgWf req) (hc : ArgWf cert) (hk : ArgWf key) :
    (signMasaPledgeVoucher O rt req expires cb cert key rc rs pc ps add).Defined := by
  unfold signMasaPledgeVoucher
  cases expires with
  | none => exact ⟨_, rfl⟩
  | some expires =>
    cases cb with
    | none => exact ⟨_, rfl⟩
    | some cb =>
      simp only
      rcases verifyCmsVoucher_cases O hsm (rt.json 0) hal0 (rt.ok 0) req hq rc rs true with
        e | ⟨x, text, vr, signers, rfl, hA, hR, hok, -, e⟩
      · rw [e]; exact ⟨_, rfl⟩
      · rw [e, bind'_ok]
        simp only [needSerial_eq, bind'_ok]
        cases hs : vr.serial with
        | none => exact ⟨_, rfl⟩
        | some serial =>
          simp only
          rcases want_prior hok with ⟨-, hp⟩ | ⟨prior, hpr, hp⟩
          · rw [hp]; exact ⟨_, rfl⟩
          · rw [hp]
            simp only
            rcases verifyCmsVoucher_cases O hsm (rt.json 1) hal1 (rt.ok 1) (some (.of prior))
              (fun y h => by cases h; exact wf_of prior) pc ps false with
              e | ⟨x2, text2, pv, l, -, hA2, hR2, hok2, -, e⟩
            · rw [e]; exact ⟨_, rfl⟩
            · rw [e, bind'_ok]
              simp only
              cases hs2 : pv.serial with
              | none => exact ⟨_, rfl⟩
              | some pserial =>
                simp only
                split
                · exact ⟨_, rfl⟩
                · obtain ⟨hn1, hn2⟩ := want_nonce_spec hok
                  have hser := serial_ok hok2 hs2
                  rcases masaVoucher_cases O rt pserial (wantArray vr .nonce) signers expires cb (hcb _ rfl) cert
                    key add hser.1 hser.2 hn1 with e | ⟨pin, e1, e⟩
                  · exact ⟨_, e⟩
                  · rw [e, hn2]
                    rcases signCmsVoucher_cases O (rt.json 2) _ (issuedVoucher_ok (pin := pin) (t := expires)
                      hok.2.2.2.1 hser.1 hser.2) cert key hc hk add with e' | ⟨cms', hsig, e'⟩
                    · exact ⟨_, e'⟩
                    · exact ⟨_, e'⟩

/-- With memory available a consistent request leads to a voucher (if the signature succeeds). -/
theorem masa_full (O : Ossl) (rt : Rt) (hf : NoFail rt) (c : Bytes) (expires : Tm) (cb : Callback)
    (cert key : Option BinArr) (rc rs pc ps add : Option CertList) (vr pv : Voucher) (serial pin : Bytes)
    (signers : Option CertList) (hsm : Small O) (hcon : Consistent O rt c rc rs pc ps vr pv serial)
    (hsg : SignersOf O c signers) (hpin : cb serial signers = .ok (some (.of pin))) :
    signMasaPledgeVoucher O rt (some (.of c)) (some expires) (some cb) cert key rc rs pc ps add =
      signCmsVoucher O (rt.json 2) (issuedVoucher serial vr.nonce pin expires) cert key add := by
  obtain ⟨⟨text, hA, hne, hd⟩, hs, ⟨prior, text2, hpr, hA2, hne2, hd2⟩, hs2⟩ := hcon
  have hok := deserialize_voucherOk _ _ (by have := authentic_small hsm hA; omega) _ hd
  have hser := serial_ok hok hs
  obtain ⟨hn1, hn2⟩ := want_nonce_spec hok
  have hwp : wantArray vr .priorSigned = some (.of prior) := by
    rcases want_prior hok with ⟨h, -⟩ | ⟨b, h, h'⟩
    · rw [hpr] at h; simp [BinArr.of, BinArr.empty] at h
    · rw [h', ← h, hpr]
  unfold signMasaPledgeVoucher
  simp only [verifyCmsVoucher_full_out O (rt.json 0) (rt.ok 0) (hf.ok 0) c text rc rs signers vr hA hne hd hsg,
    bind'_ok, needSerial_eq, hs, hwp,
    verifyCmsVoucher_full O (rt.json 1) (rt.ok 1) (hf.ok 1) prior text2 pc ps pv hA2 hne2 hd2, hs2, ne_eq,
    not_true, if_false]
  unfold masaVoucher
  rw [if_pos (hf.ok 2 0), setOr_true (setNonce_succ _ (hf.mem 0) _ _ hn1), setOr_true (set_assertion _ _), hpin,
    bind'_ok]
  simp only
  rw [setOr_true (succ_pinned _ _ _ (hf.mem 2)), setOr_true (setStr_succ _ (hf.mem 3) _ _ hser.1 hser.2),
    setOr_true (set_revocation _ _), setOr_true (set_expires _ _ _), ← hn2]
  rfl

/-! ## Instances -/

/-- A request of registrar 7 with its own nonce `AQ==` around a pledge request of pledge 3, for
instances: the inner message carries nonce `CQ==`, asserts `logged` and names no registrar. -/
def demoInner : Bytes := 3 :: str "{\"ietf-voucher:voucher\":{\"assertion\":\"logged\",\"serial-number\":\"S1\",\"nonce\":\"CQ==\"}}"

/-- The registrar request around it. -/
def demoRequest : Bytes :=
  7 :: (str "{\"ietf-voucher:voucher\":{\"serial-number\":\"S1\",\"nonce\":\"AQ==\",\"prior-signed-voucher-request\":\"" ++
    rfc4648 demoInner ++ str "\"}}")

/-- A callback that pins certificate 8 (/repo/src/brski/masa/masa_api.cpp:27-55). -/
def demoCb : Callback := fun _ _ => .ok (some (.of [8]))

theorem demoCb_ok : CallbackOk demoCb := fun _ _ => ⟨_, rfl, fun x h => by cases h; exact wf_of [8]⟩

/-- Trust material of the instance: registrar 7, pledge 3. -/
def demoIssue : Outcome (Option Bytes) :=
  signMasaPledgeVoucher toy Rt.plain (some (.of demoRequest)) (some ⟨0, 0, 0, 1, 0, 130, 0, 0, 0⟩) (some demoCb)
    (some (.of [1])) (some (.of [1])) none (some [([7], 0)]) none (some [([3], 0)]) none

/-- The issued voucher of the instance. -/
def demoIssuedText : Bytes :=
  str "{\"ietf-voucher:voucher\":{\"expires-on\":\"2030-01-01T00:00:00Z\",\"assertion\":\"proximity\",\"serial-number\":\"S1\",\"pinned-domain-cert\":\"CA==\",\"domain-cert-revocation-checks\":false,\"nonce\":\"AQ==\"}}"

/-- non-vacuity of C29: a voucher is issued. -/
theorem demoIssue_eq : demoIssue = .ok (some (1 :: demoIssuedText)) := by decide +kernel

/-! ## C30 -/

/-- **C30** as stated: a reader of an issued voucher finds the nonce of the pledge request. -/
def C30_statement : Prop :=
  ∀ (O : Ossl) (rt : Rt) (env : Env) (c : Bytes) (expires : Tm) (cb : Callback) (cert key : Option BinArr)
    (rc rs pc ps add : Option CertList) (cms : Bytes) (m : O.Cms) (v vr pv : Voucher) (serial : Bytes),
    Small O → Faithful O → NoFail rt → CallbackOk cb →
    signMasaPledgeVoucher O rt (some (.of c)) (some expires) (some cb) cert key rc rs pc ps add = .ok (some cms) →
    Consistent O rt c rc rs pc ps vr pv serial →
    O.d2iCms cms = some m → Reads env (O.content m) v → v.nonce = pv.nonce

/-- The registrar request of the instance as read. -/
def demoVr : Voucher :=
  { Voucher.init with serial := some (str "S1"), nonce := .of [1], prior := .of demoInner }

/-- The pledge request of the instance as read. -/
def demoPv : Voucher :=
  { Voucher.init with assertion := 2, serial := some (str "S1"), nonce := .of [9] }

theorem toy_authentic (c : UInt8) (text : Bytes) (hl : text.length < 2 ^ 31) :
    Authentic toy none (some [([c], 0)]) (c :: text) text := by
  refine ⟨(c, text), rfl, ?_, [], rfl, rfl, fun l h => ?_⟩
  · show text.take _ = _
    exact List.take_of_length_le (by omega)
  · cases h
    exact ⟨[(c : UInt8)], [], .cert rfl .nil, by simp [toy]⟩

theorem demo_consistent : Consistent toy Rt.plain demoRequest none (some [([7], 0)]) none (some [([3], 0)])
    demoVr demoPv (str "S1") where
  registrar := ⟨_, toy_authentic 7 _ (by decide +kernel), by decide +kernel, by decide +kernel⟩
  named := rfl
  pledge := ⟨demoInner, _, rfl, toy_authentic 3 _ (by decide +kernel), by decide +kernel, by decide +kernel⟩
  same := rfl

/-- The code violates C30: the nonce is taken from the registrar's part of the request
(/repo/src/voucher/request.c:292-300,353-359), so that a registrar can have a voucher issued for a
nonce the pledge never sent. -/
theorem C30_violated : ¬ C30_statement := by
  intro h
  have := h toy Rt.plain Env.plain demoRequest ⟨0, 0, 0, 1, 0, 130, 0, 0, 0⟩ demoCb (some (.of [1])) (some (.of [1]))
    none (some [([7], 0)]) none (some [([3], 0)]) none (1 :: demoIssuedText) (1, demoIssuedText)
    { Voucher.init with
      expiresOn := ⟨0, 0, 0, 1, 0, 130, 2, 0, 0⟩, assertion := 3, serial := some (str "S1"), pinned := .of [8],
      nonce := .of [1] }
    demoVr demoPv (str "S1") toy_small toy_faithful noFail_plain demoCb_ok demoIssue_eq demo_consistent rfl
    ⟨by decide +kernel, by decide +kernel⟩
  revert this
  decide

/-! ## C31 -/

/-- **C31** as stated: a voucher (which always asserts proximity) is issued only if the pledge
request asserts proximity and names a certificate of the registrar that signed the request. -/
def C31_statement : Prop :=
  ∀ (O : Ossl) (rt : Rt) (c : Bytes) (expires : Tm) (cb : Callback) (cert key : Option BinArr)
    (rc rs pc ps add : Option CertList) (cms : Bytes) (vr pv : Voucher) (serial : Bytes) (signers : Option CertList),
    Small O → Faithful O → NoFail rt → CallbackOk cb →
    signMasaPledgeVoucher O rt (some (.of c)) (some expires) (some cb) cert key rc rs pc ps add = .ok (some cms) →
    Consistent O rt c rc rs pc ps vr pv serial → SignersOf O c signers →
    pv.assertion = 3 ∧ ∃ l, signers = some l ∧ ∃ e ∈ l, pv.proximity = .of e.1

/-- The code violates C31: neither the assertion nor the proximity certificate of the pledge
request is looked at (/repo/src/voucher/request.c:317-346). -/
theorem C31_violated : ¬ C31_statement := by
  intro h
  have := h toy Rt.plain demoRequest ⟨0, 0, 0, 1, 0, 130, 0, 0, 0⟩ demoCb (some (.of [1])) (some (.of [1]))
    none (some [([7], 0)]) none (some [([3], 0)]) none (1 :: demoIssuedText)
    demoVr demoPv (str "S1") (some [([7], 0)]) toy_small toy_faithful noFail_plain demoCb_ok demoIssue_eq
    demo_consistent
    ⟨(7, _), rfl, .inr ⟨by simp [toy], [[7]], rfl, rfl⟩⟩
  revert this
  exact fun h => absurd h.1 (by decide)

end Brski.Props
