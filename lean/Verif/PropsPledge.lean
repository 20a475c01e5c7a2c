import Verif.PropsMasa

/-!
# C32, C33, C34: the decision of the pledge; C37, C38: trust configuration
-/

namespace Brski.Props
open Outcome Brski.Voucher VoucherJson Crypto BoolTime Spec Request

/-- The chain check of the registrar certificate: both certificates and the domain store decode and a
chain is built from the registrar certificate with the pinned certificate as additional (untrusted)
certificate.  Specification for /repo/src/voucher/crypto_ossl.c:1299-1356 as called at
/repo/src/voucher/request.c:553-560. -/
def ChainBuilt (O : Ossl) (reg pin : Bytes) (store : Option CertList) : Prop :=
  ∃ x p, O.d2iX509 reg = some x ∧ O.d2iX509 pin = some p ∧
    match store with
    | none => O.buildChain x [p] none ≠ []
    | some l => ∃ xs rs, TrustList O l xs rs ∧ O.buildChain x [p] (some (xs, rs)) ≠ []

theorem verifyCert_sound (O : Ossl) (ok : Nat → Bool) (reg pin : Bytes) (f : Int) (store : Option CertList)
    (h : verifyCert O ok (some reg) (some [(pin, f)]) store = true) : ChainBuilt O reg pin store := by
  unfold verifyCert at h
  simp only at h
  cases hx : O.d2iX509 reg with
  | none => rw [hx] at h; cases h
  | some x =>
    rw [hx] at h
    simp only at h
    cases hp : O.d2iX509 pin with
    | none => simp only [certStack, hp, reduceCtorEq, Bool.false_eq_true] at h
    | some p =>
      simp only [certStack, hp, Option.map_some] at h
      cases hst : optStore O ok store with
      | none => rw [hst] at h; cases h
      | some st =>
        rw [hst] at h
        refine ⟨x, p, hx, hp, ?_⟩
        rcases optStore_sound O ok store st hst with ⟨rfl, rfl⟩ | ⟨l, xs, rs, rfl, ht, rfl⟩
        · simpa using h
        · exact ⟨xs, rs, ht, by simpa using h⟩

theorem verifyCert_complete (O : Ossl) (ok : Nat → Bool) (hok : ∀ k, ok k = true) (reg pin : Bytes) (f : Int)
    (store : Option CertList) (h : ChainBuilt O reg pin store) :
    verifyCert O ok (some reg) (some [(pin, f)]) store = true := by
  obtain ⟨x, p, hx, hp, h⟩ := h
  unfold verifyCert
  simp only [hx, certStack, hp, Option.map_some]
  cases store with
  | none => simpa [optStore] using h
  | some l =>
    obtain ⟨xs, rs, ht, h⟩ := h
    rw [optStore_complete O ok hok ht]
    simpa using h

/-- The checks on the pinned certificate: failure, or the voucher's certificate is returned after
the chain check. -/
theorem checkPinned_cases (O : Ossl) (rt : Rt) (v : Voucher) (hv : VoucherOk v) (reg : BinArr)
    (hr : BinArr.Wf reg) (store : Option CertList) :
    checkPinned O rt v (some reg) store = .ok none ∨
    ∃ pin r, v.pinned = .of pin ∧ reg = .of r ∧ ChainBuilt O r pin store ∧
      checkPinned O rt v (some reg) store = .ok (some (.of pin)) := by
  unfold checkPinned
  rcases want_pinned hv with ⟨-, hp⟩ | ⟨pin, hpin, hp⟩
  · rw [hp]; exact .inl rfl
  · rw [hp]
    simp only
    rcases copy_cases (rt.mem 0) pin with e | e
    · rw [e, bind'_ok]
      simp only [BinArr.of, if_true, List.take_length]
      split
      · rcases wf_cases hr with rfl | ⟨r, rfl⟩
        · left
          simp [BinArr.empty, verifyCert]
        · simp only [BinArr.of]
          rw [show arrBytes ⟨some r, r.length⟩ = _ from arrBytes_of r]
          simp only [bind'_ok]
          split
          · rename_i hvc
            rcases copy_cases (rt.mem 1) pin with e | e
            · right
              refine ⟨pin, r, hpin, rfl, verifyCert_sound O _ r pin 0 store hvc, ?_⟩
              rw [show copyBinaryArray (rt.mem 1) ⟨some pin, pin.length⟩ = _ from e]; rfl
            · left
              rw [show copyBinaryArray (rt.mem 1) ⟨some pin, pin.length⟩ = _ from e]; rfl
          · exact .inl rfl
      · exact .inl rfl
    · rw [e, bind'_ok]; exact .inl rfl

theorem checkPinned_full (O : Ossl) (rt : Rt) (hf : NoFail rt) (v : Voucher) (hv : VoucherOk v) (r pin : Bytes)
    (hpin : v.pinned = .of pin) (store : Option CertList) (h : ChainBuilt O r pin store) :
    checkPinned O rt v (some (.of r)) store = .ok (some (.of pin)) := by
  have hp : wantArray v .pinnedDomainCert = some (.of pin) := by
    rcases want_pinned hv with ⟨h, -⟩ | ⟨b, h, h'⟩
    · rw [hpin] at h; simp [BinArr.of, BinArr.empty] at h
    · rw [h', ← h, hpin]
  unfold checkPinned
  rw [hp]
  simp only [show copyBinaryArray (rt.mem 0) (.of pin) = _ from copy_ok (hf.mem 0) pin, bind'_ok, if_true,
    List.take_length, hf.ok]
  simp only [BinArr.of, show arrBytes ⟨some r, r.length⟩ = _ from arrBytes_of r, bind'_ok,
    verifyCert_complete O _ (hf.ok 2) r pin 0 store h, if_true, copy_ok (hf.mem 1) pin]

/-- What the pledge has to check (specification for /repo/src/voucher/request.c:448-581; RFC 8995
section 5.6.1): signature, serial number, nonce if one was sent, a pinned certificate. -/
structure Acceptable (O : Ossl) (rt : Rt) (c : Bytes) (certs store : Option CertList) (serial : Bytes)
    (nonce : Option BinArr) (v : Voucher) (pin : Bytes) : Prop where
  signed : ∃ text, Authentic O certs store c text ∧ Reads (rt.json 0) text v
  serial_eq : v.serial = some serial
  nonce_eq : ∀ n, nonce = some n → ∃ b, v.nonce = .of b ∧ Props.content n = b
  pinned : v.pinned = .of pin

/-- The pledge's call after the voucher `v` was read. -/
theorem pledge_check (O : Ossl) (rt : Rt) (x : BinArr) (text serial : Bytes) (nonce : Option BinArr) (reg : BinArr)
    (dom certs store : Option CertList) (out : Bool) (v : Voucher) (l : Option CertList) (hv : VoucherOk v)
    (hA : Authentic O certs store (Props.content x) text) (hR : Reads (rt.json 0) text v)
    (hn : ArgWf nonce) (hr : BinArr.Wf reg)
    (e : verifyCmsVoucher O (rt.json 0) (rt.ok 0) (some x) certs store out = .ok (some (v, l))) :
    verifyMasaPledgeVoucher O rt (some x) (some serial) nonce (some reg) dom certs store out = .ok none ∨
    ∃ pin r, reg = .of r ∧ Acceptable O rt (Props.content x) certs store serial nonce v pin ∧
      ChainBuilt O r pin dom ∧
      verifyMasaPledgeVoucher O rt (some x) (some serial) nonce (some reg) dom certs store out =
        .ok (some (.of pin)) := by
  unfold verifyMasaPledgeVoucher
  simp only [e, bind'_ok, needSerial_eq]
  cases hs : v.serial with
  | none => exact .inl rfl
  | some s =>
    simp only
    split
    · exact .inl rfl
    · rename_i he
      obtain rfl : serial = s := by simpa using he
      cases nonce with
      | none =>
        simp only
        rcases checkPinned_cases O rt v hv reg hr dom with e2 | ⟨pin, r, h1, h2, h3, e2⟩
        · exact .inl e2
        · exact .inr ⟨pin, r, h2, ⟨⟨text, hA, hR⟩, hs, fun n h => (by cases h), h1⟩, h3, e2⟩
      | some n =>
        simp only
        rcases want_nonce hv with ⟨-, hw⟩ | ⟨b, hb, hw⟩
        · rw [hw]; exact .inl rfl
        · rw [hw]
          simp only
          obtain ⟨q, q1, q2⟩ := compare_one (hn n rfl) (wf_of b)
          rw [q1, bind'_ok]
          by_cases hq : Props.content n = b
          · rw [if_neg (by rw [q2, hq]; simp [Props.content, BinArr.of])]
            rcases checkPinned_cases O rt v hv reg hr dom with e2 | ⟨pin, r, h1, h2, h3, e2⟩
            · exact .inl e2
            · exact .inr ⟨pin, r, h2, ⟨⟨text, hA, hR⟩, hs, fun n' h => (by cases h; exact ⟨b, hb, hq⟩), h1⟩, h3, e2⟩
          · rw [if_pos (q2.2 (by simpa [Props.content, BinArr.of] using hq))]
            exact .inl rfl

/-- **C32** The pledge's call accepts only a voucher that passes verification, has the pledge's
serial number, has the pledge's nonce whenever one was supplied, and contains a pinned certificate,
and then returns exactly this certificate.  For every allocation outcome, every verification
scheme and all arguments within the contract (the registrar certificate is given). -/
theorem C32_acceptance (O : Ossl) (hsm : Small O) (rt : Rt) (cms : Option BinArr) (serial : Option Bytes)
    (nonce : Option BinArr) (reg : BinArr) (dom certs store : Option CertList) (out : Bool) (hc : ArgWf cms)
    (hn : ArgWf nonce) (hr : BinArr.Wf reg) (pinned : BinArr)
    (h : verifyMasaPledgeVoucher O rt cms serial nonce (some reg) dom certs store out = .ok (some pinned)) :
    ∃ x s v pin r, cms = some x ∧ serial = some s ∧ reg = .of r ∧
      Acceptable O rt (Props.content x) certs store s nonce v pin ∧ ChainBuilt O r pin dom ∧
      pinned = .of pin := by
  cases serial with
  | none => cases h
  | some s =>
    cases hv : verifyCmsVoucher O (rt.json 0) (rt.ok 0) cms certs store out with
    | ub => simp only [verifyMasaPledgeVoucher, hv] at h; cases h
    | ok q =>
      cases q with
      | none => simp only [verifyMasaPledgeVoucher, hv] at h; cases h
      | some q =>
        obtain ⟨v, l⟩ := q
        obtain ⟨x, text, rfl, hA, hR, hok, -⟩ := verifyCmsVoucher_sound O hsm (rt.json 0) (rt.ok 0) cms hc
          certs store out v l hv
        rcases pledge_check O rt x text s nonce reg dom certs store out v l hok hA hR hn hr hv with
          e | ⟨pin, r, h1, h2, h3, e⟩
        · rw [e] at h; cases h
        · rw [e] at h
          cases h
          exact ⟨x, s, v, pin, r, rfl, rfl, h1, h2, h3, rfl⟩

/-- **C32**, "on every other input -1": the call is always defined (when the voucher can be
allocated), so that it returns -1 whenever it does not accept. -/
theorem C32_defined (O : Ossl) (hsm : Small O) (rt : Rt) (hal : Alloc (rt.json 0)) (cms : Option BinArr)
    (serial : Option Bytes) (nonce : Option BinArr) (reg : BinArr) (dom certs store : Option CertList)
    (out : Bool) (hc : ArgWf cms) (hn : ArgWf nonce) (hr : BinArr.Wf reg) :
    (verifyMasaPledgeVoucher O rt cms serial nonce (some reg) dom certs store out).Defined := by
  cases serial with
  | none => exact ⟨_, rfl⟩
  | some s =>
    rcases verifyCmsVoucher_cases O hsm (rt.json 0) hal (rt.ok 0) cms hc certs store out with
      e | ⟨x, text, v, l, rfl, hA, hR, hok, -, e⟩
    · simp only [verifyMasaPledgeVoucher, e]; exact ⟨_, rfl⟩
    · rcases pledge_check O rt x text s nonce reg dom certs store out v l hok hA hR hn hr e with
        e | ⟨pin, r, -, -, -, e⟩
      · exact ⟨_, e⟩
      · exact ⟨_, e⟩

/-- **C32**, completeness: with memory available every acceptable voucher whose certificate chain is
built is accepted. -/
theorem C32_complete (O : Ossl) (hsm : Small O) (rt : Rt) (hf : NoFail rt) (c r serial pin : Bytes)
    (nonce : Option BinArr) (dom certs store : Option CertList) (hn : ArgWf nonce) (v : Voucher)
    (hacc : Acceptable O rt c certs store serial nonce v pin) (hch : ChainBuilt O r pin dom) :
    verifyMasaPledgeVoucher O rt (some (.of c)) (some serial) nonce (some (.of r)) dom certs store false =
      .ok (some (.of pin)) := by
  obtain ⟨⟨text, hA, hne, hd⟩, hs, hno, hp⟩ := hacc
  have hok := deserialize_voucherOk _ _ (by have := authentic_small hsm hA; omega) _ hd
  unfold verifyMasaPledgeVoucher
  simp only [verifyCmsVoucher_full O (rt.json 0) (rt.ok 0) (hf.ok 0) c text certs store v hA hne hd, bind'_ok,
    needSerial_eq, hs, ne_eq, not_true, if_false]
  cases nonce with
  | none => exact checkPinned_full O rt hf v hok r pin hp dom hch
  | some n =>
    obtain ⟨b, hb, hcb⟩ := hno n rfl
    have hw : wantArray v .nonce = some (.of b) := by
      rcases want_nonce hok with ⟨h, -⟩ | ⟨b', h, h'⟩
      · rw [hb] at h; simp [BinArr.of, BinArr.empty] at h
      · rw [h', ← h, hb]
    simp only [hw]
    obtain ⟨q, q1, q2⟩ := compare_one (hn n rfl) (wf_of b)
    rw [q1, bind'_ok, if_neg (by rw [q2, hcb]; simp [Props.content, BinArr.of])]
    exact checkPinned_full O rt hf v hok r pin hp dom hch

/-- Precondition of C32, sharp: without a registrar certificate (NULL) an otherwise acceptable voucher makes
`verify_masa_pledge_voucher` dereference NULL (/repo/src/voucher/request.c:556-559). -/
theorem C32_null_registrar (O : Ossl) (hsm : Small O) (rt : Rt) (hf : NoFail rt) (c serial pin : Bytes)
    (nonce : Option BinArr) (dom certs store : Option CertList) (hn : ArgWf nonce) (v : Voucher)
    (hacc : Acceptable O rt c certs store serial nonce v pin) :
    verifyMasaPledgeVoucher O rt (some (.of c)) (some serial) nonce none dom certs store false = .ub := by
  obtain ⟨⟨text, hA, hne, hd⟩, hs, hno, hp⟩ := hacc
  have hok := deserialize_voucherOk _ _ (by have := authentic_small hsm hA; omega) _ hd
  have hck : checkPinned O rt v none dom = .ub := by
    have hw : wantArray v .pinnedDomainCert = some (.of pin) := by
      rcases want_pinned hok with ⟨h, -⟩ | ⟨b, h, h'⟩
      · rw [hp] at h; simp [BinArr.of, BinArr.empty] at h
      · rw [h', ← h, hp]
    unfold checkPinned
    simp only [hw]
    unfold copyBinaryArray memdup
    cases hm : (rt.mem 0).malloc pin.length with
    | none => exact absurd hm (hf.mem 0 _)
    | some b => simp [BinArr.of, hm, hf.ok 1 0]
  unfold verifyMasaPledgeVoucher
  simp only [verifyCmsVoucher_full O (rt.json 0) (rt.ok 0) (hf.ok 0) c text certs store v hA hne hd, bind'_ok,
    needSerial_eq, hs, ne_eq, not_true, if_false]
  cases nonce with
  | none => exact hck
  | some n =>
    obtain ⟨b, hb, hcb⟩ := hno n rfl
    have hw : wantArray v .nonce = some (.of b) := by
      rcases want_nonce hok with ⟨h, -⟩ | ⟨b', h, h'⟩
      · rw [hb] at h; simp [BinArr.of, BinArr.empty] at h
      · rw [h', ← h, hb]
    simp only [hw]
    obtain ⟨q, q1, q2⟩ := compare_one (hn n rfl) (wf_of b)
    rw [q1, bind'_ok, if_neg (by rw [q2, hcb]; simp [Props.content, BinArr.of])]
    exact hck

/-- The voucher of the instance as read by the pledge. -/
def demoIssued : Voucher :=
  { Voucher.init with
    expiresOn := ⟨0, 0, 0, 1, 0, 130, 2, 0, 0⟩, assertion := 3, serial := some (str "S1"), pinned := .of [8],
    nonce := .of [1] }

theorem demoIssued_reads : Reads Env.plain demoIssuedText demoIssued := ⟨by decide +kernel, by decide +kernel⟩

/-- non-vacuity of C32: the voucher of the instance is accepted for the right serial number and
nonce. -/
example : verifyMasaPledgeVoucher toy Rt.plain (some (.of (1 :: demoIssuedText))) (some (str "S1"))
    (some (.of [1])) (some (.of [7])) none none (some [([1], 0)]) false = .ok (some (.of [8])) := by
  decide +kernel

/-- … and refused for another nonce. -/
example : verifyMasaPledgeVoucher toy Rt.plain (some (.of (1 :: demoIssuedText))) (some (str "S1"))
    (some (.of [2])) (some (.of [7])) none none (some [([1], 0)]) false = .ok none := by
  decide +kernel

theorem demo_acceptable : Acceptable toy Rt.plain (1 :: demoIssuedText) none (some [([1], 0)]) (str "S1")
    (some (.of [1])) demoIssued [8] where
  signed := ⟨_, toy_authentic 1 _ (by decide +kernel), demoIssued_reads⟩
  serial_eq := rfl
  nonce_eq := fun n h => by cases h; exact ⟨[1], rfl, rfl⟩
  pinned := rfl

/-- non-vacuity of C32_null_registrar. -/
example : verifyMasaPledgeVoucher toy Rt.plain (some (.of (1 :: demoIssuedText))) (some (str "S1")) (some (.of [1])) none
    none none (some [([1], 0)]) false = .ub :=
  C32_null_registrar toy toy_small Rt.plain noFail_plain _ _ _ _ _ _ _ (fun y hy => by cases hy; exact wf_of [1]) _
    demo_acceptable

/-! ## C33 -/

/-- Documented behaviour of `X509_build_chain`: "If store is NULL it builds the chain as far down as
possible, ignoring errors", the first element being the given certificate (used at
/repo/src/voucher/crypto_ossl.c:1335-1336). -/
def DocumentedChain (O : Ossl) : Prop := ∀ x cs, ∃ l, O.buildChain x cs none = x :: l

theorem toy_documented : DocumentedChain toy := fun x _ => ⟨[], rfl⟩

/-- **C33** as stated: an accepting pledge has validated the registrar certificate with the pinned
certificate as the trust anchor. -/
def C33_statement : Prop :=
  ∀ (O : Ossl) (rt : Rt) (c r serial : Bytes) (nonce : Option BinArr) (dom certs store : Option CertList)
    (out : Bool) (pin : Bytes) (x p : O.Cert), Small O → DocumentedChain O → NoFail rt → ArgWf nonce →
    verifyMasaPledgeVoucher O rt (some (.of c)) (some serial) nonce (some (.of r)) dom certs store out =
      .ok (some (.of pin)) →
    O.d2iX509 r = some x → O.d2iX509 pin = some p → O.buildChain x [] (some ([p], [])) ≠ []

/-- With no domain store (as the pledge calls it, /repo/src/brski/pledge/pledge_request.cpp:67-69) the
registrar certificate plays no role at all: every certificate that decodes is accepted. -/
theorem C33_any_registrar (O : Ossl) (hsm : Small O) (hdoc : DocumentedChain O) (rt : Rt) (hf : NoFail rt)
    (c r serial pin : Bytes) (nonce : Option BinArr) (certs store : Option CertList) (hn : ArgWf nonce)
    (v : Voucher) (hacc : Acceptable O rt c certs store serial nonce v pin) (x p : O.Cert)
    (hx : O.d2iX509 r = some x) (hp : O.d2iX509 pin = some p) :
    verifyMasaPledgeVoucher O rt (some (.of c)) (some serial) nonce (some (.of r)) none certs store false =
      .ok (some (.of pin)) := by
  refine C32_complete O hsm rt hf c r serial pin nonce none certs store hn v hacc ⟨x, p, hx, hp, ?_⟩
  obtain ⟨l, hl⟩ := hdoc x [p]
  simp [hl]

/-- The code violates C33: a pledge talking to registrar 66 accepts a voucher that pins
certificate 8. -/
theorem C33_violated : ¬ C33_statement := by
  intro h
  have h1 := C33_any_registrar toy toy_small toy_documented Rt.plain noFail_plain (1 :: demoIssuedText) [66] (str "S1") [8]
    (some (.of [1])) none (some [([1], 0)]) (fun n h => by cases h; exact wf_of [1]) demoIssued demo_acceptable
    (66 : UInt8) (8 : UInt8) rfl rfl
  have h2 := h toy Rt.plain (1 :: demoIssuedText) [66] (str "S1") (some (.of [1])) none none (some [([1], 0)]) false
    [8] (66 : UInt8) (8 : UInt8) toy_small toy_documented noFail_plain (fun n h => by cases h; exact wf_of [1]) h1 rfl rfl
  exact h2 (by simp [toy])

/-- **C33**, the part that holds: with a domain store the registrar certificate chains to this
store, the pinned certificate being available as an intermediate certificate.  Missing: without a
store nothing is checked, and the pinned certificate is never the trust anchor. -/
theorem C33_partial (O : Ossl) (hsm : Small O) (rt : Rt) (cms : Option BinArr) (serial : Option Bytes)
    (nonce : Option BinArr) (reg : BinArr) (dom : CertList) (certs store : Option CertList) (out : Bool)
    (hc : ArgWf cms) (hn : ArgWf nonce) (hr : BinArr.Wf reg) (pinned : BinArr)
    (h : verifyMasaPledgeVoucher O rt cms serial nonce (some reg) (some dom) certs store out = .ok (some pinned)) :
    ∃ x p xs rs, O.d2iX509 (Props.content reg) = some x ∧ O.d2iX509 (Props.content pinned) = some p ∧
      TrustList O dom xs rs ∧ O.buildChain x [p] (some (xs, rs)) ≠ [] := by
  obtain ⟨-, -, -, pin, r, -, -, rfl, -, ⟨x, p, h1, h2, xs, rs, h3, h4⟩, rfl⟩ := C32_acceptance O hsm rt cms serial
    nonce reg (some dom) certs store out hc hn hr pinned h
  exact ⟨x, p, xs, rs, h1, h2, h3, h4⟩

/-- non-vacuity of C33_partial: with a store, registrar 7 is accepted and registrar 66 is not. -/
example : verifyMasaPledgeVoucher toy Rt.plain (some (.of (1 :: demoIssuedText))) (some (str "S1"))
    (some (.of [1])) (some (.of [7])) (some [([7], 0)]) none (some [([1], 0)]) false = .ok (some (.of [8])) ∧
    verifyMasaPledgeVoucher toy Rt.plain (some (.of (1 :: demoIssuedText))) (some (str "S1"))
    (some (.of [1])) (some (.of [66])) (some [([7], 0)]) none (some [([1], 0)]) false = .ok none := by
  constructor <;> decide +kernel

/-! ## C34 -/

/-- Order of dates and times of day (specification; RFC 8366 `expires-on`, read at
/repo/src/voucher/voucher.c:718-724). -/
def earlier (t u : Tm) : Prop :=
  t.year < u.year ∨ t.year = u.year ∧ (t.mon < u.mon ∨ t.mon = u.mon ∧ (t.mday < u.mday ∨ t.mday = u.mday ∧
    (t.hour < u.hour ∨ t.hour = u.hour ∧ (t.min < u.min ∨ t.min = u.min ∧ t.sec < u.sec))))

/-- **C34** as stated: at time `now`, no voucher that expired before is accepted.  (The call has no
clock argument; whatever clock there is must not contradict the result.) -/
def C34_statement : Prop :=
  ∀ (O : Ossl) (rt : Rt) (now : Tm) (c r serial : Bytes) (nonce : Option BinArr) (dom certs store : Option CertList)
    (out : Bool) (pinned : BinArr) (v : Voucher) (pin : Bytes), Small O → NoFail rt → ArgWf nonce →
    Acceptable O rt c certs store serial nonce v pin → timeSet v.expiresOn = true → earlier v.expiresOn now →
    verifyMasaPledgeVoucher O rt (some (.of c)) (some serial) nonce (some (.of r)) dom certs store out ≠
      .ok (some pinned)

/-- The expiry plays no role: whatever the expiry of the voucher and whatever the time, an otherwise
acceptable voucher is accepted (/repo/src/voucher/request.c:448-581 never reads `expires-on`). -/
theorem C34_expiry_ignored (O : Ossl) (hsm : Small O) (rt : Rt) (hf : NoFail rt) (c r serial pin : Bytes)
    (nonce : Option BinArr) (dom certs store : Option CertList) (hn : ArgWf nonce) (v : Voucher)
    (hacc : Acceptable O rt c certs store serial nonce v pin) (hch : ChainBuilt O r pin dom) :
    ∀ now : Tm, earlier v.expiresOn now →
      verifyMasaPledgeVoucher O rt (some (.of c)) (some serial) nonce (some (.of r)) dom certs store false =
        .ok (some (.of pin)) :=
  fun _ _ => C32_complete O hsm rt hf c r serial pin nonce dom certs store hn v hacc hch

/-- The code violates C34. -/
theorem C34_violated : ¬ C34_statement := by
  intro h
  refine h toy Rt.plain ⟨0, 0, 0, 1, 0, 140, 0, 0, 0⟩ (1 :: demoIssuedText) [7] (str "S1") (some (.of [1])) none none
    (some [([1], 0)]) false (.of [8]) demoIssued [8] toy_small noFail_plain
    (fun n h => by cases h; exact wf_of [1]) demo_acceptable (by decide) (.inl (by decide))
    (C34_expiry_ignored toy toy_small Rt.plain noFail_plain _ [7] _ [8] _ none _ _
      (fun n h => by cases h; exact wf_of [1]) demoIssued demo_acceptable ⟨(7 : UInt8), (8 : UInt8), rfl, rfl, by simp [toy]⟩
      ⟨0, 0, 0, 1, 0, 140, 0, 0, 0⟩ (.inl (by decide)))

/-- Part of **C34** that can be had: what is accepted carries the expiry the signer wrote, so that a
caller that checks the date of the voucher checks the signer's date.  Missing: no check is made by
the library, and the voucher is not handed out to the caller. -/
theorem C34_partial (O : Ossl) (hsm : Small O) (rt : Rt) (cms : Option BinArr) (serial : Option Bytes)
    (nonce : Option BinArr) (reg : BinArr) (dom certs store : Option CertList) (out : Bool) (hc : ArgWf cms)
    (hn : ArgWf nonce) (hr : BinArr.Wf reg) (pinned : BinArr)
    (h : verifyMasaPledgeVoucher O rt cms serial nonce (some reg) dom certs store out = .ok (some pinned)) :
    ∃ x m v, cms = some x ∧ O.d2iCms (Props.content x) = some m ∧ Passes O m certs store ∧
      Reads (rt.json 0) (O.content m) v ∧ v.pinned = pinned := by
  obtain ⟨x, s, v, pin, r, h1, -, -, ⟨⟨text, ⟨m, hm, rfl, hp⟩, hR⟩, -, -, hpin⟩, -, rfl⟩ := C32_acceptance O hsm rt cms
    serial nonce reg dom certs store out hc hn hr pinned h
  exact ⟨x, m, v, h1, hm, hp, hR, hpin⟩

/-! ## C37 -/

/-- **C37** as stated: a message is accepted only if its signer chains to a configured trust list. -/
def C37_statement : Prop :=
  ∀ (O : Ossl) (ok : Nat → Bool) (c : Bytes) (certs store : Option CertList) (out : Bool) (r : Verified),
    verifyCms O ok (some (.of c)) certs store out = .ok (some r) →
    ∃ m cs l xs rs, O.d2iCms c = some m ∧ Extra O certs cs ∧ store = some l ∧ TrustList O l xs rs ∧
      O.trustOk m cs (xs, rs) = true

/-- Without a trust list every message with a valid signature is accepted, whoever signed it
(/repo/src/voucher/crypto_ossl.c:1659). -/
theorem C37_no_store (O : Ossl) (ok : Nat → Bool) (hok : ∀ k, ok k = true) (c : Bytes) (certs : Option CertList)
    (m : O.Cms) (cs : List O.Cert) (hm : O.d2iCms c = some m) (hcs : Extra O certs cs) (hs : O.sigOk m cs = true) :
    verifyCms O ok (some (.of c)) certs none false = .ok (some ⟨O.content m, none⟩) :=
  verifyCms_complete O ok hok c (O.content m) certs none ⟨m, hm, rfl, cs, hcs, hs, fun l h => by cases h⟩

/-- The code violates C37 (and the default configuration has an empty trust store path, so that
no list is loaded: /repo/src/brski/config.c:673-710). -/
theorem C37_violated : ¬ C37_statement := by
  intro h
  obtain ⟨-, -, l, -, -, -, -, hl, -⟩ := h toy (fun _ => true) [66, 1] none none false ⟨[1], none⟩
    (C37_no_store toy (fun _ => true) (fun _ => rfl) [66, 1] none (66, [1]) [] rfl rfl rfl)
  cases hl

/-- **C37**, the part that holds: when a trust list is supplied, the signer chains to it and the
signature is valid; an empty list is a list (with OpenSSL it accepts nobody). -/
theorem C37_partial (O : Ossl) (ok : Nat → Bool) (c : Bytes) (certs : Option CertList) (l : CertList) (out : Bool)
    (r : Verified) (h : verifyCms O ok (some (.of c)) certs (some l) out = .ok (some r)) :
    ∃ m cs xs rs, O.d2iCms c = some m ∧ Extra O certs cs ∧ TrustList O l xs rs ∧
      O.trustOk m cs (xs, rs) = true ∧ O.sigOk m cs = true ∧ r.data = O.content m := by
  obtain ⟨q, e, hq⟩ := verifyCms_sound O ok (.of c) (wf_of c) certs (some l) out
  rw [e] at h
  cases h
  obtain ⟨⟨m, hm, ht, cs, hcs, hsig, htr⟩, -⟩ := hq r rfl
  obtain ⟨xs, rs, h1, h2⟩ := htr l rfl
  exact ⟨m, cs, xs, rs, hm, hcs, h1, h2, hsig, ht.symm⟩

/-- non-vacuity of C37_partial: signer 3 is accepted, signer 66 is not. -/
example : verifyCms toy (fun _ => true) (some (.of [3, 1])) none (some [([3], 0)]) false = .ok (some ⟨[1], none⟩) ∧
    verifyCms toy (fun _ => true) (some (.of [66, 1])) none (some [([3], 0)]) false = .ok none ∧
    verifyCms toy (fun _ => true) (some (.of [66, 1])) none (some []) false = .ok none := by
  refine ⟨?_, ?_, ?_⟩ <;> decide +kernel

/-! ## C38 -/

/-- Every element of a decoded list decodes. -/
theorem decoded_mem {O : Ossl} {l : CertList} {cs : List O.Cert} (h : Decoded O l cs) :
    ∀ e ∈ l, O.d2iX509 e.1 ≠ none := by
  induction h with
  | nil => intro e he; cases he
  | cons h1 _ ih =>
    intro e he
    rcases List.mem_cons.1 he with rfl | he
    · simp [h1]
    · exact ih e he

theorem trust_mem {O : Ossl} {l : CertList} {xs : List O.Cert} {rs : List O.Crl} (h : TrustList O l xs rs) :
    ∀ e ∈ l, (e.2 = 0 ∧ O.d2iX509 e.1 ≠ none) ∨ (e.2 = 1 ∧ O.d2iCrl e.1 ≠ none) := by
  induction h with
  | nil => intro e he; cases he
  | cert h1 _ ih =>
    intro e he
    rcases List.mem_cons.1 he with rfl | he
    · exact .inl ⟨rfl, by simp [h1]⟩
    · exact ih e he
  | crl h1 _ ih =>
    intro e he
    rcases List.mem_cons.1 he with rfl | he
    · exact .inr ⟨rfl, by simp [h1]⟩
    · exact ih e he

/-- An element that makes a trust list unusable: an undecodable certificate or revocation list or an
unknown flag (specification; flags at /repo/src/voucher/crypto.h:77-82). -/
def BadTrust (O : Ossl) (e : Bytes × Int) : Prop :=
  (e.2 = 0 ∧ O.d2iX509 e.1 = none) ∨ (e.2 = 1 ∧ O.d2iCrl e.1 = none) ∨ (e.2 ≠ 0 ∧ e.2 ≠ 1)

/-- **C38** One bad element, at any position of the additional certificates or of the trust list,
makes the verification of every message fail. -/
theorem C38_verify_cms (O : Ossl) (ok : Nat → Bool) (c : Bytes) (certs store : Option CertList) (out : Bool)
    (hbad : (∃ l e, certs = some l ∧ e ∈ l ∧ O.d2iX509 e.1 = none) ∨
      (∃ l e, store = some l ∧ e ∈ l ∧ BadTrust O e)) :
    verifyCms O ok (some (.of c)) certs store out = .ok none := by
  obtain ⟨r, e, hr⟩ := verifyCms_sound O ok (.of c) (wf_of c) certs store out
  rw [e]
  cases r with
  | none => rfl
  | some r =>
    exfalso
    obtain ⟨⟨m, -, -, cs, hcs, -, htr⟩, -⟩ := hr r rfl
    rcases hbad with ⟨l, b, rfl, hb, hn⟩ | ⟨l, b, rfl, hb, hn⟩
    · exact decoded_mem hcs b hb hn
    · obtain ⟨xs, rs, ht, -⟩ := htr l rfl
      have := trust_mem ht b hb
      rcases hn with ⟨h1, h2⟩ | ⟨h1, h2⟩ | ⟨h1, h2⟩
      · rcases this with ⟨-, h⟩ | ⟨h, -⟩
        · exact h h2
        · rw [h1] at h; cases h
      · rcases this with ⟨h, -⟩ | ⟨-, h⟩
        · rw [h1] at h; cases h
        · exact h h2
      · rcases this with ⟨h, -⟩ | ⟨h, -⟩
        · exact h1 h
        · exact h2 h

/-- **C38** for the check of a certificate. -/
theorem C38_verify_cert (O : Ossl) (ok : Nat → Bool) (cert : Option Bytes) (certs : CertList) (store : Option CertList)
    (hbad : (∃ e ∈ certs, O.d2iX509 e.1 = none) ∨ (∃ l e, store = some l ∧ e ∈ l ∧ BadTrust O e)) :
    verifyCert O ok cert (some certs) store = false := by
  cases cert with
  | none => rfl
  | some cert =>
    unfold verifyCert
    simp only
    cases O.d2iX509 cert with
    | none => rfl
    | some x =>
      simp only
      cases hcs : certStack O certs with
      | none => rfl
      | some cs =>
        simp only
        cases hst : optStore O ok store with
        | none => rfl
        | some st =>
          exfalso
          rcases hbad with ⟨b, hb, hn⟩ | ⟨l, b, rfl, hb, hn⟩
          · exact decoded_mem ((certStack_iff O certs cs).1 hcs) b hb hn
          · rcases optStore_sound O ok _ st hst with ⟨h, -⟩ | ⟨l', xs, rs, h, ht, -⟩
            · cases h
            · cases h
              have := trust_mem ht b hb
              rcases hn with ⟨h1, h2⟩ | ⟨h1, h2⟩ | ⟨h1, h2⟩
              · rcases this with ⟨-, h⟩ | ⟨h, -⟩
                · exact h h2
                · rw [h1] at h; cases h
              · rcases this with ⟨h, -⟩ | ⟨-, h⟩
                · rw [h1] at h; cases h
                · exact h h2
              · rcases this with ⟨h, -⟩ | ⟨h, -⟩
                · exact h1 h
                · exact h2 h

/-- **C38** for signing: a bad additional certificate makes signing fail. -/
theorem C38_sign (O : Ossl) (data : Bytes) (cert key : BinArr) (hc : BinArr.Wf cert) (hk : BinArr.Wf key)
    (certs : CertList) (b : Bytes × Int) (hb : b ∈ certs) (hn : O.d2iX509 b.1 = none) :
    signCms O data cert key (some certs) = .ok none := by
  rcases signCms_cases O data cert key hc hk (some certs) with h | ⟨_, _, _, _, cs, _, _, _, _, _, _, hcs, _⟩
  · exact h
  · exact absurd hn (decoded_mem hcs b hb)

/-- non-vacuity of C38: bad elements in the middle and at the end. -/
example : toy.d2iX509 [1, 2] = none ∧ BadTrust toy ([3], 2) ∧
    ([3], (2 : Int)) ∈ [([3], (0 : Int)), ([3], 2)] := ⟨rfl, .inr (.inr ⟨by decide, by decide⟩), by simp⟩

end Brski.Props
