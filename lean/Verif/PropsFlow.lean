import Verif.Flow

/-!
# C30, C31 for honest registrars; C35: the honest run
-/

namespace Brski.Props
open Outcome Brski.Voucher VoucherJson Crypto BoolTime Spec Request

/-- The callback pins certificates that are not empty (/repo/src/voucher/voucher.h:585-602). -/
def CallbackProper (cb : Callback) : Prop := ∀ s l p, cb s l = .ok (some (.of p)) → Proper p

/-- What a registrar request made by the library turns into at the MASA: the MASA reads the
registrar's voucher back, and the pledge request inside it is the one the registrar vetted. -/
theorem honest_registrar (O : Ossl) (hsm : Small O) (hfa : Faithful O) (rt rt2 : Rt)
    (hlib : (rt2.json 1).lib = (rt.json 0).lib) (pc1 : Bytes) (t : Tm) (ht : FourDigits t) (s i : Bytes) (reg : BinArr)
    (cert key : Option BinArr) (certs store add : Option CertList) (hs : StringText s)
    (hl : s.length ≤ 127) (hi : Proper i) (hp : Proper pc1) (hr : BinArr.Wf reg) (hc : ArgWf cert) (hk : ArgWf key)
    (rcms : Bytes)
    (h1 : signVoucherRequest O rt (some (.of pc1)) (some t) (some s) (some (.of i)) (some reg) cert key certs store add =
      .ok (some rcms)) (rc rs pc ps : Option CertList) (vr pv : Voucher) (serial : Bytes)
    (h2 : Consistent O rt2 rcms rc rs pc ps vr pv serial) :
    SameVoucher (registrarVoucher t s i pc1 pv) vr ∧ serial = s ∧ Vetted pv s (Props.content reg) ∧
      ArraysFull pv := by
  have h0 : (0 : UInt8) ∉ s := not_nul_of_text hs
  have arg : ∀ {x : BinArr}, BinArr.Wf x → ArgWf (some x) := fun hx y hy => by cases hy; exact hx
  obtain ⟨s', i', r', c', ptext, pv0, e1, e2, e3, e4, hA0, hR0, hvet, hsig⟩ := C27_vetting O hsm rt _ t _ _ _ cert key
    certs store add (arg (wf_of pc1)) (fun y hy => by cases hy; exact h0) (arg (wf_of i)) (arg hr) hc hk rcms h1
  cases e1
  cases e3
  have hi' : i = i' := of_inj (Option.some.inj e2)
  have hc' : pc1 = c' := of_inj (Option.some.inj e4)
  subst hi' hc'
  obtain ⟨⟨text, hA, hR⟩, hnm, ⟨prior, ptext', hpr, hA', hR'⟩, hsame⟩ := h2
  have hl0 := authentic_small hsm hA0
  have hok0 : VoucherOk pv0 := deserialize_voucherOk _ _ (by omega) _ hR0.2
  have hfull := reads_full hl0 hR0
  have hsv := signed_read hsm hfa hsig hA hR (registrarVoucher_ok hok0 h0 hl) (registrarVoucher_times ht)
    (registrarVoucher_full hi hp hfull) (registrarVoucher_plain hs)
  have hprior : prior = pc1 := by
    have := hsv.prior
    rw [hpr] at this
    exact of_inj this.symm
  subst hprior
  have hptext : ptext' = ptext := by
    obtain ⟨m, hm, rfl, -⟩ := hA0
    obtain ⟨m', hm', rfl, -⟩ := hA'
    rw [hm] at hm'
    cases hm'
    rfl
  subst hptext
  have hpv : pv = pv0 := reads_same _ _ hlib hl0 hR' hR0
  subst hpv
  refine ⟨hsv, ?_, hvet, hfull⟩
  have := hsv.serial
  rw [hnm] at this
  simpa [registrarVoucher] using this.symm

/-- **C30**, the part that holds: if the request was made by an honest registrar (this library's
`sign_voucher_request`), whoever reads the issued voucher finds the nonce of the pledge's own signed
request (or none if that has none).  Missing: requests made by other registrars (`C30_violated`). -/
theorem C30_partial (O : Ossl) (hsm : Small O) (hfa : Faithful O) (rt rt2 : Rt)
    (hlib : (rt2.json 1).lib = (rt.json 0).lib) (pc1 : Bytes) (t : Tm) (ht : FourDigits t) (s i : Bytes) (reg : BinArr)
    (cert key : Option BinArr) (certs store add : Option CertList) (hs : StringText s)
    (hl : s.length ≤ 127) (hi : Proper i) (hp : Proper pc1) (hr : BinArr.Wf reg) (hc : ArgWf cert) (hk : ArgWf key)
    (rcms : Bytes)
    (h1 : signVoucherRequest O rt (some (.of pc1)) (some t) (some s) (some (.of i)) (some reg) cert key certs store add =
      .ok (some rcms)) (rc rs pc ps add2 : Option CertList) (expires : Tm) (hex : FourDigits expires) (cb : Callback)
    (hcb : CallbackOk cb) (hcp : CallbackProper cb) (cert2 key2 : Option BinArr) (hc2 : ArgWf cert2) (hk2 : ArgWf key2)
    (cms : Bytes)
    (h2 : signMasaPledgeVoucher O rt2 (some (.of rcms)) (some expires) (some cb) cert2 key2 rc rs pc ps add2 =
      .ok (some cms)) :
    ∃ text pv, Authentic O pc ps pc1 text ∧ Reads (rt2.json 1) text pv ∧
      ∀ certs' store' text' env w, Authentic O certs' store' cms text' → Reads env text' w →
        w.nonce = pv.nonce ∧ w.serial = pv.serial := by
  obtain ⟨x, vr, pv, serial, signers, pin, ex, hcon, -, hpin, hsig⟩ := C29_consistent O hsm rt2 _ expires cb hcb cert2 key2
    rc rs pc ps add2 (fun y hy => by cases hy; exact wf_of rcms) hc2 hk2 cms h2
  cases ex
  obtain ⟨hsv, rfl, hvet, hfull⟩ := honest_registrar O hsm hfa rt rt2 hlib pc1 t ht s i reg cert key certs store add hs hl
    hi hp hr hc hk rcms h1 rc rs pc ps vr pv serial hcon
  obtain ⟨⟨rtext, hrA, hrR⟩, hnm, ⟨prior, ptext, hpr, hA, hR⟩, hsame⟩ := hcon
  have hprior : prior = pc1 := by
    have := hsv.prior
    rw [hpr] at this
    exact of_inj this.symm
  subst hprior
  refine ⟨ptext, pv, hA, hR, fun certs' store' text' env w hA' hR' => ?_⟩
  have hvrok : VoucherOk vr := deserialize_voucherOk _ _ (by have := authentic_small hsm hrA; omega) _ hrR.2
  have h0 : (0 : UInt8) ∉ serial := not_nul_of_text hs
  have hw := signed_read hsm hfa hsig hA' hR' (issuedVoucher_ok hvrok.2.2.2.1 h0 hl) (issuedVoucher_times hex)
    (issuedVoucher_full (hcp _ _ _ hpin) (reads_full (authentic_small hsm hrA) hrR)) (issuedVoucher_plain hs)
  constructor
  · rw [← hw.nonce]
    exact hsv.nonce.symm
  · rw [← hw.serial, hsame]
    rfl

/-- **C31**, the part that holds: if the request was made by an honest registrar, a voucher is
issued only if the pledge's signed request asserts proximity and names the TLS certificate of this
registrar.  Missing: requests made by other registrars (`C31_violated`). -/
theorem C31_partial (O : Ossl) (hsm : Small O) (hfa : Faithful O) (rt rt2 : Rt)
    (hlib : (rt2.json 1).lib = (rt.json 0).lib) (pc1 : Bytes) (t : Tm) (ht : FourDigits t) (s i : Bytes) (reg : BinArr)
    (cert key : Option BinArr) (certs store add : Option CertList) (hs : StringText s)
    (hl : s.length ≤ 127) (hi : Proper i) (hp : Proper pc1) (hr : BinArr.Wf reg) (hc : ArgWf cert) (hk : ArgWf key)
    (rcms : Bytes)
    (h1 : signVoucherRequest O rt (some (.of pc1)) (some t) (some s) (some (.of i)) (some reg) cert key certs store add =
      .ok (some rcms)) (rc rs pc ps add2 : Option CertList) (expires : Tm) (cb : Callback)
    (hcb : CallbackOk cb) (cert2 key2 : Option BinArr) (hc2 : ArgWf cert2) (hk2 : ArgWf key2)
    (cms : Bytes)
    (h2 : signMasaPledgeVoucher O rt2 (some (.of rcms)) (some expires) (some cb) cert2 key2 rc rs pc ps add2 =
      .ok (some cms)) :
    ∃ text pv, Authentic O pc ps pc1 text ∧ Reads (rt2.json 1) text pv ∧ pv.assertion = 3 ∧
      Props.content pv.proximity = Props.content reg ∧ pv.serial = some s := by
  obtain ⟨x, vr, pv, serial, signers, pin, ex, hcon, -, hpin, hsig⟩ := C29_consistent O hsm rt2 _ expires cb hcb cert2 key2
    rc rs pc ps add2 (fun y hy => by cases hy; exact wf_of rcms) hc2 hk2 cms h2
  cases ex
  obtain ⟨hsv, rfl, hvet, hfull⟩ := honest_registrar O hsm hfa rt rt2 hlib pc1 t ht s i reg cert key certs store add hs hl
    hi hp hr hc hk rcms h1 rc rs pc ps vr pv serial hcon
  obtain ⟨⟨rtext, hrA, hrR⟩, hnm, ⟨prior, ptext, hpr, hA, hR⟩, hsame⟩ := hcon
  have hprior : prior = pc1 := by
    have := hsv.prior
    rw [hpr] at this
    exact of_inj this.symm
  subst hprior
  exact ⟨ptext, pv, hA, hR, hvet.2.2, hvet.2.1, hvet.1⟩

/-! ## C35 -/

/-- Signing with the given material works and is trusted by a verifier with the given lists: the
assumption on the signature scheme and on matching trust material (OpenSSL, used at
/repo/src/voucher/crypto_ossl.c:1358-1425,1610-1694).  A message is at most 1 MiB longer than
its text. -/
def Works (O : Ossl) (cert key : Bytes) (add certs store : Option CertList) : Prop :=
  ∃ x k cs, O.d2iX509 cert = some x ∧ O.d2iKey key = some k ∧ Extra O add cs ∧
    ∀ text, text.length < 2 ^ 31 → ∃ der, O.cmsSign x k cs text = some der ∧
      Authentic O certs store der text ∧ der ≠ [] ∧ der.length ≤ text.length + 2 ^ 20

/-- A byte string of ordinary size (1 byte to 1 MiB). -/
def Ordinary (b : Bytes) : Prop := b ≠ [] ∧ b.length ≤ 2 ^ 20

theorem ordinary_proper {b : Bytes} (h : Ordinary b) : Proper b :=
  ⟨h.1, by have := h.2; unfold sizeMax; omega⟩

/-- One step of signing and reading back. -/
theorem sign_and_read (O : Ossl) (env : Env) (hal : env.NoOom)
    (cert key : Bytes) (add certs store : Option CertList) (hw : Works O cert key add certs store) (v : Voucher)
    (hv : VoucherOk v) (ht : Times4 v) (ha : ArraysFull v) (hp : SerialText v) (B : Nat) (hb : 22 * B + 3000 < 2 ^ 31)
    (hB : ∀ a x, getArray v a = some x → (Props.content x).length ≤ B) :
    ∃ der text, signCmsVoucher O env v (some (.of cert)) (some (.of key)) add = .ok (some der) ∧
      Authentic O certs store der text ∧ text ≠ [] ∧
      (∀ env' : Env, env'.NoOom → ∃ v', deserialize env' text = .ok (some v') ∧ SameVoucher v v') ∧
      der ≠ [] ∧ der.length ≤ 22 * B + 3000 + 2 ^ 20 := by
  obtain ⟨x, k, cs, hx, hk, hcs, hsign⟩ := hw
  obtain ⟨text, part, he, -, hh, e⟩ := signCmsVoucher_full O env hal v hv (times4_ok ht) ha cert key x k add cs hx hk hcs
  have hl := encoded_length hv ht hB he
  rw [hh.2 (by omega)] at e
  obtain ⟨der, h1, h2, h3, h4⟩ := hsign text (by omega)
  refine ⟨der, text, by rw [e, h1], h2, ?_, fun env' hal' => encoded_read env' hal' hv ht ha hp he (by omega), h3,
    by omega⟩
  obtain ⟨val, -, rfl⟩ := he
  intro h0
  have := congrArg List.length h0
  have ho : (str "{").length = 1 := by decide
  simp only [FlatDoc.render, List.length_append, ho, List.length_nil] at this
  omega

/-- The honest run, with the sizes of the messages. -/
theorem honest_run (O : Ossl) (hsm : Small O) (rtP rtR rtM rtV : Rt) (hP : NoFail rtP) (hR : NoFail rtR)
    (hM : NoFail rtM) (hV : NoFail rtV)
    -- the pledge: date, serial number, nonce, registrar certificate seen, own certificate and key
    (tP : Tm) (htP : FourDigits tP) (s : Bytes) (hs : StringText s) (hl : s.length ≤ 127)
    (nonce : Option Bytes) (hn : ∀ b, nonce = some b → Ordinary b) (reg : Bytes) (hreg : Ordinary reg)
    (pcert pkey : Bytes) (padd : Option CertList)
    -- the registrar: date, issuer, own certificate and key, trust in pledges
    (tR : Tm) (htR : FourDigits tR) (i : Bytes) (hi : Ordinary i) (rcert rkey : Bytes) (radd c1 st1 : Option CertList)
    (hwP : Works O pcert pkey padd c1 st1)
    -- the MASA: expiry, callback, own certificate and key, trust in registrars and pledges
    (tM : Tm) (htM : FourDigits tM) (cb : Callback) (mcert mkey : Bytes) (madd rc rs pc ps : Option CertList)
    (hwR : Works O rcert rkey radd rc rs) (hwP' : ∀ der text, Authentic O c1 st1 der text → Authentic O pc ps der text)
    (hsig : ∀ der text, Authentic O rc rs der text → ∃ l, SignersOf O der l)
    (hcb : ∀ l, ∃ p, cb s l = .ok (some (.of p)) ∧ Ordinary p)
    -- the pledge's trust in the MASA and its check of the registrar certificate
    (dom vc vs : Option CertList) (hwM : Works O mcert mkey madd vc vs)
    (hdom : ∀ l p, cb s l = .ok (some (.of p)) → ChainBuilt O reg p dom) :
    ∃ request regRequest voucher signers pin,
      signPledgeVoucherRequest O rtP (some tP) (some s) (nonce.map .of) (some (.of reg)) (some (.of pcert))
        (some (.of pkey)) padd = .ok (some request) ∧
      signVoucherRequest O rtR (some (.of request)) (some tR) (some s) (some (.of i)) (some (.of reg))
        (some (.of rcert)) (some (.of rkey)) c1 st1 radd = .ok (some regRequest) ∧
      signMasaPledgeVoucher O rtM (some (.of regRequest)) (some tM) (some cb) (some (.of mcert)) (some (.of mkey))
        rc rs pc ps madd = .ok (some voucher) ∧
      SignersOf O regRequest signers ∧ cb s signers = .ok (some (.of pin)) ∧
      verifyMasaPledgeVoucher O rtV (some (.of voucher)) (some s) (nonce.map .of) (some (.of reg)) dom vc vs false =
        .ok (some (.of pin)) ∧
      ∀ b ∈ [request, regRequest, voucher], b ≠ [] ∧ b.length < 2 ^ 31 := by
  have h0 : (0 : UInt8) ∉ s := not_nul_of_text hs
  have hnArg : ∀ n, nonce.map BinArr.of = some n → ∃ b, n = .of b := by
    intro n h
    obtain ⟨b, -, rfl⟩ := Option.map_eq_some_iff.1 h
    exact ⟨b, rfl⟩
  have hnWf : ArgWf (nonce.map BinArr.of) := fun n h => by obtain ⟨b, rfl⟩ := hnArg n h; exact wf_of b
  have le0 : ∀ n : Nat, (Props.content BinArr.empty).length ≤ n := fun n => Nat.zero_le n
  have hnB : ∀ B, 2 ^ 20 ≤ B → (Props.content ((nonce.map BinArr.of).getD .empty)).length ≤ B := by
    intro B hB
    cases nonce with
    | none => exact le0 B
    | some b => exact Nat.le_trans (hn b rfl).2 hB
  -- the pledge request
  obtain ⟨request, ptext, e1, hA1, hne1, hread1, hq1, hql1⟩ := sign_and_read O (rtP.json 0)
    (hP.json 0) pcert pkey padd c1 st1 hwP (pledgeVoucher tP s (nonce.map .of) reg)
    (pledgeVoucher_ok hnWf h0 hl) (pledgeVoucher_times htP)
    (pledgeVoucher_full (ordinary_proper hreg) (fun b hb => ordinary_proper (hn b hb)))
    (pledgeVoucher_plain hs) (2 ^ 20) (by decide) (by
      intro a x h
      cases a <;> simp only [getArray, pledgeVoucher, reduceCtorEq, Option.some.injEq] at h <;> subst h
      · exact le0 _
      · exact le0 _
      · exact hnB _ (Nat.le_refl _)
      · exact le0 _
      · exact hreg.2)
  obtain ⟨pv, hd1, hsv1⟩ := hread1 (rtR.json 0) (hR.json 0)
  have hpvok : VoucherOk pv := deserialize_voucherOk _ _ (by have := authentic_small hsm hA1; omega) _ hd1
  have hvet : Vetted pv s reg := by
    refine ⟨hsv1.serial.symm, ?_, hsv1.assertion.symm⟩
    rw [← hsv1.proximity]
    rfl
  have hpvfull : ArraysFull pv := reads_full (authentic_small hsm hA1) ⟨hne1, hd1⟩
  have hreq := registrar_full O rtR hR request i reg s tR (some (.of rcert)) (some (.of rkey)) c1 st1 radd pv none
    (verifyCmsVoucher_full O (rtR.json 0) (rtR.ok 0) (hR.ok 0) request ptext c1 st1 pv hA1 hne1 hd1) hpvok hvet
  -- the registrar request
  have hqp : Proper request := ⟨hq1, by unfold sizeMax; omega⟩
  obtain ⟨regRequest, rtext, e2, hA2, hne2, hread2, hq2, hql2⟩ := sign_and_read O (rtR.json 1)
    (hR.json 1) rcert rkey radd rc rs hwR (registrarVoucher tR s i request pv)
    (registrarVoucher_ok hpvok h0 hl) (registrarVoucher_times htR)
    (registrarVoucher_full (ordinary_proper hi) hqp hpvfull) (registrarVoucher_plain hs)
    (22 * 2 ^ 20 + 3000 + 2 ^ 20) (by decide) (by
      intro a x h
      cases a <;> simp only [getArray, registrarVoucher, reduceCtorEq, Option.some.injEq] at h <;> subst h
      · exact Nat.le_trans hi.2 (by decide)
      · exact le0 _
      · rw [← hsv1.nonce]; exact hnB _ (by decide)
      · exact hql1
      · exact le0 _)
  obtain ⟨vr, hd2, hsv2⟩ := hread2 (rtM.json 0) (hM.json 0)
  obtain ⟨signers, hsg⟩ := hsig _ _ hA2
  obtain ⟨pin, hpin, hpinO⟩ := hcb signers
  -- the pledge request as read by the MASA
  obtain ⟨pv2, hd3, hsv3⟩ := hread1 (rtM.json 1) (hM.json 1)
  have hcon : Consistent O rtM regRequest rc rs pc ps vr pv2 s := by
    refine ⟨⟨rtext, hA2, hne2, hd2⟩, hsv2.serial.symm, ⟨request, ptext, hsv2.prior.symm, hwP' _ _ hA1, hne1, hd3⟩,
      hsv3.serial.symm⟩
  have hmasa := masa_full O rtM hM regRequest tM cb (some (.of mcert)) (some (.of mkey)) rc rs pc ps madd vr pv2 s pin
    signers hsm hcon hsg hpin
  have hvrok : VoucherOk vr := deserialize_voucherOk _ _ (by have := authentic_small hsm hA2; omega) _ hd2
  have hvrn : vr.nonce = (nonce.map BinArr.of).getD .empty := by
    rw [← hsv2.nonce]
    show pv.nonce = _
    rw [← hsv1.nonce]
    rfl
  -- the voucher
  obtain ⟨voucher, vtext, e3, hA3, hne3, hread4, hq3, hql3⟩ := sign_and_read O (rtM.json 2)
    (hM.json 2) mcert mkey madd vc vs hwM (issuedVoucher s vr.nonce pin tM)
    (issuedVoucher_ok hvrok.2.2.2.1 h0 hl) (issuedVoucher_times htM)
    (issuedVoucher_full (ordinary_proper hpinO) (reads_full (authentic_small hsm hA2) ⟨hne2, hd2⟩))
    (issuedVoucher_plain hs) (2 ^ 20) (by decide) (by
      intro a x h
      cases a <;> simp only [getArray, issuedVoucher, reduceCtorEq, Option.some.injEq] at h <;> subst h
      · exact le0 _
      · exact hpinO.2
      · rw [hvrn]; exact hnB _ (Nat.le_refl _)
      · exact le0 _
      · exact le0 _)
  obtain ⟨v, hd4, hsv4⟩ := hread4 (rtV.json 0) (hV.json 0)
  refine ⟨request, regRequest, voucher, signers, pin,
    (pledge_full O rtP hP tP s reg _ _ _ padd h0 hl hnArg).trans e1, hreq.trans e2, hmasa.trans e3, hsg, hpin, ?_, ?_⟩
  rotate_left
  · intro b hb
    simp only [List.mem_cons, List.not_mem_nil, or_false] at hb
    rcases hb with rfl | rfl | rfl
    · exact ⟨hq1, by omega⟩
    · exact ⟨hq2, by omega⟩
    · exact ⟨hq3, by omega⟩
  refine C32_complete O hsm rtV hV voucher reg s pin _ dom vc vs hnWf v ⟨⟨vtext, hA3, hne3, hd4⟩, hsv4.serial.symm, ?_,
    hsv4.pinned.symm⟩ (hdom _ _ hpin)
  intro n h
  obtain ⟨b, rfl⟩ := hnArg n h
  refine ⟨b, ?_, rfl⟩
  rw [← hsv4.nonce]
  show vr.nonce = _
  rw [hvrn, h]
  rfl

/-- **C35** The honest run: pledge request, registrar request, voucher and its acceptance.  For all
serial numbers without quotes and backslashes but for the escapes of JSON, nonces, certificates and dates, every step succeeds, and
the pledge obtains exactly the certificate chosen by the MASA's callback. -/
theorem C35_honest_run (O : Ossl) (hsm : Small O) (rtP rtR rtM rtV : Rt) (hP : NoFail rtP) (hR : NoFail rtR)
    (hM : NoFail rtM) (hV : NoFail rtV)
    -- the pledge: date, serial number, nonce, registrar certificate seen, own certificate and key
    (tP : Tm) (htP : FourDigits tP) (s : Bytes) (hs : StringText s) (hl : s.length ≤ 127)
    (nonce : Option Bytes) (hn : ∀ b, nonce = some b → Ordinary b) (reg : Bytes) (hreg : Ordinary reg)
    (pcert pkey : Bytes) (padd : Option CertList)
    -- the registrar: date, issuer, own certificate and key, trust in pledges
    (tR : Tm) (htR : FourDigits tR) (i : Bytes) (hi : Ordinary i) (rcert rkey : Bytes) (radd c1 st1 : Option CertList)
    (hwP : Works O pcert pkey padd c1 st1)
    -- the MASA: expiry, callback, own certificate and key, trust in registrars and pledges
    (tM : Tm) (htM : FourDigits tM) (cb : Callback) (mcert mkey : Bytes) (madd rc rs pc ps : Option CertList)
    (hwR : Works O rcert rkey radd rc rs) (hwP' : ∀ der text, Authentic O c1 st1 der text → Authentic O pc ps der text)
    (hsig : ∀ der text, Authentic O rc rs der text → ∃ l, SignersOf O der l)
    (hcb : ∀ l, ∃ p, cb s l = .ok (some (.of p)) ∧ Ordinary p)
    -- the pledge's trust in the MASA and its check of the registrar certificate
    (dom vc vs : Option CertList) (hwM : Works O mcert mkey madd vc vs)
    (hdom : ∀ l p, cb s l = .ok (some (.of p)) → ChainBuilt O reg p dom) :
    ∃ request regRequest voucher signers pin,
      signPledgeVoucherRequest O rtP (some tP) (some s) (nonce.map .of) (some (.of reg)) (some (.of pcert))
        (some (.of pkey)) padd = .ok (some request) ∧
      signVoucherRequest O rtR (some (.of request)) (some tR) (some s) (some (.of i)) (some (.of reg))
        (some (.of rcert)) (some (.of rkey)) c1 st1 radd = .ok (some regRequest) ∧
      signMasaPledgeVoucher O rtM (some (.of regRequest)) (some tM) (some cb) (some (.of mcert)) (some (.of mkey))
        rc rs pc ps madd = .ok (some voucher) ∧
      SignersOf O regRequest signers ∧ cb s signers = .ok (some (.of pin)) ∧
      verifyMasaPledgeVoucher O rtV (some (.of voucher)) (some s) (nonce.map .of) (some (.of reg)) dom vc vs false =
        .ok (some (.of pin)) := by
  obtain ⟨a, b, c, d, e, h1, h2, h3, h4, h5, h6, -⟩ := honest_run O hsm rtP rtR rtM rtV hP hR hM hV tP htP s hs hl nonce hn
    reg hreg pcert pkey padd tR htR i hi rcert rkey radd c1 st1 hwP tM htM cb mcert mkey madd rc rs pc ps hwR hwP' hsig hcb
    dom vc vs hwM hdom
  exact ⟨a, b, c, d, e, h1, h2, h3, h4, h5, h6⟩

/-! ## A run of the instance -/

theorem toy_works (c : UInt8) : Works toy [c] [c] none none (some [([c], 0)]) := by
  refine ⟨c, c, [], rfl, rfl, rfl, fun text hl => ⟨c :: text, ?_, toy_authentic c text hl, by simp, by simp⟩⟩
  show (if c = c ∧ text.length < 2 ^ 31 then some (c :: text) else none) = _
  rw [if_pos ⟨rfl, hl⟩]

theorem toy_signers (der text : Bytes) (certs store : Option CertList) (h : Authentic toy certs store der text) :
    ∃ l, SignersOf toy der l := by
  obtain ⟨m, hm, -⟩ := h
  exact ⟨some [([m.1], 0)], m, hm, .inr ⟨by simp [toy], [[m.1]], rfl, rfl⟩⟩

/-- 1 January 2030, for instances. -/
def demoTime : Tm := ⟨0, 0, 0, 1, 0, 130, 2, 0, 0⟩

theorem demoTime_ok : FourDigits demoTime :=
  ⟨⟨2030, 1, 1, 0, 0, 0⟩, by unfold tmHolds demoTime; decide, by unfold DateTime.Valid; decide, by decide⟩

/-- non-vacuity of C30_partial and C31_partial: for every nonce of ordinary size and every serial number the registrar of
the instance makes a request from the request of an honest pledge, and the MASA issues a voucher for it; non-vacuity of
C35: the pledge then accepts the voucher. -/
theorem toy_run (s : Bytes) (hs : StringText s) (hl : s.length ≤ 127) (nonce : Bytes) (hn : Ordinary nonce) :
    ∃ request rcms voucher,
      signPledgeVoucherRequest toy Rt.plain (some demoTime) (some s) (some (.of nonce)) (some (.of [7])) (some (.of [3]))
        (some (.of [3])) none = .ok (some request) ∧
      signVoucherRequest toy Rt.plain (some (.of request)) (some demoTime) (some s) (some (.of [5])) (some (.of [7]))
        (some (.of [7])) (some (.of [7])) none (some [([3], 0)]) none = .ok (some rcms) ∧
      signMasaPledgeVoucher toy Rt.plain (some (.of rcms)) (some demoTime) (some demoCb) (some (.of [1]))
        (some (.of [1])) none (some [([7], 0)]) none (some [([3], 0)]) none = .ok (some voucher) ∧
      verifyMasaPledgeVoucher toy Rt.plain (some (.of voucher)) (some s) (some (.of nonce)) (some (.of [7]))
        none none (some [([1], 0)]) false = .ok (some (.of [8])) := by
  obtain ⟨q, r, v, l, p, hq, hr, hv, -, hp, h⟩ := C35_honest_run toy toy_small Rt.plain Rt.plain Rt.plain Rt.plain noFail_plain
    noFail_plain noFail_plain noFail_plain demoTime demoTime_ok s hs hl (some nonce) (fun b h => by cases h; exact hn) [7]
    ⟨by simp, by decide⟩ [3] [3] none demoTime demoTime_ok [5] ⟨by simp, by decide⟩ [7] [7] none none (some [([3], 0)])
    (toy_works 3) demoTime demoTime_ok demoCb [1] [1] none none (some [([7], 0)]) none (some [([3], 0)]) (toy_works 7)
    (fun _ _ h => h) (fun der text h => toy_signers der text _ _ h) (fun _ => ⟨[8], rfl, by simp, by decide⟩)
    none none (some [([1], 0)]) (toy_works 1)
    (fun l p h => by cases h; exact ⟨(7 : UInt8), (8 : UInt8), rfl, rfl, by simp [toy]⟩)
  cases hp
  exact ⟨q, r, v, hq, hr, hv, h⟩

/-- The hypotheses of `toy_run` can be met. -/
example : StringText (str "S1") ∧ (str "S1").length ≤ 127 ∧ Ordinary [1] :=
  ⟨.of_plain (by decide), by decide, by simp, by decide⟩

end Brski.Props
