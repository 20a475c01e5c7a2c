import Verif.DeployLemmas

/-!
# C84: onboarding succeeds when everything matches
-/

namespace Brski.Props
open Outcome Brski.Voucher VoucherJson Crypto BoolTime Request Base64 Brski.Spec Server Pledge Routes Wire Tls Deploy

/-- Pledge, registrar and MASA belong together (specification; RFC 8995 sections 5.2-5.6): each has what it needs, the serial
number the registrar sees in the client certificate is the one the pledge claims, the registrar trusts the pledge, the MASA
both of them, and the pledge trusts the MASA; the MASA pins the certificate `pin`, to which the certificate of the registrar
leads. -/
structure Matching {O : Ossl} {L : Lib} (e : PledgeEnv) (D : Site O L) (serial : Bytes) (nonce : Option Bytes) (pin : Bytes) :
    Prop where
  -- the pledge
  paths : e.address ≠ none ∧ e.keyPath ≠ none ∧ e.certPath ≠ none
  ptime : ∃ t, requestTime e = some t ∧ FourDigits t
  pserial : e.serial = some serial
  serialOk : StringText serial ∧ serial.length ≤ 127
  pnonce : NonceSet e nonce
  nonceOk : ∀ b, nonce = some b → Ordinary b
  pmem : NoFail e.reqRt ∧ NoFail e.verRt ∧ NoOom e.reqOut ∧ NoOom e.masaAl ∧ ∀ k, e.bufMem k = true
  pblk : e.blk.length = 4
  plists : ∀ l ∈ [e.additional, e.verifyCerts, e.verifyStore], l ≠ .noMem ∧ l ≠ .freed
  -- the registrar
  rknown : D.reg.known = true
  rserial : D.reg.serial = some serial
  rissuer : ∃ i, D.reg.issuer = some i ∧ Ordinary i
  rtime : ∃ t, D.reg.now = some t ∧ FourDigits t
  rtls : D.reg.tlsCert = .der D.tls ∧ Ordinary D.tls
  rmem : NoFail D.reg.rt ∧ NoOom D.reg.al ∧ NoOom D.reg.out ∧ D.reg.mem = true
  rblk : D.reg.blk.length = 4
  rlists : ∀ l ∈ [D.reg.pledgeCerts, D.reg.pledgeStore, D.reg.additional], l ≠ .noMem ∧ l ≠ .freed
  rhost : D.reg.host ≠ none ∧ D.reg.keyPath ≠ none
  rheap : ∀ k, (D.regHeap k).Wf
  -- the MASA
  mtime : ∃ text t, D.masa.expiresOn = some text ∧ str2time D.masa.lib text = some t ∧ FourDigits t
  mpin : D.masa.ldevid = .der pin ∧ Ordinary pin
  mmem : NoFail D.masa.rt ∧ NoOom D.masa.al ∧ NoOom D.masa.cbMem ∧ NoOom D.masa.out
  mblk : D.masa.blk.length = 4
  mlists : ∀ l ∈ [D.masa.registrarCerts, D.masa.registrarStore, D.masa.pledgeCerts, D.masa.pledgeStore, D.masa.additional],
    l ≠ .noMem ∧ l ≠ .freed
  mheap : D.masaHeap.Wf
  -- signatures and trust
  pworks : ∃ c k, e.signCert = .der c ∧ e.signKey = .der k ∧
    Works O c k e.additional.certs D.reg.pledgeCerts.certs D.reg.pledgeStore.certs
  rworks : ∃ c k, D.reg.signCert = .der c ∧ D.reg.signKey = .der k ∧
    Works O c k D.reg.additional.certs D.masa.registrarCerts.certs D.masa.registrarStore.certs
  mworks : ∃ c k, D.masa.signCert = .der c ∧ D.masa.signKey = .der k ∧
    Works O c k D.masa.additional.certs e.verifyCerts.certs e.verifyStore.certs
  mtrust : ∀ der text, Authentic O D.reg.pledgeCerts.certs D.reg.pledgeStore.certs der text →
    Authentic O D.masa.pledgeCerts.certs D.masa.pledgeStore.certs der text
  msigners : ∀ der text, Authentic O D.masa.registrarCerts.certs D.masa.registrarStore.certs der text →
    ∃ l, SignersOf O der l
  chain : ChainBuilt O D.tls pin none
  -- connections
  toReg : LinkUp D.toReg
  toMasa : LinkUp D.toMasa

theorem rfc_small {b : Bytes} (h : b.length < 2 ^ 31) : (rfc4648 b).length < 2 ^ 64 ∧ (cstr (rfc4648 b)).length < 2 ^ 63 := by
  have h1 := enc_length b
  have h2 := rfc_length b
  rw [← enc_eq_rfc] at *
  omega

/-- What the network answers in a matching deployment. -/
theorem matching_answers {O : Ossl} (hsm : Small O) {L : Lib} {e : PledgeEnv} {D : Site O L} {serial : Bytes}
    {nonce : Option Bytes} {pin : Bytes} (h : Matching e D serial nonce pin) :
    ∃ t request voucher st fbody, CanAsk O e nonce t D.tls request ∧ CanCheck O e nonce D.tls voucher pin ∧
      (netOf D).first = some ⟨st, some D.tls, fbody⟩ ∧
      (netOf D).second (rfc4648 request) = some ⟨200, some D.tls, rfc4648 voucher⟩ ∧
      BodyDecodes e.masaAl e.blk (rfc4648 voucher) voucher := by
  obtain ⟨tP, htP, htP'⟩ := h.ptime
  obtain ⟨tR, htR, htR'⟩ := h.rtime
  obtain ⟨text, tM, htx, htM, htM'⟩ := h.mtime
  obtain ⟨i, hi, hi'⟩ := h.rissuer
  obtain ⟨pc, pk, hpc, hpk, hpw⟩ := h.pworks
  obtain ⟨rc, rk, hrc, hrk, hrw⟩ := h.rworks
  obtain ⟨mc, mk, hmc, hmk, hmw⟩ := h.mworks
  obtain ⟨hp1, hp2, hp3, hp4, hp5⟩ := h.pmem
  obtain ⟨hr1, hr2, hr3, hr4⟩ := h.rmem
  obtain ⟨hm1, hm2, hm3, hm4⟩ := h.mmem
  obtain ⟨request, regRequest, voucher, signers, pin', q1, q2, q3, -, q5, q6, q7⟩ := honest_run O hsm e.reqRt D.reg.rt D.masa.rt
    e.verRt hp1 hr1 hm1 hp2 tP htP' serial h.serialOk.1 h.serialOk.2 nonce h.nonceOk D.tls h.rtls.2 pc pk e.additional.certs
    tR htR' i hi' rc rk D.reg.additional.certs D.reg.pledgeCerts.certs D.reg.pledgeStore.certs hpw tM htM'
    (fun _ _ => .ok (some (.of pin))) mc mk D.masa.additional.certs D.masa.registrarCerts.certs D.masa.registrarStore.certs
    D.masa.pledgeCerts.certs D.masa.pledgeStore.certs hrw h.mtrust h.msigners (fun _ => ⟨pin, rfl, h.mpin.2⟩) none
    e.verifyCerts.certs e.verifyStore.certs hmw (fun l p hp => by cases hp; exact h.chain)
  cases q5
  obtain ⟨n1, l1⟩ := q7 request (by simp)
  obtain ⟨n2, l2⟩ := q7 regRequest (by simp)
  obtain ⟨n3, l3⟩ := q7 voucher (by simp)
  have big : ∀ {b : Bytes}, b.length < 2 ^ 31 → b.length < sizeMax / 4 := by
    intro b hb
    unfold sizeMax
    omega
  have set : ∀ {f : FileRes} {b : Bytes}, f = .der b → f ≠ .unset ∧ f ≠ .bad := by
    intro f b hf
    rw [hf]
    simp
  -- the MASA
  obtain ⟨m, m1, m2, m3, -⟩ := C40_reply O D.masa (rfc4648 regRequest) D.masaHeap h.mheap D.masaCtx regRequest text pin tM voucher
    hm3 hm4 h.mlists htx htM (decodes_rfc D.masa.al hm2 D.masa.blk regRequest h.mblk n2 (big l2)) h.mpin.1 (set hmc) (set hmk)
    (by rw [hmc, hmk]; exact q3) (big l3)
  have hmasa : masaOf D (rfc4648 regRequest) = some (200, rfc4648 voucher) := by
    have := masaOf_full h.toMasa (rfc_small l2).1 m1 m2 (by rw [m3]; exact (rfc_small l3).1)
    rwa [m3] at this
  -- the registrar, second connection
  obtain ⟨r, r1, -, -, r4⟩ := C39_partial_forwards O { D.reg with masa := masaOf D } (rfc4648 request) (D.regHeap 1) (h.rheap 1)
    request serial i tR regRequest h.rknown hr4 hr3 h.rlists h.rserial hi htR (set h.rtls.1) (set hrc) (set hrk) h.rhost
    (decodes_rfc D.reg.al hr2 D.reg.blk request h.rblk n1 (big l1))
    (by simp only [h.rtls.1, hrc, hrk]; exact q2) (big l2)
  obtain ⟨r5, r6⟩ := r4 _ _ hmasa
  rw [if_neg (by decide)] at r6
  have hsecond : (netOf D).second (rfc4648 request) = some ⟨200, some D.tls, rfc4648 voucher⟩ := by
    have := regAnswer_full h.toReg 1 (rfc_small l1).1 r1 (by simp [r5]) (by rw [r6]; exact (rfc_small l3).1)
    rw [r5, r6, if_neg (by simp)] at this
    exact this
  -- the first connection
  have h0 : (0 : UInt8) ∉ serial := not_nul_of_text h.serialOk.1
  have hstr : strOk D.reg.serial := by
    rw [h.rserial]
    intro y hy
    cases hy
    exact h0
  obtain ⟨d1, d2⟩ := empty_decodes D.reg.al D.reg.blk
  obtain ⟨f, f1, -⟩ := registrar_owns O hsm { D.reg with masa := masaOf D } h.rblk hr4 hstr (set h.rtls.1).1 (set hrc).1 (set hrk).1
    h.rhost (hr1.json 0 0 _) [] (by decide) (fun c _ _ hd => absurd hd (d2 c)) d1 (D.regHeap 0) (h.rheap 0)
  have hfr := registrar_answer O hsm { D.reg with masa := masaOf D } h.rblk hstr [] (by decide) (D.regHeap 0) f f1
  have hnf : ∀ sent, ¬ Forwarded O { D.reg with masa := masaOf D } [] sent := by
    rintro sent ⟨_, _, _, _, c, _, _, -, -, -, -, hd, -⟩
    exact d2 c hd
  have hst : (100 < f.status ∧ f.status < 1000 ∧ f.status ≠ 204) ∧ f.body.length < 2 ^ 64 := by
    generalize f.status = a at hfr
    generalize f.body = b at hfr
    cases hfr with
    | refused => simp
    | unable => simp
    | gateway sent hf => exact absurd hf (hnf sent)
    | answered sent _ _ hf => exact absurd hf (hnf sent)
  have hfirst := regAnswer_full h.toReg 0 (text := []) (by decide) f1 hst.1 hst.2
  refine ⟨tP, request, voucher, _, _, ⟨htP, h.pnonce, ⟨pc, hpc⟩, ⟨pk, hpk⟩, h.plists _ (by simp), ?_, hp3, big l1⟩,
    ⟨h.pnonce, fun l hl => h.plists l (by simp only [List.mem_cons, List.not_mem_nil, or_false] at hl ⊢; exact .inr hl), ?_⟩, hfirst,
    hsecond, decodes_rfc e.masaAl hp4 e.blk voucher h.pblk n3 (big l3)⟩
  · rw [h.pserial, hpc, hpk]
    exact q1
  · rw [h.pserial]
    exact q6

/-- The run of `post_voucher_pledge_request` with the ownership of its result. -/
theorem voucher_owned {O : Ossl} (hsm : Small O) {L : Lib} {e : PledgeEnv} {D : Site O L} {serial : Bytes}
    {nonce : Option Bytes} {pin : Bytes} (h : Matching e D serial nonce pin) {H : Heap} (hw : H.Wf) :
    ∃ H' p request, postVoucher O e (netOf D) H = .ok ⟨H', some p, [.voucher [], .voucher (rfc4648 request)]⟩ ∧
      Owns H H' [some p] ∧ H'.blk p = some pin := by
  obtain ⟨t, request, voucher, st, fbody, ha, hc, h1, h2, hd⟩ := matching_answers hsm h
  obtain ⟨H', p, e1, o1, b1, -⟩ := postVoucher_full h.paths ha hc h.pmem.2.2.2.2 (netOf D) h1 h2 (by decide) hd hw (owns_nil hw)
  exact ⟨H', p, request, e1, o1, b1⟩

/-- **C84**, the voucher: when pledge, registrar and MASA match, the pledge obtains exactly the certificate that the MASA is
configured to pin, having sent its request once, and all other memory is as before. -/
theorem C84_voucher {O : Ossl} (hsm : Small O) {L : Lib} {e : PledgeEnv} {D : Site O L} {serial : Bytes}
    {nonce : Option Bytes} {pin : Bytes} (h : Matching e D serial nonce pin) {H : Heap} (hw : H.Wf) :
    ∃ request H' p, postVoucher O e (netOf D) H = .ok ⟨H', some p, [.voucher [], .voucher (rfc4648 request)]⟩ ∧
      H.blk p = none ∧ H'.blk p = some pin ∧ ∀ q, q ≠ p → H'.blk q = H.blk q := by
  obtain ⟨H', p, request, e1, o1, b1⟩ := voucher_owned hsm h hw
  refine ⟨request, H', p, e1, ?_, b1, fun q hq => o1.rest q (by simpa using hq)⟩
  have := (o1.live p (by simp)).1
  cases hb : H.blk p with
  | none => rfl
  | some b => have := hw p (by unfold Heap.Live; rw [hb]; simp); omega

/-- The registrar of the deployment issues certificates and its chain verifies against the pinned certificate
(specification; RFC 7030 section 4.2). -/
structure Enrolling {O : Ossl} {L : Lib} (g : Gen) (D : Site O L) (pin key cert : Bytes) (ca x y z : O.Cert) (k : O.Key)
    (crt : Bytes) : Prop where
  gprepared : g.prepared = true
  gkey : g.key = some key
  gcert : g.cert key = some cert
  certOk : Ordinary cert
  gmem : NoOom g.caOut ∧ NoOom g.bodyOut ∧ NoOom g.al
  gblk : g.blk.length = 4
  issued : IssuedCert O D.enr cert ca x y z k crt
  crtOk : Ordinary crt
  emem : NoOom D.enr.al ∧ NoOom D.enr.out
  eblk : D.enr.blk.length = 4
  tmem : D.toReg.env.mem = true
  pem : ∃ cs, L.pem (certString (rfc4648 pin)) = some cs ∧ L.chainOk (cs ++ D.toReg.env.system) D.toReg.server = true
  server : D.toReg.server ≠ []

/-- The run of `post_sign_cert` with the ownership of its results. -/
theorem enrolled_owned {O : Ossl} (hsm : Small O) {L : Lib} {e : PledgeEnv} {g : Gen} {D : Site O L} {serial : Bytes}
    {nonce : Option Bytes} {pin : Bytes} (h : Matching e D serial nonce pin) {key cert crt : Bytes} {ca x y z : O.Cert} {k : O.Key}
    (hg : Enrolling g D pin key cert ca x y z k crt) {H : Heap} (hw : H.Wf) :
    ∃ H' p q request, postSignCert O e g (netOf D) H = .ok ⟨H', some (p, q), [.voucher [], .voucher (rfc4648 request),
        .enrol (certString (rfc4648 pin)) (rfc4648 cert)]⟩ ∧ Owns H H' [some p, some q] ∧ H'.blk p = some crt ∧
      H'.blk q = some key := by
  obtain ⟨t, request, voucher, st, fbody, ha, hc, h1, h2, hd⟩ := matching_answers hsm h
  have small : ∀ {b : Bytes}, Ordinary b → b.length < 2 ^ 31 := fun hb => by have := hb.2; omega
  have big : ∀ {b : Bytes}, Ordinary b → b.length < sizeMax / 4 := by
    intro b hb
    have := hb.2
    unfold sizeMax
    omega
  obtain ⟨cs, hcs, hcc⟩ := hg.pem
  obtain ⟨r, r1, r2, r3, -⟩ := C59_complete O D.enr D.client (rfc4648 cert) (D.regHeap 2) (h.rheap 2) hg.emem.2 cert ca x y z k crt
    (decodes_rfc D.enr.al hg.emem.1 D.enr.blk cert hg.eblk hg.certOk.1 (big hg.certOk)) hg.issued (big hg.crtOk)
  have he : (netOf D).enrol (certString (rfc4648 pin)) (rfc4648 cert) = some (200, rfc4648 crt) := by
    have := enrol_full h.toReg (rfc_small (small hg.certOk)).1 hg.tmem hcs hg.server hcc r1 r2
      (by rw [r3]; exact (rfc_small (small hg.crtOk)).1)
    rwa [r3] at this
  obtain ⟨H', p, q, e1, o1, b1, b2⟩ := postSignCert_full hg.gprepared hg.gkey hg.gcert hg.gmem.1 hg.gmem.2.1 (big h.mpin.2)
    (big hg.certOk) h.paths ha hc h.pmem.2.2.2.2 (netOf D) h1 h2 (by decide) hd he (by decide)
    (decodes_rfc g.al hg.gmem.2.2 g.blk crt hg.gblk hg.crtOk.1 (big hg.crtOk)) hw
  exact ⟨H', p, q, request, e1, o1, b1, b2⟩

/-- **C84**, enrolment: the pledge then obtains exactly the certificate that the CA of the registrar issues for the certificate
it generated, beside the generated key; all other memory is as before. -/
theorem C84_enrolled {O : Ossl} (hsm : Small O) {L : Lib} {e : PledgeEnv} {g : Gen} {D : Site O L} {serial : Bytes}
    {nonce : Option Bytes} {pin : Bytes} (h : Matching e D serial nonce pin) {key cert crt : Bytes} {ca x y z : O.Cert} {k : O.Key}
    (hg : Enrolling g D pin key cert ca x y z k crt) {H : Heap} (hw : H.Wf) :
    ∃ request H' p q, postSignCert O e g (netOf D) H = .ok ⟨H', some (p, q), [.voucher [], .voucher (rfc4648 request),
        .enrol (certString (rfc4648 pin)) (rfc4648 cert)]⟩ ∧
      H'.blk p = some crt ∧ H'.blk q = some key ∧ ∀ r, r ≠ p → r ≠ q → H'.blk r = H.blk r := by
  obtain ⟨H', p, q, request, e1, o1, b1, b2⟩ := enrolled_owned hsm h hg hw
  exact ⟨request, H', p, q, e1, b1, b2, fun r hr1 hr2 => o1.rest r (by simp [hr1, hr2])⟩

end Brski.Props
