import Verif.PropsYang
import Verif.PropsEnroll

/-!
# C149, C150 and C151: whom an issued voucher is for

C149: the domain that is pinned is that of the registrar that asked; C150: the device that is named is the one that asked; C151: the
registrar's client is the device whose request is passed on.
-/

namespace Brski.Props
open Outcome Brski.Voucher VoucherJson Crypto BoolTime Spec Request Server

/-! ## Specification -/

/-- The MASA answers the body, which encloses the request `c` with the parts `vr` and `pv`, with a voucher that can be read as `w`
(specification). -/
structure AnsweredWith (O : Ossl) (e : MasaEnv) (body c : Bytes) (vr pv : Voucher) (serial : Bytes) (w : Voucher) : Prop where
  decodes : BodyDecodes e.al e.blk body c
  consistent : Consistent O e.rt c e.registrarCerts.certs e.registrarStore.certs e.pledgeCerts.certs e.pledgeStore.certs vr pv serial
  answered : ∃ h ctx r cms certs store text env, masaRequestVoucher O e body h ctx = .ok r ∧ r.status = 200 ∧ r.body = rfc4648 cms ∧
    Authentic O certs store cms text ∧ Request.Reads env text w

/-- The circumstances in which what is signed can be read back: a date of four digits, a serial number that is the text of a string, a
pinned certificate of usual size (specification). -/
structure LegibleFor (e : MasaEnv) (body serial : Bytes) : Prop where
  blk : e.blk.length = 4
  size : (cstr body).length < 2 ^ 63
  serial : StringText serial
  date : ∀ text t, e.expiresOn = some text → str2time e.lib text = some t → FourDigits t
  pin : ∀ pin, e.ldevid = .der pin → Proper pin

/-- The certificate `p` is that of `x` or one that certifies it (specification). -/
def Vouches (O : Ossl) (p x : O.Cert) : Prop := p = x ∨ O.buildChain x [] (some ([p], [])) ≠ []

/-- **C149** as stated: the certificate an issued voucher pins is that of one of the signers of the registrar's request, or certifies
one. -/
def C149_statement : Prop :=
  ∀ (O : Ossl), Small O → Faithful O → ∀ (e : MasaEnv) (body c : Bytes) (vr pv : Voucher) (serial : Bytes) (w : Voucher),
    LegibleFor e body serial → AnsweredWith O e body c vr pv serial w → ∀ m, O.d2iCms c = some m →
    ∃ x ∈ O.signers m, ∃ p, O.d2iX509 (Props.content w.pinned) = some p ∧ Vouches O p x

/-- **C150** as stated: an issued voucher names the serial number in the certificate with which the device has signed its request
(`serialOf` tells the serial number in a certificate). -/
def C150_statement : Prop :=
  ∀ (O : Ossl), Small O → Faithful O → ∀ (serialOf : O.Cert → Option Bytes) (e : MasaEnv) (body c : Bytes) (vr pv : Voucher)
    (serial : Bytes) (w : Voucher), LegibleFor e body serial → AnsweredWith O e body c vr pv serial w →
    ∀ m, O.d2iCms (Props.content vr.prior) = some m → ∃ x ∈ O.signers m, serialOf x = w.serial

/-! ## Lemmas -/

/-- What is read from the voucher in an answer. -/
theorem answered_read {O : Ossl} (hsm : Small O) (hfa : Faithful O) {e : MasaEnv} {body c : Bytes} {vr pv : Voucher} {serial : Bytes}
    {w : Voucher} (hr : LegibleFor e body serial) (ha : AnsweredWith O e body c vr pv serial w) :
    ∃ pin t, e.ldevid = .der pin ∧ SameVoucher (issuedVoucher serial vr.nonce pin t) w := by
  obtain ⟨hdec, hcon, h, ctx, r, cms, certs, store, text, env, hrun, hst, hbody, hA, hR⟩ := ha
  rcases C40_answer O hsm e hr.blk body hr.size h ctx r hrun with ⟨-, c', cms', hdec', hiss, hb'⟩ | ⟨h4, -⟩
  · have hc : c = c' := by
      unfold BodyDecodes at hdec hdec'
      rw [hdec] at hdec'
      simp only [Outcome.ok.injEq, Prod.mk.injEq] at hdec'
      have := hdec'.2
      cases this
      rfl
    subst hc
    rw [hbody] at hb'
    have := rfc_injective hb'
    subst this
    obtain ⟨et, t, vr', pv', serial', pin, he, ht, hcon', hpin, hsig⟩ := hiss
    obtain ⟨rfl, rfl, rfl⟩ := consistent_unique hcon hcon'
    obtain ⟨⟨rtext, hrA, hrR⟩, hnm, -, -⟩ := hcon
    have hvrok : VoucherOk vr := deserialize_voucherOk _ _ (by have := authentic_small hsm hrA; omega) _ hrR.2
    have hser := serial_ok hvrok hnm
    exact ⟨pin, t, hpin, signed_read hsm hfa hsig hA hR (issuedVoucher_ok hvrok.2.2.2.1 hser.1 hser.2)
      (issuedVoucher_times (hr.date et t he ht)) (issuedVoucher_full (hr.pin pin hpin) (reads_full (authentic_small hsm hrA) hrR))
      (issuedVoucher_plain hr.serial)⟩
  · rw [hst] at h4
    cases h4

/-! ## C149 -/

/-- **C149** (exactly): what is pinned is the certificate in the file of the configuration, whoever asks for whichever device. -/
theorem C149_exact (O : Ossl) (hsm : Small O) (hfa : Faithful O) (e : MasaEnv) (body c : Bytes) (vr pv : Voucher) (serial : Bytes)
    (w : Voucher) (hr : LegibleFor e body serial) (ha : AnsweredWith O e body c vr pv serial w) :
    ∃ pin, e.ldevid = .der pin ∧ w.pinned = .of pin := by
  obtain ⟨pin, t, h1, h2⟩ := answered_read hsm hfa hr ha
  exact ⟨pin, h1, h2.pinned.symm⟩

/-- **C149** (one domain for all): all vouchers a MASA issues pin the same certificate. -/
theorem C149_same (O : Ossl) (hsm : Small O) (hfa : Faithful O) (e : MasaEnv) (body₁ body₂ c₁ c₂ : Bytes) (vr₁ pv₁ vr₂ pv₂ : Voucher)
    (s₁ s₂ : Bytes) (w₁ w₂ : Voucher) (hr₁ : LegibleFor e body₁ s₁) (hr₂ : LegibleFor e body₂ s₂)
    (h₁ : AnsweredWith O e body₁ c₁ vr₁ pv₁ s₁ w₁) (h₂ : AnsweredWith O e body₂ c₂ vr₂ pv₂ s₂ w₂) : w₁.pinned = w₂.pinned := by
  obtain ⟨p, a1, a2⟩ := C149_exact O hsm hfa e body₁ c₁ vr₁ pv₁ s₁ w₁ hr₁ h₁
  obtain ⟨q, b1, b2⟩ := C149_exact O hsm hfa e body₂ c₂ vr₂ pv₂ s₂ w₂ hr₂ h₂
  rw [a1] at b1
  cases b1
  rw [a2, b2]

/-- **C149**, the part that holds: for a MASA that trusts only registrars of the one domain in its configuration.  Missing: any other
registrar. -/
theorem C149_partial (O : Ossl) (hsm : Small O) (hfa : Faithful O) (e : MasaEnv) (body c : Bytes) (vr pv : Voucher) (serial : Bytes)
    (w : Voucher) (hr : LegibleFor e body serial) (ha : AnsweredWith O e body c vr pv serial w) (l : CertList)
    (hl : e.registrarStore.certs = some l)
    (hone : ∀ m cs xs rs, TrustList O l xs rs → O.trustOk m cs (xs, rs) = true →
      ∃ x ∈ O.signers m, ∃ pin p, e.ldevid = .der pin ∧ O.d2iX509 pin = some p ∧ Vouches O p x)
    (m : O.Cms) (hm : O.d2iCms c = some m) :
    ∃ x ∈ O.signers m, ∃ p, O.d2iX509 (Props.content w.pinned) = some p ∧ Vouches O p x := by
  obtain ⟨pin, h1, h2⟩ := C149_exact O hsm hfa e body c vr pv serial w hr ha
  obtain ⟨text, ⟨m', hm', -, cs, -, -, htr⟩, -⟩ := ha.consistent.registrar
  rw [hm] at hm'
  cases hm'
  obtain ⟨xs, rs, g1, g2⟩ := htr l hl
  obtain ⟨x, hx, pin', p, k1, k2, k3⟩ := hone m cs xs rs g1 g2
  rw [h1] at k1
  cases k1
  exact ⟨x, hx, p, by rw [of_content h2]; exact k2, k3⟩

/-- The MASA of the instance is asked by registrar 7. -/
theorem demoAnswered : LegibleFor demoMasa (rfc4648 demoRequest) (str "S1") ∧
    AnsweredWith toy demoMasa (rfc4648 demoRequest) demoRequest demoVr demoPv (str "S1") demoIssued := by
  have hlen : demoRequest.length < 1000 := by decide +kernel
  have hsz := rfc_length demoRequest
  obtain ⟨r, h1, h2, h3⟩ := demoMasa_runs none
  refine ⟨⟨rfl, ?_, demoSerial_text, ?_, ?_⟩, ⟨?_, demo_consistent, Heap.empty, none, r, 1 :: demoIssuedText, none, some [([1], 0)],
    demoIssuedText, Env.plain, h1, h2, h3, toy_authentic 1 _ (by decide +kernel), demoIssued_reads⟩⟩
  · have := (List.takeWhile_sublist (fun c : UInt8 => c ≠ 0) (l := rfc4648 demoRequest)).length_le
    have : (cstr (rfc4648 demoRequest)).length ≤ (rfc4648 demoRequest).length := this
    omega
  · intro text t ht h
    cases ht
    have e : str2time TimeLib.plain (str "2030-01-01T00:00:00Z") = some ⟨0, 0, 0, 1, 0, 130, 2, 0, 0⟩ := by decide +kernel
    have h : str2time TimeLib.plain (str "2030-01-01T00:00:00Z") = some t := h
    rw [e] at h
    cases h
    exact ⟨⟨2030, 1, 1, 0, 0, 0⟩, ⟨rfl, rfl, rfl, rfl, rfl, rfl⟩, by unfold DateTime.Valid; decide, by decide⟩
  · intro pin h
    cases h
    exact ⟨by simp, by decide⟩
  · exact decodes_rfc _ noOom_zero _ _ rfl (by decide +kernel) (by unfold sizeMax; omega)

/-- The code violates C149: registrar 7 asks and certificate 8 is pinned, which has nothing to do with it. -/
theorem C149_violated : ¬ C149_statement := by
  intro h
  obtain ⟨hr, ha⟩ := demoAnswered
  obtain ⟨x, hx, p, hp, hv⟩ := h toy toy_small toy_faithful demoMasa _ _ _ _ _ _ hr ha (7, demoRequest.tail) rfl
  have hx : x = (7 : UInt8) := List.mem_singleton.1 hx
  have hp : some (8 : UInt8) = some p := hp
  cases hp
  subst hx
  rcases hv with hv | hv
  · have hv : (8 : UInt8) = 7 := hv
    revert hv
    decide
  · exact hv rfl

/-! ## C150 -/

/-- **C150**, the part that holds: the serial number of an issued voucher is the one in the text that a device has signed whose signer
passes the check.  Missing: that this device has the number. -/
theorem C150_partial (O : Ossl) (hsm : Small O) (hfa : Faithful O) (e : MasaEnv) (body c : Bytes) (vr pv : Voucher) (serial : Bytes)
    (w : Voucher) (hr : LegibleFor e body serial) (ha : AnsweredWith O e body c vr pv serial w) :
    w.serial = pv.serial ∧ ∃ text, Authentic O e.pledgeCerts.certs e.pledgeStore.certs (Props.content vr.prior) text ∧
      Request.Reads (e.rt.json 1) text pv := by
  obtain ⟨pin, t, h1, h2⟩ := answered_read hsm hfa hr ha
  obtain ⟨prior, text, hp, hA, hR⟩ := ha.consistent.pledge
  refine ⟨h2.serial.symm.trans ha.consistent.same.symm, text, ?_, hR⟩
  rw [of_content hp]
  exact hA

/-- **C150** (any device for any other): with memory, whichever device the MASA trusts has signed the text that names a serial number, the
answer is the same: two requests of one registrar with the same nonce and the same serial number, signed by any two devices, are
answered alike. -/
theorem C150_blind (O : Ossl) (hsm : Small O) (rt : Rt) (hf : NoFail rt) (c₁ c₂ p₁ p₂ : Bytes) (expires : Tm) (cb : Callback)
    (cert key : Option BinArr) (rc rs pc ps add : Option CertList) (vr₁ vr₂ pv₁ pv₂ : Voucher) (text₁ text₂ t₁ t₂ serial : Bytes)
    (signers : Option CertList)
    (hA₁ : Authentic O rc rs c₁ text₁) (hR₁ : Request.Reads (rt.json 0) text₁ vr₁) (s₁ : SignersOf O c₁ signers)
    (hA₂ : Authentic O rc rs c₂ text₂) (hR₂ : Request.Reads (rt.json 0) text₂ vr₂) (s₂ : SignersOf O c₂ signers)
    (hs₁ : vr₁.serial = some serial) (hs₂ : vr₂.serial = some serial) (hn : vr₁.nonce = vr₂.nonce)
    (hp₁ : vr₁.prior = .of p₁) (hp₂ : vr₂.prior = .of p₂)
    (hB₁ : Authentic O pc ps p₁ t₁) (hQ₁ : Request.Reads (rt.json 1) t₁ pv₁) (hv₁ : pv₁.serial = some serial)
    (hB₂ : Authentic O pc ps p₂ t₂) (hQ₂ : Request.Reads (rt.json 1) t₂ pv₂) (hv₂ : pv₂.serial = some serial) :
    signMasaPledgeVoucher O rt (some (.of c₁)) (some expires) (some cb) cert key rc rs pc ps add =
      signMasaPledgeVoucher O rt (some (.of c₂)) (some expires) (some cb) cert key rc rs pc ps add :=
  C31_blind O hsm rt hf c₁ c₂ expires cb cert key rc rs pc ps add vr₁ pv₁ vr₂ pv₂ serial signers
    ⟨⟨text₁, hA₁, hR₁⟩, hs₁, ⟨p₁, t₁, hp₁, hB₁, hQ₁⟩, hv₁⟩ ⟨⟨text₂, hA₂, hR₂⟩, hs₂, ⟨p₂, t₂, hp₂, hB₂, hQ₂⟩, hv₂⟩ hn s₁ s₂

/-- A text a device may sign: it names S1. -/
def boundText : Bytes := str "{\"ietf-voucher:voucher\":{\"serial-number\":\"S1\"}}"

/-- The request of registrar 7 with this text, signed by device `d`. -/
def boundRequest (d : UInt8) : Bytes :=
  7 :: (str "{\"ietf-voucher:voucher\":{\"serial-number\":\"S1\",\"prior-signed-voucher-request\":\"" ++ rfc4648 (d :: boundText) ++ str "\"}}")

/-- Both of two devices are trusted. -/
theorem toy_both (d : UInt8) (hd : d = 3 ∨ d = 4) (text : Bytes) (hl : text.length < 2 ^ 31) :
    Authentic toy none (some [([3], 0), ([4], 0)]) (d :: text) text := by
  refine ⟨(d, text), rfl, ?_, [], rfl, rfl, fun l h => ?_⟩
  · show text.take _ = _
    exact List.take_of_length_le (by omega)
  · cases h
    refine ⟨[(3 : UInt8), (4 : UInt8)], [], .cert rfl (.cert rfl .nil), ?_⟩
    rcases hd with rfl | rfl <;> simp [toy]

/-- Non-vacuity of `C150_blind`: devices 3 and 4 sign the same text. -/
example : boundRequest 3 ≠ boundRequest 4 ∧
    signMasaPledgeVoucher toy Rt.plain (some (.of (boundRequest 3))) (some demoTime) (some demoCb) (some (.of [1])) (some (.of [1]))
      none (some [([7], 0)]) none (some [([3], 0), ([4], 0)]) none =
    signMasaPledgeVoucher toy Rt.plain (some (.of (boundRequest 4))) (some demoTime) (some demoCb) (some (.of [1])) (some (.of [1]))
      none (some [([7], 0)]) none (some [([3], 0), ([4], 0)]) none := by
  refine ⟨by decide +kernel, ?_⟩
  exact C150_blind toy toy_small Rt.plain noFail_plain _ _ (3 :: boundText) (4 :: boundText) demoTime demoCb _ _ _ _ _ _ _
    { Voucher.init with serial := some (str "S1"), prior := .of (3 :: boundText) }
    { Voucher.init with serial := some (str "S1"), prior := .of (4 :: boundText) }
    { Voucher.init with serial := some (str "S1") } { Voucher.init with serial := some (str "S1") }
    _ _ boundText boundText (str "S1") (some [([7], 0)])
    (toy_authentic 7 _ (by decide +kernel)) ⟨by decide +kernel, by decide +kernel⟩ ⟨(7, _), rfl, .inr ⟨by simp [toy], [[7]], rfl, rfl⟩⟩
    (toy_authentic 7 _ (by decide +kernel)) ⟨by decide +kernel, by decide +kernel⟩ ⟨(7, _), rfl, .inr ⟨by simp [toy], [[7]], rfl, rfl⟩⟩
    rfl rfl rfl rfl rfl
    (toy_both 3 (.inl rfl) _ (by decide +kernel)) ⟨by decide +kernel, by decide +kernel⟩ rfl
    (toy_both 4 (.inr rfl) _ (by decide +kernel)) ⟨by decide +kernel, by decide +kernel⟩ rfl

/-- The code violates C150: the device with certificate 3, whose number is S3, gets a voucher for S1. -/
theorem C150_violated : ¬ C150_statement := by
  intro h
  obtain ⟨hr, ha⟩ := demoAnswered
  have hp : ∃ t, toy.d2iCms (Props.content demoVr.prior) = some ((3 : UInt8), t) := by
    have : (Props.content demoVr.prior).head? = some 3 := by decide +kernel
    cases hc : Props.content demoVr.prior with
    | nil => rw [hc] at this; cases this
    | cons a t =>
      rw [hc] at this
      cases this
      exact ⟨t, rfl⟩
  obtain ⟨t, ht⟩ := hp
  obtain ⟨x, -, hx⟩ := h toy toy_small toy_faithful (fun _ => some (str "S3")) demoMasa _ _ _ _ _ _ hr ha _ ht
  revert hx
  decide

/-! ## C151 -/

/-- What the registrar finds in the certificate of its client, `serialOf` and `issuerOf` telling what there is (specification). -/
structure ClientIs (O : Ossl) (serialOf issuerOf : O.Cert → Option Bytes) (peer : O.Cert) (e : RegEnv) : Prop where
  serial : e.serial = serialOf peer
  issuer : e.issuer = issuerOf peer

/-- **C151** as stated: a request that the registrar passes on is signed with the certificate of the client that sent it. -/
def C151_statement : Prop :=
  ∀ (O : Ossl), Small O → ∀ (serialOf issuerOf : O.Cert → Option Bytes) (peer : O.Cert) (e : RegEnv) (body c : Bytes) (h : Heap)
    (r : Reply), ClientIs O serialOf issuerOf peer e → e.blk.length = 4 → strOk e.serial → (cstr body).length < 2 ^ 63 →
    BodyDecodes e.al e.blk body c → registrarRequestVoucher O e body h = .ok r → r.status = 200 →
    ∀ m, O.d2iCms c = some m → peer ∈ O.signers m

/-- **C151**, the part that holds: the request is signed by some device the registrar trusts, and the text that was signed has the serial
number of the client's certificate; what the MASA gets has this number, the issuer of the client's certificate and the request itself.
Missing: that the client is a signer. -/
theorem C151_partial (O : Ossl) (hsm : Small O) (serialOf issuerOf : O.Cert → Option Bytes) (peer : O.Cert) (e : RegEnv) (body c : Bytes)
    (h : Heap) (r : Reply) (hp : ClientIs O serialOf issuerOf peer e) (hblk : e.blk.length = 4) (hser : strOk e.serial)
    (hsz : (cstr body).length < 2 ^ 63) (hdec : BodyDecodes e.al e.blk body c) (he : registrarRequestVoucher O e body h = .ok r)
    (h200 : r.status = 200) :
    ∃ text pv t serial issuer sent, Authentic O e.pledgeCerts.certs e.pledgeStore.certs c text ∧ Request.Reads (e.rt.json 0) text pv ∧
      serialOf peer = some serial ∧ pv.serial = some serial ∧ issuerOf peer = some issuer ∧
      SignedVoucher O e.signCert.arr e.signKey.arr e.additional.certs (registrarVoucher t serial issuer c pv) sent ∧
      ∃ a, e.masa (rfc4648 sent) = some a := by
  obtain ⟨sent, status, answer, ⟨serial, issuer, t, tls, c', text, pv, h1, h2, -, -, h5, h6, h7, h8, h9⟩, hm, -⟩ :=
    C39_partial O hsm e hblk hser body hsz h r he h200
  have hc : c = c' := by
    unfold BodyDecodes at hdec h5
    rw [hdec] at h5
    simp only [Outcome.ok.injEq, Prod.mk.injEq, Base64.OutPtr.owned.injEq] at h5
    exact h5.2
  subst hc
  exact ⟨text, pv, t, serial, issuer, sent, h6, h7, hp.serial.symm.trans h1, h8.1, hp.issuer.symm.trans h2, h9, _, hm⟩

/-- Two clients, 3 and 4; the number of 4 is S1. -/
theorem demoClient (masa : Bytes → Option (Nat × Bytes)) :
    ClientIs toy (fun x : UInt8 => some (if x = 4 then str "S1" else str "S3")) (fun _ => some [5]) (4 : UInt8) (demoReg masa) :=
  ⟨rfl, rfl⟩

/-- The code violates C151: client 4 has the request passed on that device 3 has signed with the number of 4. -/
theorem C151_violated : ¬ C151_statement := by
  intro h
  obtain ⟨r, hr, h1, -⟩ := demoReg_runs 200 (str "v")
  have hlen : demoPledgeCms.length < 1000 := by decide +kernel
  have hsz : (cstr (rfc4648 demoPledgeCms)).length < 2 ^ 63 := by
    have := rfc_length demoPledgeCms
    omega
  have hp : ∃ t, toy.d2iCms demoPledgeCms = some ((3 : UInt8), t) := ⟨_, rfl⟩
  obtain ⟨t, ht⟩ := hp
  have := h toy toy_small _ _ _ (demoReg fun _ => some (200, str "v")) (rfc4648 demoPledgeCms) demoPledgeCms Heap.empty r (demoClient _)
    rfl (by intro s hs; cases hs; decide) hsz
    (decodes_rfc _ noOom_zero _ _ rfl (by decide +kernel) (by unfold sizeMax; omega)) hr h1 _ ht
  have := List.mem_singleton.1 this
  have this : (4 : UInt8) = 3 := this
  revert this
  decide

/-- Non-vacuity of the condition of `C149_partial`: certificate 7 is configured and registrar 7 is the one that is trusted. -/
example : ∀ (m : toy.Cms) cs xs rs, TrustList toy [([7], 0)] xs rs → toy.trustOk m cs (xs, rs) = true →
    ∃ x ∈ toy.signers m, ∃ pin p, ({ demoMasa with ldevid := .der [7] } : MasaEnv).ldevid = .der pin ∧ toy.d2iX509 pin = some p ∧
      Vouches toy p x := by
  intro m cs xs rs hl ht
  have hxs : xs = [(7 : UInt8)] := by
    cases hl with
    | cert h hr =>
      cases hr
      have h : some (7 : UInt8) = some _ := h
      cases h
      rfl
  subst hxs
  have h7 : m.1 = (7 : UInt8) := List.mem_singleton.1 (of_decide_eq_true ht)
  exact ⟨m.1, List.mem_singleton.2 rfl, [7], (7 : UInt8), rfl, rfl, .inl h7.symm⟩

/-- Non-vacuity of the theorems: `demoAnswered`; who vouches for whom there. -/
example : Vouches toy (8 : UInt8) (8 : UInt8) ∧ ¬ Vouches toy (8 : UInt8) (7 : UInt8) := by
  refine ⟨.inl rfl, ?_⟩
  rintro (h | h)
  · have h : (8 : UInt8) = 7 := h
    revert h
    decide
  · exact h rfl

end Brski.Props
