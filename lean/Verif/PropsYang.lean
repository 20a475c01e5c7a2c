import Verif.PropsExact2
import Verif.PropsAdversary
import Verif.Server

/-!
# C148: issued vouchers and the constraints of RFC 8366
-/

namespace Brski.Props
open Outcome Brski.Voucher VoucherJson Crypto BoolTime Spec Request Server

/-! ## Specification -/

/-- The attribute of a voucher that was read is a date (specification). -/
def HasDate (t : Tm) : Prop := ∃ d : DateTime, tmHolds t d ∧ d.Valid

/-- The constraints of RFC 8366, section 5.3, on the attributes of a voucher: created-on, assertion, serial-number and
pinned-domain-cert are mandatory, and a voucher with a nonce does not expire (specification). -/
structure Conforms (w : Voucher) : Prop where
  created : HasDate w.createdOn
  assertion : w.assertion = 1 ∨ w.assertion = 2 ∨ w.assertion = 3
  serial : ∃ s, w.serial = some s
  pinned : ∃ b, b ≠ [] ∧ w.pinned = .of b
  nonce : ¬ (w.nonce ≠ .empty ∧ HasDate w.expiresOn)

/-- The voucher `w` can be read from the message the MASA issues for the request `c`, whose parts are `vr` and `pv` (specification). -/
def IssuedAs (O : Ossl) (rt : Rt) (c : Bytes) (expires : Tm) (cb : Callback) (cert key : Option BinArr)
    (rc rs pc ps add : Option CertList) (vr pv : Voucher) (serial : Bytes) (w : Voucher) : Prop :=
  Consistent O rt c rc rs pc ps vr pv serial ∧ ∃ cms certs store text env,
    signMasaPledgeVoucher O rt (some (.of c)) (some expires) (some cb) cert key rc rs pc ps add = .ok (some cms) ∧
    Authentic O certs store cms text ∧ Request.Reads env text w

/-- **C148** as stated: every voucher the MASA issues satisfies the constraints. -/
def C148_statement : Prop :=
  ∀ (O : Ossl), Small O → Faithful O → ∀ (rt : Rt) (c : Bytes) (expires : Tm), FourDigits expires → ∀ (cb : Callback), CallbackOk cb →
    CallbackProper cb → ∀ (cert key : Option BinArr), ArgWf cert → ArgWf key → ∀ (rc rs pc ps add : Option CertList) (vr pv : Voucher)
    (serial : Bytes), StringText serial → ∀ w, IssuedAs O rt c expires cb cert key rc rs pc ps add vr pv serial w → Conforms w

/-! ## C148 -/

/-- What is read from an issued voucher. -/
theorem issued_read {O : Ossl} (hsm : Small O) (hfa : Faithful O) {rt : Rt} {c : Bytes} {expires : Tm} (hex : FourDigits expires)
    {cb : Callback} (hcb : CallbackOk cb) (hcp : CallbackProper cb) {cert key : Option BinArr} (hc : ArgWf cert) (hk : ArgWf key)
    {rc rs pc ps add : Option CertList} {vr pv : Voucher} {serial : Bytes} (hs : StringText serial) {w : Voucher}
    (h : IssuedAs O rt c expires cb cert key rc rs pc ps add vr pv serial w) :
    ∃ pin, Proper pin ∧ SameVoucher (issuedVoucher serial vr.nonce pin expires) w := by
  obtain ⟨hcon, cms, certs, store, text, env, hi, hA, hR⟩ := h
  obtain ⟨x, vr', pv', serial', signers, pin, ex, hcon', -, hpin, hsig⟩ := C29_consistent O hsm rt _ expires cb hcb cert key
    rc rs pc ps add (fun y hy => by cases hy; exact wf_of c) hc hk cms hi
  cases ex
  obtain ⟨rfl, rfl, rfl⟩ := consistent_unique hcon hcon'
  obtain ⟨⟨rtext, hrA, hrR⟩, hnm, -, -⟩ := hcon
  have hvrok : VoucherOk vr := deserialize_voucherOk _ _ (by have := authentic_small hsm hrA; omega) _ hrR.2
  have hser := serial_ok hvrok hnm
  exact ⟨pin, hcp _ _ _ hpin, signed_read hsm hfa hsig hA hR (issuedVoucher_ok hvrok.2.2.2.1 hser.1 hser.2) (issuedVoucher_times hex)
    (issuedVoucher_full (hcp _ _ _ hpin) (reads_full (authentic_small hsm hrA) hrR)) (issuedVoucher_plain hs)⟩

theorem sameTime_date {t u : Tm} (h : sameTime t u) : HasDate t ↔ HasDate u := by
  obtain ⟨h1, h2, h3, h4, h5, h6⟩ := h
  unfold HasDate tmHolds
  rw [h1, h2, h3, h4, h5, h6]

/-- **C148**, the part that holds: assertion, serial number and pinned certificate are there.  Missing: the date of creation, and that a
voucher with a nonce does not expire. -/
theorem C148_partial (O : Ossl) (hsm : Small O) (hfa : Faithful O) (rt : Rt) (c : Bytes) (expires : Tm) (hex : FourDigits expires)
    (cb : Callback) (hcb : CallbackOk cb) (hcp : CallbackProper cb) (cert key : Option BinArr) (hc : ArgWf cert) (hk : ArgWf key)
    (rc rs pc ps add : Option CertList) (vr pv : Voucher) (serial : Bytes) (hs : StringText serial) (w : Voucher)
    (h : IssuedAs O rt c expires cb cert key rc rs pc ps add vr pv serial w) :
    w.assertion = 3 ∧ w.serial = some serial ∧ ∃ b, b ≠ [] ∧ w.pinned = .of b := by
  obtain ⟨pin, hp, hw⟩ := issued_read hsm hfa hex hcb hcp hc hk hs h
  exact ⟨hw.assertion.symm, hw.serial.symm, pin, hp.1, hw.pinned.symm⟩

/-- **C148** (never): no voucher the MASA issues satisfies the constraints, whatever the request: none has a date of creation, all have a
date of expiry, and all those with a nonce in the request have both this nonce and the date. -/
theorem C148_never (O : Ossl) (hsm : Small O) (hfa : Faithful O) (rt : Rt) (c : Bytes) (expires : Tm) (hex : FourDigits expires)
    (cb : Callback) (hcb : CallbackOk cb) (hcp : CallbackProper cb) (cert key : Option BinArr) (hc : ArgWf cert) (hk : ArgWf key)
    (rc rs pc ps add : Option CertList) (vr pv : Voucher) (serial : Bytes) (hs : StringText serial) (w : Voucher)
    (h : IssuedAs O rt c expires cb cert key rc rs pc ps add vr pv serial w) :
    ¬ Conforms w ∧ ¬ HasDate w.createdOn ∧ HasDate w.expiresOn ∧ w.nonce = vr.nonce := by
  obtain ⟨pin, hp, hw⟩ := issued_read hsm hfa hex hcb hcp hc hk hs h
  have h1 : ¬ HasDate w.createdOn := by
    rw [← sameTime_date hw.createdOn]
    rintro ⟨d, ⟨-, -, h3, -⟩, hv⟩
    have h3 : (0 : Int) = d.d := h3
    have := hv.2.2.2.1
    omega
  have h2 : HasDate w.expiresOn := by
    rw [← sameTime_date hw.expiresOn]
    obtain ⟨d, g1, g2, -⟩ := hex
    exact ⟨d, g1, g2⟩
  exact ⟨fun hc => h1 hc.created, h1, h2, hw.nonce.symm⟩

/-- The MASA of the instance issues a voucher that is read as `demoIssued`. -/
theorem demoIssued_as : IssuedAs toy Rt.plain demoRequest ⟨0, 0, 0, 1, 0, 130, 0, 0, 0⟩ demoCb (some (.of [1])) (some (.of [1])) none
    (some [([7], 0)]) none (some [([3], 0)]) none demoVr demoPv (str "S1") demoIssued :=
  ⟨demo_consistent, _, none, some [([1], 0)], _, Env.plain, demoIssue_eq, toy_authentic 1 _ (by decide +kernel), demoIssued_reads⟩

theorem demoExpiry_ok : FourDigits ⟨0, 0, 0, 1, 0, 130, 0, 0, 0⟩ :=
  ⟨⟨2030, 1, 1, 0, 0, 0⟩, ⟨rfl, rfl, rfl, rfl, rfl, rfl⟩, by unfold DateTime.Valid; decide, by decide⟩

theorem demoSerial_text : StringText (str "S1") := .of_plain (by decide)

/-- The code violates C148. -/
theorem C148_violated : ¬ C148_statement := by
  intro h
  have hw : ArgWf (some (BinArr.of [1])) := fun n h => by cases h; exact wf_of _
  have hc := h toy toy_small toy_faithful Rt.plain demoRequest _ demoExpiry_ok demoCb demoCb_ok demoCb_proper _ _ hw hw _ _ _ _ _ _ _ _
    demoSerial_text _ demoIssued_as
  exact (C148_never toy toy_small toy_faithful Rt.plain demoRequest _ demoExpiry_ok demoCb demoCb_ok demoCb_proper _ _ hw hw _ _ _ _ _ _ _ _
    demoSerial_text _ demoIssued_as).1 hc

/-- **C148** (the default configuration): without a date of expiry in its configuration, as in the one delivered, a MASA issues nothing
at all: every request is answered with 400. -/
theorem C148_unset (O : Ossl) (e : MasaEnv) (he : ∀ text, e.expiresOn = some text → str2time e.lib text = none) (body : Bytes) (h : Heap) :
    masaRequestVoucher O e body h none = .ok ⟨h, none, 400, []⟩ := by
  have : e.expiresOn.bind (str2time e.lib) = none := by
    cases hx : e.expiresOn with
    | none => rfl
    | some t => exact he t hx
  unfold masaRequestVoucher
  rw [this]
  rfl

/-- Non-vacuity: the voucher of the instance has a nonce and a date of expiry; what would conform. -/
example : demoIssued.nonce ≠ .empty ∧ HasDate demoIssued.expiresOn ∧ ¬ Conforms demoIssued ∧
    Conforms { demoIssued with createdOn := ⟨0, 0, 0, 1, 0, 130, 0, 0, 0⟩, expiresOn := Tm.zero } := by
  have hz : ¬ HasDate Tm.zero := by
    rintro ⟨d, ⟨-, -, h3, -⟩, hv⟩
    have h3 : (0 : Int) = d.d := h3
    have := hv.2.2.2.1
    omega
  refine ⟨by decide, ⟨⟨2030, 1, 1, 0, 0, 0⟩, ⟨rfl, rfl, rfl, rfl, rfl, rfl⟩, by unfold DateTime.Valid; decide⟩, fun h => hz h.created, ?_⟩
  exact ⟨⟨⟨2030, 1, 1, 0, 0, 0⟩, ⟨rfl, rfl, rfl, rfl, rfl, rfl⟩, by unfold DateTime.Valid; decide⟩, .inr (.inr rfl), ⟨_, rfl⟩,
    ⟨[8], by decide, rfl⟩, fun h => hz h.2⟩

end Brski.Props
