import Verif.PropsYang

/-!
# C152: devices of different makers with the same serial number
-/

namespace Brski.Props
open Outcome Brski.Voucher VoucherJson Crypto BoolTime Spec Request

/-! ## Specification -/

/-- **C152** as stated: vouchers issued upon requests that name different issuers of the certificate of the device (RFC 8995, section 5.5:
the issuer is there to make the serial number unique) are different vouchers. -/
def C152_statement : Prop :=
  ∀ (O : Ossl), Small O → Faithful O → ∀ (rt : Rt) (c₁ c₂ : Bytes) (expires : Tm), FourDigits expires → ∀ (cb : Callback), CallbackOk cb →
    CallbackProper cb → ∀ (cert key : Option BinArr), ArgWf cert → ArgWf key → ∀ (rc rs pc ps add : Option CertList)
    (vr₁ pv₁ vr₂ pv₂ : Voucher) (s₁ s₂ : Bytes), StringText s₁ → StringText s₂ → ∀ w₁ w₂,
    IssuedAs O rt c₁ expires cb cert key rc rs pc ps add vr₁ pv₁ s₁ w₁ → IssuedAs O rt c₂ expires cb cert key rc rs pc ps add vr₂ pv₂ s₂ w₂ →
    ∀ i₁ i₂, i₁ ≠ [] → i₂ ≠ [] → vr₁.idevidIssuer = .of i₁ → vr₂.idevidIssuer = .of i₂ → i₁ ≠ i₂ → ¬ SameVoucher w₁ w₂

/-! ## C152 -/

/-- **C152** (exactly): no issued voucher names an issuer, whatever the request names. -/
theorem C152_exact (O : Ossl) (hsm : Small O) (hfa : Faithful O) (rt : Rt) (c : Bytes) (expires : Tm) (hex : FourDigits expires)
    (cb : Callback) (hcb : CallbackOk cb) (hcp : CallbackProper cb) (cert key : Option BinArr) (hc : ArgWf cert) (hk : ArgWf key)
    (rc rs pc ps add : Option CertList) (vr pv : Voucher) (serial : Bytes) (hs : StringText serial) (w : Voucher)
    (h : IssuedAs O rt c expires cb cert key rc rs pc ps add vr pv serial w) : w.idevidIssuer = .empty := by
  obtain ⟨pin, hp, hw⟩ := issued_read hsm hfa hex hcb hcp hc hk hs h
  exact hw.idevidIssuer.symm

/-- **C152**, the part that holds: vouchers are different if the serial numbers or the nonces in the requests are.  Missing: requests that
differ in the issuer only. -/
theorem C152_partial (O : Ossl) (hsm : Small O) (hfa : Faithful O) (rt : Rt) (c₁ c₂ : Bytes) (expires : Tm) (hex : FourDigits expires)
    (cb : Callback) (hcb : CallbackOk cb) (hcp : CallbackProper cb) (cert key : Option BinArr) (hc : ArgWf cert) (hk : ArgWf key)
    (rc rs pc ps add : Option CertList) (vr₁ pv₁ vr₂ pv₂ : Voucher) (s₁ s₂ : Bytes) (hs₁ : StringText s₁) (hs₂ : StringText s₂)
    (w₁ w₂ : Voucher) (h₁ : IssuedAs O rt c₁ expires cb cert key rc rs pc ps add vr₁ pv₁ s₁ w₁)
    (h₂ : IssuedAs O rt c₂ expires cb cert key rc rs pc ps add vr₂ pv₂ s₂ w₂) (hd : s₁ ≠ s₂ ∨ vr₁.nonce ≠ vr₂.nonce) :
    ¬ SameVoucher w₁ w₂ := by
  obtain ⟨p, -, a⟩ := issued_read hsm hfa hex hcb hcp hc hk hs₁ h₁
  obtain ⟨q, -, b⟩ := issued_read hsm hfa hex hcb hcp hc hk hs₂ h₂
  intro h
  rcases hd with hd | hd
  · have e : some s₁ = some s₂ := a.serial.trans (h.serial.trans b.serial.symm)
    exact hd (Option.some.inj e)
  · exact hd (a.nonce.trans (h.nonce.trans b.nonce.symm))

/-- **C152** (the issuer is not looked at): with memory, requests of one registrar with the same serial number and the same nonce, of any
two issuers, are answered with the same bytes, so that whoever accepts the one voucher accepts the other. -/
theorem C152_blind (O : Ossl) (hsm : Small O) (rt : Rt) (hf : NoFail rt) (c₁ c₂ : Bytes) (expires : Tm) (cb : Callback)
    (cert key : Option BinArr) (rc rs pc ps add : Option CertList) (vr₁ pv₁ pv₂ : Voucher) (i prior : BinArr) (serial : Bytes)
    (signers : Option CertList) (h₁ : Consistent O rt c₁ rc rs pc ps vr₁ pv₁ serial)
    (h₂ : Consistent O rt c₂ rc rs pc ps { vr₁ with idevidIssuer := i, prior := prior } pv₂ serial) (s₁ : SignersOf O c₁ signers)
    (s₂ : SignersOf O c₂ signers) :
    signMasaPledgeVoucher O rt (some (.of c₁)) (some expires) (some cb) cert key rc rs pc ps add =
      signMasaPledgeVoucher O rt (some (.of c₂)) (some expires) (some cb) cert key rc rs pc ps add :=
  C31_blind O hsm rt hf c₁ c₂ expires cb cert key rc rs pc ps add vr₁ pv₁ _ pv₂ serial signers h₁ h₂ rfl s₁ s₂

/-- The request of the instance for a device of the issuer `i` (specification of an instance). -/
def makerRequest (i : Bytes) : Bytes :=
  7 :: (str "{\"ietf-voucher:voucher\":{\"serial-number\":\"S1\",\"idevid-issuer\":\"" ++ rfc4648 i ++
    str "\",\"nonce\":\"AQ==\",\"prior-signed-voucher-request\":\"" ++ rfc4648 demoInner ++ str "\"}}")

/-- Devices of the makers 5 and 6. -/
theorem maker_consistent (i : Bytes) (hi : i = [5] ∨ i = [6]) : Consistent toy Rt.plain (makerRequest i) none (some [([7], 0)]) none
    (some [([3], 0)]) { demoVr with idevidIssuer := .of i } demoPv (str "S1") := by
  rcases hi with rfl | rfl
  · exact ⟨⟨_, toy_authentic 7 _ (by decide +kernel), by decide +kernel, by decide +kernel⟩, rfl, demo_consistent.pledge, rfl⟩
  · exact ⟨⟨_, toy_authentic 7 _ (by decide +kernel), by decide +kernel, by decide +kernel⟩, rfl, demo_consistent.pledge, rfl⟩

theorem maker_issued (i : Bytes) (hi : i = [5] ∨ i = [6]) : IssuedAs toy Rt.plain (makerRequest i) ⟨0, 0, 0, 1, 0, 130, 0, 0, 0⟩ demoCb
    (some (.of [1])) (some (.of [1])) none (some [([7], 0)]) none (some [([3], 0)]) none { demoVr with idevidIssuer := .of i } demoPv
    (str "S1") demoIssued := by
  refine ⟨maker_consistent i hi, _, none, some [([1], 0)], _, Env.plain, ?_, toy_authentic 1 _ (by decide +kernel), demoIssued_reads⟩
  have : demoIssue = signMasaPledgeVoucher toy Rt.plain (some (.of (makerRequest i))) (some ⟨0, 0, 0, 1, 0, 130, 0, 0, 0⟩) (some demoCb)
      (some (.of [1])) (some (.of [1])) none (some [([7], 0)]) none (some [([3], 0)]) none :=
    C152_blind toy toy_small Rt.plain noFail_plain _ _ _ _ _ _ _ _ _ _ _ demoVr demoPv demoPv (.of i) demoVr.prior (str "S1")
      (some [([7], 0)]) demo_consistent (maker_consistent i hi) ⟨(7, _), rfl, .inr ⟨by simp [toy], [[7]], rfl, rfl⟩⟩
      ⟨(7, _), rfl, .inr ⟨by simp [toy], [[7]], rfl, rfl⟩⟩
  rw [← this]
  exact demoIssue_eq

/-- The code violates C152: the device S1 of maker 5 and the device S1 of maker 6 get the same voucher. -/
theorem C152_violated : ¬ C152_statement := by
  intro h
  have hw : ArgWf (some (BinArr.of [1])) := fun n h => by cases h; exact wf_of _
  refine h toy toy_small toy_faithful Rt.plain (makerRequest [5]) (makerRequest [6]) _ demoExpiry_ok demoCb demoCb_ok demoCb_proper _ _ hw hw
    _ _ _ _ _ _ _ _ _ _ _ demoSerial_text demoSerial_text demoIssued demoIssued (maker_issued [5] (.inl rfl)) (maker_issued [6] (.inr rfl))
    [5] [6] (by decide) (by decide) rfl rfl (by decide) ?_
  exact ⟨⟨rfl, rfl, rfl, rfl, rfl, rfl⟩, ⟨rfl, rfl, rfl, rfl, rfl, rfl⟩, ⟨rfl, rfl, rfl, rfl, rfl, rfl⟩, rfl, rfl, rfl, rfl, rfl, rfl, rfl, rfl⟩

/-- Non-vacuity: `maker_issued`; the requests are different, and one with another nonce is told apart. -/
example : makerRequest [5] ≠ makerRequest [6] ∧ demoVr.nonce ≠ ({ demoVr with nonce := .of [2] } : Voucher).nonce := by
  constructor <;> decide +kernel

end Brski.Props
