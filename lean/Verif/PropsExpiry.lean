import Verif.PropsPledge

/-!
# C34: on what the decision of the pledge depends
-/

namespace Brski.Props
open Outcome Brski.Voucher VoucherJson Crypto BoolTime Spec Request

theorem acceptable_of (O : Ossl) (rt : Rt) (c₁ c₂ t₂ : Bytes) (certs store : Option CertList) (serial : Bytes)
    (nonce : Option BinArr) (t₁ : Bytes) (v₁ v₂ v : Voucher) (pin : Bytes)
    (a₁ : Authentic O certs store c₁ t₁) (r₁ : Request.Reads (rt.json 0) t₁ v₁)
    (a₂ : Authentic O certs store c₂ t₂) (r₂ : Request.Reads (rt.json 0) t₂ v₂)
    (hs : v₁.serial = v₂.serial) (hn : v₁.nonce = v₂.nonce) (hp : v₁.pinned = v₂.pinned)
    (h : Acceptable O rt c₁ certs store serial nonce v pin) :
    Acceptable O rt c₂ certs store serial nonce v₂ pin := by
  obtain ⟨⟨t, ⟨m, hm, ht, -⟩, hr⟩, q1, q2, q3⟩ := h
  obtain ⟨m', hm', ht', -⟩ := a₁
  have hmm : m' = m := by rw [hm] at hm'; cases hm'; rfl
  subst hmm
  have htt : t = t₁ := ht.symm.trans ht'
  subst htt
  have hv : v = v₁ := by
    have := hr.2.symm.trans r₁.2
    cases this; rfl
  subst hv
  exact ⟨⟨t₂, a₂, r₂⟩, hs ▸ q1, hn ▸ q2, hp ▸ q3⟩

/-- **C34**, exactly how much is looked at: two messages that pass the same signature check and
hold vouchers with the same serial number, nonce and pinned certificate are accepted by the same
pledges with the same result, whatever the vouchers say about their expiry, their creation and
anything else, and whatever the time.  (Memory is at hand.) -/
theorem C34_blind (O : Ossl) (hsm : Small O) (rt : Rt) (hf : NoFail rt) (c₁ c₂ t₁ t₂ r serial : Bytes)
    (nonce : Option BinArr) (dom certs store : Option CertList) (hnw : ArgWf nonce) (v₁ v₂ : Voucher)
    (a₁ : Authentic O certs store c₁ t₁) (r₁ : Request.Reads (rt.json 0) t₁ v₁)
    (a₂ : Authentic O certs store c₂ t₂) (r₂ : Request.Reads (rt.json 0) t₂ v₂)
    (hs : v₁.serial = v₂.serial) (hn : v₁.nonce = v₂.nonce) (hp : v₁.pinned = v₂.pinned) (pinned : BinArr) :
    verifyMasaPledgeVoucher O rt (some (.of c₁)) (some serial) nonce (some (.of r)) dom certs store false =
        .ok (some pinned) ↔
      verifyMasaPledgeVoucher O rt (some (.of c₂)) (some serial) nonce (some (.of r)) dom certs store false =
        .ok (some pinned) := by
  have key : ∀ (c d tc td : Bytes) (v w : Voucher), Authentic O certs store c tc → Request.Reads (rt.json 0) tc v →
      Authentic O certs store d td → Request.Reads (rt.json 0) td w → v.serial = w.serial → v.nonce = w.nonce →
      v.pinned = w.pinned →
      verifyMasaPledgeVoucher O rt (some (.of c)) (some serial) nonce (some (.of r)) dom certs store false =
        .ok (some pinned) →
      verifyMasaPledgeVoucher O rt (some (.of d)) (some serial) nonce (some (.of r)) dom certs store false =
        .ok (some pinned) := by
    intro c d tc td v w ac rc ad rd e1 e2 e3 h
    obtain ⟨x, s, u, pin, r', h1, h2, h3, hacc, hch, h4⟩ := C32_acceptance O hsm rt _ _ _ _ _ _ _ _
      (fun n h => by cases h; exact wf_of _) hnw (wf_of _) _ h
    cases h1; cases h2; subst h4
    have hr : r' = r := by
      simp only [BinArr.of, BinArr.mk.injEq, Option.some.injEq] at h3
      exact h3.1.symm
    subst hr
    exact C32_complete O hsm rt hf d r' serial pin nonce dom certs store hnw w
      (acceptable_of O rt c d td certs store serial nonce tc v w u pin ac rc ad rd e1 e2 e3 hacc) hch
  exact ⟨key _ _ _ _ _ _ a₁ r₁ a₂ r₂ hs hn hp, key _ _ _ _ _ _ a₂ r₂ a₁ r₁ hs.symm hn.symm hp.symm⟩

/-- The voucher of the instance with an expiry in 1990 (concrete case, read at
/repo/src/voucher/voucher.c:718-724). -/
def demoOldText : Bytes :=
  str "{\"ietf-voucher:voucher\":{\"expires-on\":\"1990-01-01T00:00:00Z\",\"assertion\":\"proximity\",\"serial-number\":\"S1\",\"pinned-domain-cert\":\"CA==\",\"domain-cert-revocation-checks\":false,\"nonce\":\"AQ==\"}}"

/-- A concrete case of C34_blind: the voucher of the instance and the same voucher expired in
1990 meet its hypotheses, and both are accepted. -/
example : ∃ v, Request.Reads (Rt.plain.json 0) demoOldText v ∧ v.expiresOn ≠ demoIssued.expiresOn ∧
    Authentic toy none (some [([1], 0)]) (1 :: demoOldText) demoOldText ∧
    verifyMasaPledgeVoucher toy Rt.plain (some (.of (1 :: demoOldText))) (some (str "S1")) (some (.of [1]))
      (some (.of [7])) none none (some [([1], 0)]) false = .ok (some (.of [8])) := by
  have ha := toy_authentic 1 demoOldText (by decide +kernel)
  have hr : Request.Reads (Rt.plain.json 0) demoOldText
      { demoIssued with expiresOn := ⟨0, 0, 0, 1, 0, 90, 1, 0, 0⟩ } := ⟨by decide +kernel, by decide +kernel⟩
  refine ⟨_, hr, by decide, ha, ?_⟩
  exact (C34_blind toy toy_small Rt.plain noFail_plain (1 :: demoIssuedText) _ _ _ [7] (str "S1") (some (.of [1])) none none _
    (fun n h => by cases h; exact wf_of [1]) _ _ (toy_authentic 1 _ (by decide +kernel)) demoIssued_reads ha hr rfl rfl rfl _).1
    (by decide +kernel)

end Brski.Props
