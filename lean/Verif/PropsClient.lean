import Verif.PledgeEnrol
import Verif.PledgeRuns
import Verif.PledgeRuns2
import Verif.PropsFlow

/-!
# C54, C66 – C69: the pledge as a client
-/

namespace Brski.Props
open Outcome Brski.Voucher VoucherJson Crypto BoolTime Request Base64 Server Brski.Spec Pledge

/-! ## C54 -/

/-- The sizes every real text and array has (see `Sized`), for the configured nonce and all answers. -/
def RunSized (e : PledgeEnv) (net : Net) : Prop :=
  (∀ s, e.nonce = some s → Sized e.blk s) ∧ ∀ t a, net.second t = some a → Sized e.blk a.body

/-- **C54** as stated: when the pledge accepts, everybody who reads the request it sent finds in it the registrar
certificate that was presented together with the accepted voucher. -/
def C54_statement : Prop :=
  ∀ (O : Ossl) (e : PledgeEnv) (net : Net) (h : Heap) (r : Ran) (p : Nat) (cms : Bytes) (a : Answer),
    Small O → Faithful O → RunSized e net → postVoucher O e net h = .ok r → r.pinned = some p →
    r.sent = [.voucher [], .voucher (rfc4648 cms)] → net.second (rfc4648 cms) = some a →
    ∀ certs store text env w, Authentic O certs store cms text → Reads env text w → a.cert = some (content w.proximity)

/-- **C54**, what the run guarantees in general: the request names the certificate `r1` of the first connection, the
voucher is checked against the certificate `r2` of the second. -/
theorem C54_two_certificates (O : Ossl) (hsm : Small O) (e : PledgeEnv) (hser : strOk e.serial) (net : Net)
    (hsz : RunSized e net) (h : Heap) (r : Ran) (p : Nat) (hr : postVoucher O e net h = .ok r) (hp : r.pinned = some p) :
    ∃ a1 a2 r1 r2 t s n cms pin, net.first = some a1 ∧ a1.cert = some r1 ∧ e.serial = some s ∧ requestTime e = some t ∧
      NonceIs e 0 n ∧ SignedVoucher O e.signCert.arr e.signKey.arr e.additional.certs (pledgeVoucher t s n r1) cms ∧
      r.sent = [.voucher [], .voucher (rfc4648 cms)] ∧ net.second (rfc4648 cms) = some a2 ∧ Checked O e a2 r2 pin ∧
      ∀ b, r.heap.blk p = some b → b = pin := by
  obtain ⟨-, ⟨h1, -⟩ | ⟨a1, r1, cms, h1, h2, ⟨t, n, h3, h4, h5⟩, h6, h7⟩⟩ := postVoucher_inv hsm hsz.1 hsz.2 hr
  · rw [h1] at hp; cases hp
  · obtain ⟨-, a2, r2, pin, g1, g2, g3⟩ := h7 p hp
    rcases C26_pledge_request O e.reqRt t e.serial n (some (.of r1)) e.signCert.arr e.signKey.arr e.additional.certs hser
      h4.wf (fun y hy => by cases hy; exact wf_of r1) (arr_wf _) (arr_wf _) with q | ⟨s, r', cms', q1, q2, -, q3, q4⟩
    · rw [q] at h5; cases h5
    · rw [q4] at h5
      cases h5
      have : r1 = r' := of_inj (Option.some.inj q2)
      subst this
      exact ⟨a1, a2, r1, r2, t, s, n, cms, pin, h1, h2, q1, h3, h4, q3, h6, g1, g2, g3⟩

/-- The nonce of the configuration, if any, can be stored and read back. -/
def NonceProper (e : PledgeEnv) : Prop := ∀ s b, e.nonce = some s → BodyDecodes (e.nonceAl 0) e.blk s b → Proper b

theorem rfc_injective {a b : Bytes} (h : rfc4648 a = rfc4648 b) : a = b := by
  rw [← enc_eq_rfc, ← enc_eq_rfc] at h
  have := decBlocks_enc a
  rw [h, decBlocks_enc b] at this
  exact (Option.some.inj this).symm

/-- **C54**, the part that holds: if both connections present the same certificate, then whoever reads the request
finds the certificate the voucher was checked against.  Missing: nothing makes the two connections end at the same
server (`C54_violated`). -/
theorem C54_partial (O : Ossl) (hsm : Small O) (hfa : Faithful O) (e : PledgeEnv) (net : Net) (hsz : RunSized e net)
    (h : Heap) (r : Ran) (p : Nat) (cms : Bytes) (a1 a : Answer) (hr : postVoucher O e net h = .ok r)
    (hp : r.pinned = some p) (hsent : r.sent = [.voucher [], .voucher (rfc4648 cms)])
    (hfirst : net.first = some a1) (hsecond : net.second (rfc4648 cms) = some a) (hsame : a1.cert = a.cert)
    (hreg : ∀ x, a1.cert = some x → Proper x) (hnon : NonceProper e)
    (htime : ∀ t, requestTime e = some t → FourDigits t)
    (hser : ∀ s, e.serial = some s → StringText s ∧ s.length ≤ 127) :
    ∀ certs store text env w, Authentic O certs store cms text → Reads env text w →
      a.cert = some (content w.proximity) := by
  intro certs store text env w hA hR
  have h0 : strOk e.serial := fun s hs => not_nul_of_text (hser s hs).1
  obtain ⟨a1', a2, r1, r2, t, s, n, cms', pin, g1, g2, g3, g4, g5, g6, g7, -⟩ :=
    C54_two_certificates O hsm e h0 net hsz h r p hr hp
  rw [hfirst] at g1
  cases g1
  rw [hsent] at g7
  simp only [List.cons.injEq, Msg.voucher.injEq, and_true, true_and] at g7
  have := rfc_injective g7
  subst this
  obtain ⟨hpl, hl⟩ := hser s g3
  have hn : ∃ n' : Option Bytes, n = n'.map .of ∧ ∀ b, n' = some b → Proper b := by
    rcases g5 with ⟨-, rfl⟩ | ⟨x, b, hx, rfl, hb⟩
    · exact ⟨none, rfl, fun b hb => by cases hb⟩
    · exact ⟨some b, rfl, fun b' hb' => by cases hb'; exact hnon x b hx hb⟩
  obtain ⟨n', rfl, hn'⟩ := hn
  have hsv := signed_read hsm hfa g6 hA hR (pledgeVoucher_ok g5.wf (h0 s g3) hl) (pledgeVoucher_times (htime t g4))
    (pledgeVoucher_full (hreg r1 g2) hn') (pledgeVoucher_plain hpl)
  have := hsv.proximity
  rw [← hsame, g2, ← this]
  rfl

/-! ### Instances -/

theorem ranView_some {o : Outcome Ran} {x : Option Bytes} {k : Nat} (h : ranView o = some (some x, k)) :
    ∃ r p, o = .ok r ∧ r.pinned = some p ∧ r.heap.blk p = x := by
  cases o with
  | ub => cases h
  | ok r =>
    simp only [ranView, Option.some.injEq, Prod.mk.injEq] at h
    cases hp : r.pinned with
    | none => rw [hp] at h; exact absurd h.1 (by simp)
    | some p => rw [hp] at h; exact ⟨r, p, rfl, hp, Option.some.inj h.1⟩

theorem demo_sized (net : Net) (hn : ∀ t a, net.second t = some a → (cstr a.body).length < 2 ^ 63) :
    RunSized demoPledge net :=
  ⟨fun s hs => by cases hs; exact ⟨rfl, by decide +kernel⟩, fun t a ha => ⟨rfl, hn t a ha⟩⟩

theorem demoVoucher_length : (cstr demoVoucherText).length < 2 ^ 63 := by decide +kernel

theorem demoNet_sized (c1 c2 body crt : Bytes) (hb : (cstr body).length < 2 ^ 63) :
    RunSized demoPledge (demoNet c1 c2 body crt) :=
  demo_sized _ fun t a ha => by
    simp only [demoNet, Option.some.injEq] at ha
    subst ha
    exact hb

/-- The request the instance makes for the certificate 07. -/
def demoAskText : Bytes :=
  str "{\"ietf-voucher:voucher\":{\"created-on\":\"2020-06-04T03:02:01Z\",\"assertion\":\"proximity\",\"serial-number\":\"S1\",\"domain-cert-revocation-checks\":false,\"nonce\":\"AQ==\",\"proximity-registrar-cert\":\"Bw==\"}}"

theorem demo_asked {cms : Bytes} (h : Asked toy demoPledge [7] cms) : cms = 3 :: demoAskText := by
  obtain ⟨t, n, h1, h2, h3⟩ := h
  cases h1
  have hn : n = some (.of [1]) := by
    rcases h2 with ⟨h, -⟩ | ⟨s, b, hs, rfl, hb⟩
    · cases h
    · cases hs
      unfold BodyDecodes at hb
      rw [show base64str2array (demoPledge.nonceAl 0) demoPledge.blk (cstr (str "AQ==")) = .ok (some 1, .owned [1])
        from by decide +kernel] at hb
      injection hb with hb; injection hb with _ hb; injection hb with hb
      rw [hb]
  subst hn
  have : signPledgeVoucherRequest toy demoPledge.reqRt (some ⟨1, 2, 3, 4, 5, 120, 0, 0, 0⟩) demoPledge.serial (some (.of [1]))
      (some (.of [7])) demoPledge.signCert.arr demoPledge.signKey.arr demoPledge.additional.certs =
      .ok (some (3 :: demoAskText)) := by decide +kernel
  rw [this] at h3
  cases h3
  rfl

/-- **C54** is violated: the first connection ends at the server with certificate 07, the second at the one with
certificate 66 (0x42).  The pledge accepts the voucher although its request names the former. -/
theorem C54_violated : ¬ C54_statement := by
  intro hst
  obtain ⟨r, p, hr, hp, -⟩ := ranView_some demo_run
  have hsz := demoNet_sized [7] [66] demoVoucherText [] demoVoucher_length
  obtain ⟨-, ⟨h1, -⟩ | ⟨a1, r1, cms, h1, h2, h3, h6, h7⟩⟩ := postVoucher_inv toy_small hsz.1 hsz.2 hr
  · rw [h1] at hp; cases hp
  · cases h1
    cases h2
    have := demo_asked h3
    subst this
    obtain ⟨v, hv, hpr⟩ : ∃ v, Reads Env.plain demoAskText v ∧ content v.proximity = [7] := by
      cases hd : deserialize Env.plain demoAskText with
      | ub => exact absurd hd (by decide +kernel)
      | ok o =>
        cases o with
        | none => exact absurd hd (by decide +kernel)
        | some v =>
          refine ⟨v, ⟨by decide +kernel, hd⟩, ?_⟩
          have : (deserialize Env.plain demoAskText).bind (fun o => .ok (o.map fun v => content v.proximity)) =
            .ok (some [7]) := by decide +kernel
          rw [hd] at this
          simpa using this
    have := hst toy demoPledge _ Heap.empty r p _ ⟨200, some [66], demoVoucherText⟩ toy_small toy_faithful hsz hr hp h6 rfl
      none (some [([3], 0)]) demoAskText Env.plain v (toy_authentic 3 _ (by decide +kernel)) hv
    rw [hpr] at this
    exact absurd this (by decide)

/-- non-vacuity of C54_partial and C54_two_certificates: with the same certificate on both connections the run
accepts too, and the hypotheses on the configuration hold. -/
example : (ranView (postVoucher toy demoPledge (demoNet [7] [7] demoVoucherText []) Heap.empty) =
    some (some (some [8]), 2)) ∧ Small toy ∧ Faithful toy ∧ RunSized demoPledge (demoNet [7] [7] demoVoucherText []) ∧
    (∀ x, (demoNet [7] [7] demoVoucherText []).first.bind (·.cert) = some x → Proper x) ∧ NonceProper demoPledge ∧
    (∀ t, requestTime demoPledge = some t → FourDigits t) ∧
    (∀ s, demoPledge.serial = some s → StringText s ∧ s.length ≤ 127) := by
  refine ⟨demo_same, toy_small, toy_faithful, demoNet_sized _ _ _ _ demoVoucher_length, ?_, ?_, ?_, ?_⟩
  · intro x hx; cases hx; exact ⟨by simp, by decide +kernel⟩
  · intro s b hs hb
    cases hs
    unfold BodyDecodes at hb
    rw [show base64str2array (demoPledge.nonceAl 0) demoPledge.blk (cstr (str "AQ==")) = .ok (some 1, .owned [1])
      from by decide +kernel] at hb
    injection hb with hb; injection hb with _ hb; injection hb with hb
    rw [← hb]
    exact ⟨by simp, by decide +kernel⟩
  · intro t ht
    cases ht
    exact ⟨⟨2020, 6, 4, 3, 2, 1⟩, by unfold tmHolds; decide, by unfold DateTime.Valid; decide, by decide⟩
  · intro s hs
    cases hs
    exact ⟨.of_plain (by decide +kernel), by decide +kernel⟩

end Brski.Props
