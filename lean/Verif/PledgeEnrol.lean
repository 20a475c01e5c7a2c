import Verif.PledgeOwns

/-!
# What an enrolment by the pledge tells
-/

namespace Brski.Pledge
open Outcome Brski.Voucher VoucherJson Crypto BoolTime Request Base64 Server Brski.Props Brski.Spec

theorem peer_blk {h : Heap} {c : Option Bytes} {p : Nat} (hp : (peerCert h c).2 = some p) :
    p < (peerCert h c).1.next ∧ ∃ b, c = some b ∧ ∀ x, (peerCert h c).1.blk p = some x → x = b := by
  cases c with
  | none => cases hp
  | some b =>
    cases hp
    refine ⟨by simp [peerCert, Heap.alloc], b, rfl, fun x hx => ?_⟩
    simp only [peerCert, Heap.alloc, if_true, Option.some.injEq] at hx
    exact hx.symm

theorem enrolFail_inv {h : Heap} {ps : List (Option Nat)} {sent : List Msg} {r : Enrolled}
    (e : enrolFail h ps sent = .ok r) : Later h r.heap ∧ r.out = none ∧ r.sent = sent := by
  unfold enrolFail at e
  cases hf : freeAll h ps with
  | ub => rw [hf] at e; cases e
  | ok h' => rw [hf, bind'_ok] at e; cases e; exact ⟨later_freeAll hf, rfl, rfl⟩

/-- What is returned comes from an answer that is no error. -/
theorem enrolAnswer_inv {g : Gen} {cert key pin : Nat} {sent : List Msg} {h : Heap} {a : Option (Nat × Bytes)}
    (ha : ∀ s b, a = some (s, b) → Sized g.blk b) {r : Enrolled} (e : enrolAnswer g cert key pin sent h a = .ok r) :
    Later h r.heap ∧ r.sent = sent ∧ ∀ c k, r.out = some (c, k) → k = key ∧ ∃ s body crt, a = some (s, body) ∧ s < 400 ∧
      BodyDecodes g.al g.blk body crt ∧ ∀ b, r.heap.blk c = some b → b = crt := by
  unfold enrolAnswer at e
  cases a with
  | none =>
    obtain ⟨x, y, z⟩ := enrolFail_inv e
    exact ⟨x, z, fun c k h => by rw [y] at h; cases h⟩
  | some a =>
    obtain ⟨status, body⟩ := a
    simp only at e
    by_cases hst : status ≥ 400
    · rw [if_pos hst] at e
      obtain ⟨x, y, z⟩ := enrolFail_inv e
      exact ⟨x, z, fun c k h => by rw [y] at h; cases h⟩
    · rw [if_neg hst] at e
      cases hf : h.freePtr (some cert) with
      | ub => rw [hf] at e; cases e
      | ok h1 =>
        rw [hf, bind'_ok] at e
        have l1 := later_free hf
        obtain ⟨s1, s2⟩ := ha status body rfl
        rcases decodeBody_cases g.al g.blk s1 h1 body s2 with ⟨c, q0, q⟩ | ⟨-, q⟩ | ⟨-, q⟩
        · rw [q, bind'_ok] at e
          simp only at e
          cases hf2 : freeAll (h1.alloc c).1 [some pin] with
          | ub => rw [hf2] at e; cases e
          | ok h2 =>
            rw [hf2, bind'_ok] at e
            cases e
            have l2 := later_freeAll hf2
            refine ⟨l1.trans ((later_alloc h1 c).trans l2), rfl, fun c' k' hh => ?_⟩
            cases hh
            refine ⟨rfl, status, body, c, rfl, by omega, q0, fun b hb => ?_⟩
            have := l2.keep _ b (by simp only [Heap.alloc]; omega) hb
            simp only [Heap.alloc, if_true, Option.some.injEq] at this
            exact this.symm
        · rw [q, bind'_ok] at e
          simp only at e
          obtain ⟨x, y, z⟩ := enrolFail_inv e
          exact ⟨l1.trans x, z, fun c k h => by rw [y] at h; cases h⟩
        · rw [q, bind'_ok] at e
          simp only at e
          obtain ⟨x, y, z⟩ := enrolFail_inv e
          exact ⟨l1.trans ((later_burn h1).trans x), z, fun c k h => by rw [y] at h; cases h⟩

/-- An enrolment message carries the pinned certificate as trust anchor and the own certificate as body. -/
theorem enrol_inv {g : Gen} {net : Net} (hnet : ∀ ca t s b, net.enrol ca t = some (s, b) → Sized g.blk b)
    {cert key : Option Nat} {pin : Nat} {sent : List Msg} {h : Heap} {r : Enrolled}
    (e : enrol g net cert key pin sent h = .ok r) :
    Later h r.heap ∧ ((r.out = none ∧ r.sent = sent) ∨ ∃ pb cp kp own, h.blk pin = some pb ∧ cert = some cp ∧
      key = some kp ∧ h.blk cp = some own ∧ r.sent = sent ++ [.enrol (certString (rfc4648 pb)) (rfc4648 own)] ∧
      ∀ c k, r.out = some (c, k) → k = kp ∧ ∃ s body crt,
        net.enrol (certString (rfc4648 pb)) (rfc4648 own) = some (s, body) ∧ s < 400 ∧
        BodyDecodes g.al g.blk body crt ∧ ∀ b, r.heap.blk c = some b → b = crt) := by
  unfold enrol at e
  have fail : enrolFail h [cert, key, some pin] sent = .ok r → Later h r.heap ∧ r.out = none ∧ r.sent = sent := enrolFail_inv
  cases hb : h.blk pin with
  | none => simp only [Heap.read, hb] at e; cases e
  | some pb =>
    simp only [Heap.read, hb, bind'_ok] at e
    cases hs : array2base64str g.caOut pb with
    | ub => rw [hs] at e; cases e
    | ok s =>
      rw [hs, bind'_ok] at e
      cases s with
      | none => obtain ⟨x, y, z⟩ := fail e; exact ⟨x, .inl ⟨y, z⟩⟩
      | some s =>
        obtain ⟨ca, m⟩ := s
        have hca := cstr_encoded hs
        cases cert with
        | none => obtain ⟨x, y, z⟩ := enrolFail_inv e; exact ⟨x, .inl ⟨y, z⟩⟩
        | some cp =>
          cases key with
          | none => obtain ⟨x, y, z⟩ := enrolFail_inv e; exact ⟨x, .inl ⟨y, z⟩⟩
          | some kp =>
            simp only at e
            cases hc : h.blk cp with
            | none => rw [hc] at e; cases e
            | some own =>
              rw [hc] at e
              simp only [bind'_ok] at e
              cases hs2 : array2base64str g.bodyOut own with
              | ub => rw [hs2] at e; cases e
              | ok s =>
                rw [hs2, bind'_ok] at e
                cases s with
                | none => obtain ⟨x, y, z⟩ := enrolFail_inv e; exact ⟨x, .inl ⟨y, z⟩⟩
                | some s =>
                  obtain ⟨body, m'⟩ := s
                  have hbody := cstr_encoded hs2
                  simp only [hca, hbody] at e
                  obtain ⟨x, y, z⟩ := enrolAnswer_inv (fun s b q => hnet _ _ s b q) e
                  exact ⟨x, .inr ⟨pb, cp, kp, own, rfl, rfl, rfl, hc, y, z⟩⟩

/-- A run of `post_sign_cert`. -/
theorem postSignCert_inv {O : Ossl} (hsm : Small O) {e : PledgeEnv} (hs : ∀ s, e.nonce = some s → Sized e.blk s)
    {net : Net} (hnet : ∀ t a, net.second t = some a → Sized e.blk a.body) {g : Gen}
    (hen : ∀ ca t s b, net.enrol ca t = some (s, b) → Sized g.blk b) {h : Heap} {r : Enrolled}
    (he : postSignCert O e g net h = .ok r) :
    (r.out = none ∧ ∀ ca body, .enrol ca body ∉ r.sent) ∨
    ∃ a1 r1 cms a2 r2 pin key own, net.first = some a1 ∧ a1.cert = some r1 ∧ Asked O e r1 cms ∧
      net.second (rfc4648 cms) = some a2 ∧ Checked O e a2 r2 pin ∧ g.key = some key ∧ g.cert key = some own ∧
      r.sent = [.voucher [], .voucher (rfc4648 cms), .enrol (certString (rfc4648 pin)) (rfc4648 own)] ∧
      ∀ c k, r.out = some (c, k) → ∃ s body crt,
        net.enrol (certString (rfc4648 pin)) (rfc4648 own) = some (s, body) ∧ s < 400 ∧
        BodyDecodes g.al g.blk body crt ∧ (∀ b, r.heap.blk c = some b → b = crt) ∧
        ∀ b, r.heap.blk k = some b → b = key := by
  unfold postSignCert at he
  split at he
  · simp only at he
    have hk := fun p => @peer_blk h g.key p
    generalize peerCert h g.key = K at he hk
    have hc := fun p => @peer_blk K.1 (g.key.bind g.cert) p
    have lk := later_peer K.1 (g.key.bind g.cert)
    generalize peerCert K.1 (g.key.bind g.cert) = C at he hc lk
    cases hp : postVoucher O e net C.1 with
    | ub => rw [hp] at he; cases he
    | ok v =>
      rw [hp, bind'_ok] at he
      obtain ⟨l1, hv⟩ := postVoucher_inv hsm hs hnet hp
      obtain ⟨vh, vp, vs⟩ := v
      cases vp with
      | none =>
        simp only at he hv
        obtain ⟨-, y, z⟩ := enrolFail_inv he
        refine .inl ⟨y, fun ca body hm => ?_⟩
        rw [z] at hm
        rcases hv with ⟨-, q | q⟩ | ⟨a1, r1, cms, -, -, -, q, -⟩ <;> subst q <;> simp at hm
      | some pin =>
        simp only at he hv
        rcases hv with ⟨q, -⟩ | ⟨a1, r1, cms, h1, h2, h3, h4, h5⟩
        · cases q
        · obtain ⟨hpn, a2, r2, pb, g1, g2, g3⟩ := h5 pin rfl
          obtain ⟨l2, ⟨y, z⟩ | ⟨pb', cp, kp, own, q1, q2, q3, q4, q5, q6⟩⟩ := enrol_inv hen he
          · refine .inl ⟨y, fun ca body hm => ?_⟩
            rw [z, h4] at hm
            simp at hm
          · have := g3 pb' q1
            subst this
            obtain ⟨kn, key, hkey, hkb⟩ := hk kp q3
            obtain ⟨cn, own', hown, hcb⟩ := hc cp q2
            have := hcb own (l1.keep cp own cn q4)
            subst this
            rw [hkey] at hown
            refine .inr ⟨a1, r1, cms, a2, r2, pb', key, own, h1, h2, h3, g1, g2, hkey, hown, by rw [q5, h4]; rfl, ?_⟩
            intro c k hck
            obtain ⟨rfl, s, body, crt, w1, w2, w3, w4⟩ := q6 c k hck
            exact ⟨s, body, crt, w1, w2, w3, w4, fun b hb => hkb b (((lk.trans l1).trans l2).keep k b kn hb)⟩
  · cases he
    exact .inl ⟨rfl, fun _ _ hm => by cases hm⟩

end Brski.Pledge
