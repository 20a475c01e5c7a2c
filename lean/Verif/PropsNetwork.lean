import Verif.PropsClient

/-!
# C66 – C69: what the network can do to the pledge
-/

namespace Brski.Props
open Outcome Brski.Voucher VoucherJson Crypto BoolTime Request Base64 Server Brski.Spec Pledge

/-! ## C66 -/

/-- The sizes every real text and array has, for all answers of the network. -/
def NetSized (e : PledgeEnv) (g : Gen) (net : Net) : Prop :=
  (∀ t a, net.second t = some a → Sized e.blk a.body) ∧ ∀ ca t s b, net.enrol ca t = some (s, b) → Sized g.blk b

/-- **C66** as stated: whatever the network answers, onboarding is defined (no released memory is touched) and
everything but the returned certificate and key is released. -/
def C66_statement : Prop :=
  ∀ (O : Ossl) (e : PledgeEnv) (g : Gen) (net : Net) (h : Heap), Small O → Ready e → NetSized e g net → h.Wf →
    ∃ r, postSignCert O e g net h = .ok r ∧ Owns h r.heap (outPtrs r.out)

/-- A run that sent its request and got no answer goes on in the same way with every other answer. -/
theorem postVoucher_reaches {O : Ossl} {e : PledgeEnv} {net : Net} {h : Heap} {r0 : Ran} {t : Bytes}
    (hsz : ∀ s, e.nonce = some s → Sized e.blk s)
    (he : postVoucher O e { net with second := fun _ => none } h = .ok r0) (hs : r0.sent = [.voucher [], .voucher t]) :
    Later h r0.heap ∧ ∀ a, postVoucher O e { net with second := fun _ => some a } h =
      judge O e a [.voucher [], .voucher t] r0.heap := by
  unfold postVoucher at he ⊢
  split at he
  · cases he; cases hs
  · rename_i hcond
    simp only [hcond, if_false]
    cases h1 : net.first with
    | none => simp only [h1] at he; cases he; cases hs
    | some a1 =>
      simp only [h1] at he ⊢
      cases hc : certBuf (e.bufMem 0) (peerCert h a1.cert).1 (peerCert h a1.cert).2 with
      | ub => rw [hc] at he; cases he
      | ok b =>
        rw [hc, bind'_ok] at he
        simp only [bind'_ok]
        obtain ⟨l1, -⟩ := certBuf_inv hc
        obtain ⟨bh, bp⟩ := b
        cases bp with
        | none =>
          obtain ⟨x, y, z⟩ := giveUp_inv he
          rw [z] at hs; cases hs
        | some p =>
          simp only at he ⊢
          cases hf : bh.freePtr (peerCert h a1.cert).2 with
          | ub => rw [hf] at he; cases he
          | ok h2 =>
            rw [hf, bind'_ok] at he
            simp only [bind'_ok]
            have l2 := later_free hf
            cases hb : h2.read p with
            | ub => rw [hb] at he; cases he
            | ok reg =>
              rw [hb, bind'_ok] at he
              simp only [bind'_ok]
              cases hq : requestText O e reg h2 with
              | ub => rw [hq] at he; cases he
              | ok q =>
                rw [hq, bind'_ok] at he
                simp only [bind'_ok]
                obtain ⟨qh, qp⟩ := q
                have l3 := (requestText_inv hsz hq).1
                simp only at he ⊢
                cases hf3 : qh.freePtr (some p) with
                | ub => rw [hf3] at he; cases he
                | ok h3 =>
                  rw [hf3, bind'_ok] at he
                  simp only [bind'_ok]
                  have l4 := later_free hf3
                  cases qp with
                  | none => cases he; cases hs
                  | some tp =>
                    simp only at he ⊢
                    cases hb3 : h3.read tp with
                    | ub => rw [hb3] at he; cases he
                    | ok text =>
                      rw [hb3, bind'_ok] at he
                      simp only [bind'_ok]
                      cases hf4 : h3.freePtr (some tp) with
                      | ub => rw [hf4] at he; cases he
                      | ok h4 =>
                        rw [hf4, bind'_ok] at he
                        simp only [bind'_ok]
                        cases he
                        simp only [List.cons.injEq, Msg.voucher.injEq, and_true, true_and] at hs
                        subst hs
                        exact ⟨l1.trans (l2.trans (l3.trans (l4.trans (later_free hf4)))), fun _ => rfl⟩

/-- An answer the decoder gives up on is fatal. -/
theorem judge_bad {O : Ossl} {e : PledgeEnv} (hs : ∀ s, e.nonce = some s → Sized e.blk s) {c body : Bytes}
    (hbad : base64str2array e.masaAl e.blk (cstr body) = .ok (none, .dangling)) (hmem : e.bufMem 1 = true)
    {status : Nat} (hst : status < 400) (sent : List Msg) {h : Heap} (hw : h.Wf) :
    judge O e ⟨status, some c, body⟩ sent h = .ub := by
  unfold judge
  simp only [show ¬ status ≥ 400 by omega, if_false, peerCert, hmem]
  have l0 := later_alloc h c
  cases hc : certBuf true (h.alloc c).1 (some (h.alloc c).2) with
  | ub => rfl
  | ok b =>
    rw [bind'_ok]
    have hb0 : (h.alloc c).1.blk (h.alloc c).2 = some c := by simp [Heap.alloc]
    simp only [certBuf, Heap.read, hb0, bind'_ok, if_true] at hc
    cases hc
    simp only
    have l1 := l0.trans (later_alloc (h.alloc c).1 c)
    generalize (h.alloc c).1.alloc c = B at l1
    cases hf : B.1.freePtr (some (h.alloc c).2) with
    | ub => rfl
    | ok h2 =>
      rw [bind'_ok]
      have hw2 := (l1.trans (later_free hf)).wf hw
      have hd : decodeBody e.masaAl e.blk h2 body = .ok ⟨(burn h2).1, none, some (burn h2).2, []⟩ := by
        simp only [decodeBody, hbad, bind'_ok]
      rw [hd, bind'_ok]
      simp only
      have st := stale_of_burn hw2
      cases hr : (burn h2).1.read B.2 with
      | ub => rfl
      | ok reg =>
        rw [bind'_ok]
        cases hv : verifyRequest O e (Body.arr ⟨(burn h2).1, none, some (burn h2).2, []⟩) reg (burn h2).1 with
        | ub => rfl
        | ok v =>
          rw [bind'_ok]
          obtain ⟨vh, vp⟩ := v
          have st' := later_stale (verifyRequest_inv hs hv).1 st
          cases vp with
          | none => simp only [giveUp, freeAll_stale [some (burn h2).2, some B.2] st' (by simp)]; rfl
          | some q => simp only [freeAll_stale [some (burn h2).2, some B.2] st' (by simp)]; rfl

/-- **C66**: whoever answers the second connection – the pledge verifies no certificate there – can make any pledge
that sends its request touch released memory, with any text that is badly padded (`dangling_iff`), such as `====`. -/
theorem C66_bad_answer (O : Ossl) (e : PledgeEnv) (hs : ∀ s, e.nonce = some s → Sized e.blk s) (hblk : e.blk.length = 4)
    (net : Net) (h : Heap) (hw : h.Wf) (r0 : Ran) (t : Bytes)
    (h0 : postVoucher O e { net with second := fun _ => none } h = .ok r0) (hsent : r0.sent = [.voucher [], .voucher t])
    (hmem : e.bufMem 1 = true) (c body : Bytes) (hlen : (cstr body).length < 2 ^ 63)
    (hdec : e.masaAl.malloc ((padded (cstr body)).length / 4 * 3) ≠ none)
    (hne : (cstr body).filter isB64Char ≠ []) (hbad : BadPadding (padded (cstr body))) :
    postVoucher O e { net with second := fun _ => some ⟨200, some c, body⟩ } h = .ub := by
  obtain ⟨hl, hrun⟩ := postVoucher_reaches hs h0 hsent
  rw [hrun]
  exact judge_bad hs ((dangling_iff e.masaAl e.blk (cstr body) hblk hlen).2 ⟨hne, hdec, hbad⟩) hmem (by decide) _ (hl.wf hw)

/-- **C66**: the same for the answer to the enrolment. -/
theorem C66_bad_enrolment (g : Gen) (hblk : g.blk.length = 4) (cert key pin : Nat) (sent : List Msg) (h : Heap) (hw : h.Wf)
    (status : Nat) (hst : status < 400) (body : Bytes) (hlen : (cstr body).length < 2 ^ 63)
    (hdec : g.al.malloc ((padded (cstr body)).length / 4 * 3) ≠ none)
    (hne : (cstr body).filter isB64Char ≠ []) (hbad : BadPadding (padded (cstr body))) :
    enrolAnswer g cert key pin sent h (some (status, body)) = .ub := by
  have hb := (dangling_iff g.al g.blk (cstr body) hblk hlen).2 ⟨hne, hdec, hbad⟩
  unfold enrolAnswer
  simp only [show ¬ status ≥ 400 by omega, if_false]
  cases hf : h.freePtr (some cert) with
  | ub => rfl
  | ok h1 =>
    rw [bind'_ok]
    have hw1 := (later_free hf).wf hw
    have hd : decodeBody g.al g.blk h1 body = .ok ⟨(burn h1).1, none, some (burn h1).2, []⟩ := by
      simp only [decodeBody, hb, bind'_ok]
    rw [hd, bind'_ok]
    simp only [enrolFail, freeAll_stale [some (burn h1).2, some key, some pin] (stale_of_burn hw1) (by simp)]
    rfl

/-- **C66**: a configured nonce that was decoded for the request but cannot be decoded again for the check (memory has
run out meanwhile) is released twice, whatever the answer is. -/
theorem C66_nonce_twice (O : Ossl) (e : PledgeEnv) (s : Bytes) (hn : e.nonce = some s) (hsz : Sized e.blk s)
    (hmem : e.nonceMem 1 = true) (hno : ∀ b, ¬ BodyDecodes (e.nonceAl 1) e.blk s b) (cms : BinArr) (reg : Bytes)
    (h : Heap) : verifyRequest O e cms reg h = .ub := by
  have hst : ∀ (h : Heap) (a : Option Nat) (s : Nat), freeAll h ([a, some s] ++ [a, some s]) = .ub := by
    intro h a s
    simp only [List.cons_append, List.nil_append, freeAll]
    cases h.freePtr a with
    | ub => rfl
    | ok h1 =>
      rw [bind'_ok]
      cases hf : h1.freePtr (some s) with
      | ub => rfl
      | ok h2 =>
        rw [bind'_ok]
        have hb : h2.blk s = none := by
          obtain ⟨-, rfl⟩ := Heap.free_ok_inv hf
          simp
        cases hf2 : h2.freePtr a with
        | ub => rfl
        | ok h3 =>
          rw [bind'_ok]
          have h3s : h3.blk s = none := by
            cases a with
            | none => cases hf2; exact hb
            | some a =>
              obtain ⟨-, rfl⟩ := Heap.free_ok_inv hf2
              simp only
              split
              · rfl
              · exact hb
          simp [Heap.freePtr, Heap.free, h3s]
  unfold verifyRequest readNonce
  simp only [hn, hmem, if_true]
  rcases decodeBody_cases (e.nonceAl 1) e.blk hsz.1 (h.alloc []).1 s hsz.2 with ⟨c, h1, -⟩ | ⟨-, h2⟩ | ⟨-, h2⟩
  · exact absurd h1 (hno c)
  · rw [h2]
    simp only [bind'_ok, Option.isSome_none, Bool.false_eq_true, if_false, failed, hst]
    rfl
  · rw [h2]
    simp only [bind'_ok, Option.isSome_none, Bool.false_eq_true, if_false, failed, hst]
    rfl

/-- **C66**, the part that holds: when no answer is badly padded, onboarding is defined and releases
everything but what it returns.  Missing: badly padded answers (`C66_bad_answer`, `C66_bad_enrolment`). -/
theorem C66_partial (O : Ossl) (e : PledgeEnv) (g : Gen) (net : Net) (h : Heap) (hsm : Small O) (hr : Ready e)
    (hsz : NetSized e g net) (hw : h.Wf)
    (hv : ∀ t a, net.second t = some a → ¬ BadPadding (padded (cstr a.body)))
    (he : ∀ ca t s b, net.enrol ca t = some (s, b) → ¬ BadPadding (padded (cstr b))) :
    ∃ r, postSignCert O e g net h = .ok r ∧ Owns h r.heap (outPtrs r.out) :=
  postSignCert_owns hsm hr g net
    (fun t a ha => ⟨hsz.1 t a ha, fun hd =>
      hv t a ha ((dangling_iff _ _ _ (hsz.1 t a ha).1 (hsz.1 t a ha).2).1 hd).2.2⟩)
    (fun ca t s b hb => ⟨hsz.2 ca t s b hb, fun hd =>
      he ca t s b hb ((dangling_iff _ _ _ (hsz.2 ca t s b hb).1 (hsz.2 ca t s b hb).2).1 hd).2.2⟩) hw

/-! ### Instances -/

theorem demo_ready : Ready demoPledge where
  cert := by decide
  key := by decide
  additional := by decide
  lists := by decide
  sized := (demo_sized ⟨none, fun _ => none, fun _ _ => none⟩ (fun _ _ h => by cases h)).1
  padded := fun s hs => by cases hs; decide +kernel
  again := fun s hs _ => by cases hs; exact ⟨[1], by unfold BodyDecodes; decide +kernel⟩
  serial := fun s hs => by cases hs; decide
  voucher := fun h => nomatch h

theorem C66_violated : ¬ C66_statement := by
  intro h
  obtain ⟨r, hr, -⟩ := h toy demoPledge demoGen (demoNet [7] [7] (str "====") []) Heap.empty toy_small demo_ready
    ⟨(demoNet_sized _ _ _ _ (by decide +kernel)).2, fun ca t s b hb => by
      cases hb; exact ⟨rfl, by decide +kernel⟩⟩ Heap.wf_empty
  have := demo_bad
  rw [hr] at this
  cases this

/-- non-vacuity of C66_bad_answer: the text and the run that gets there. -/
example : (postVoucher toy demoPledge { demoNet [7] [7] [] [] with second := fun _ => none } Heap.empty).bind
    (fun r => .ok r.sent.length) = .ok 2 ∧ BadPadding (padded (cstr (str "===="))) ∧
    (cstr (str "====")).filter isB64Char ≠ [] ∧ demoPledge.bufMem 1 = true :=
  ⟨by decide +kernel, ⟨[], str "====", [], by decide +kernel, rfl, by simp, by decide, by decide⟩, by decide +kernel, rfl⟩

/-- An allocator that has nothing left. -/
def noMemory : Allocator := ⟨fun _ => none, fun _ _ h => by cases h⟩

/-- non-vacuity of C66_nonce_twice: no memory at the second time. -/
example : verifyRequest toy { demoPledge with nonceAl := fun _ => noMemory } (.of (1 :: demoIssuedText)) [7]
    Heap.empty = .ub :=
  C66_nonce_twice toy _ (str "AQ==") rfl ⟨rfl, by decide +kernel⟩ rfl (fun b hb => by
    have h0 : base64str2array noMemory [0, 0, 0, 0] (cstr (str "AQ==")) = .ok (none, .null) := by decide +kernel
    exact absurd (h0.symm.trans hb) (by simp)) _ _ _

/-! ## C67 -/

/-- The textual encoding of a certificate (RFC 7468) as one line of base64. -/
def pemText (der : Bytes) : Bytes :=
  str "-----BEGIN CERTIFICATE-----\n" ++ rfc4648 der ++ str "\n-----END CERTIFICATE-----"

theorem certString_pem (der : Bytes) : certString (rfc4648 der) = pemText der := by
  unfold certString pemText
  rw [show str "\n-----END CERTIFICATE-----" = str "\n" ++ str "-----END CERTIFICATE-----" from by decide +kernel]
  simp only [List.append_assoc]

/-- **C67** An enrolment is sent only after a voucher was accepted; the trust anchor handed to that connection is the
pinned certificate of this voucher and nothing else, the body is the certificate generated for the own key, and there is at
most one enrolment. -/
theorem C67_enrolment (O : Ossl) (hsm : Small O) (e : PledgeEnv) (g : Gen) (net : Net) (hsz : RunSized e net)
    (hen : NetSized e g net) (h : Heap) (r : Enrolled) (hr : postSignCert O e g net h = .ok r) (ca body : Bytes)
    (hm : .enrol ca body ∈ r.sent) :
    ∃ ask a r2 pin key own, net.second ask = some a ∧ Checked O e a r2 pin ∧ ca = pemText pin ∧ g.key = some key ∧
      g.cert key = some own ∧ body = rfc4648 own ∧ r.sent = [.voucher [], .voucher ask, .enrol ca body] := by
  rcases postSignCert_inv hsm hsz.1 hen.1 hen.2 hr with ⟨-, h0⟩ | ⟨a1, r1, cms, a2, r2, pin, key, own, -, -, -, h4, h5, h6,
    h7, h8, -⟩
  · exact absurd hm (h0 ca body)
  · rw [h8] at hm
    simp only [List.mem_cons, reduceCtorEq, Msg.enrol.injEq, List.not_mem_nil, or_false, false_or] at hm
    obtain ⟨rfl, rfl⟩ := hm
    exact ⟨rfc4648 cms, a2, r2, pin, key, own, h4, h5, certString_pem pin, h6, h7, rfl, h8⟩

/-- **C67** What is returned: the certificate is what the enrolment was answered with, the key is the generated
one. -/
theorem C67_returned (O : Ossl) (hsm : Small O) (e : PledgeEnv) (g : Gen) (net : Net) (hsz : RunSized e net)
    (hen : NetSized e g net) (h : Heap) (r : Enrolled) (hr : postSignCert O e g net h = .ok r) (c k : Nat)
    (hout : r.out = some (c, k)) :
    ∃ ca body s resp crt key, .enrol ca body ∈ r.sent ∧ net.enrol ca body = some (s, resp) ∧ s < 400 ∧
      BodyDecodes g.al g.blk resp crt ∧ g.key = some key ∧ (∀ b, r.heap.blk c = some b → b = crt) ∧
      ∀ b, r.heap.blk k = some b → b = key := by
  rcases postSignCert_inv hsm hsz.1 hen.1 hen.2 hr with ⟨h0, -⟩ | ⟨a1, r1, cms, a2, r2, pin, key, own, -, -, -, -, -, h6,
    -, h8, h9⟩
  · rw [h0] at hout; cases hout
  · obtain ⟨s, resp, crt, q1, q2, q3, q4, q5⟩ := h9 c k hout
    exact ⟨_, _, s, resp, crt, key, by rw [h8]; simp, q1, q2, q3, h6, q4, q5⟩

/-- **C67** Without an accepted voucher nothing is enrolled and nothing is returned. -/
theorem C67_no_voucher (O : Ossl) (hsm : Small O) (e : PledgeEnv) (g : Gen) (net : Net) (hsz : RunSized e net)
    (hen : NetSized e g net) (h : Heap) (r : Enrolled) (hr : postSignCert O e g net h = .ok r)
    (hno : ∀ t a, net.second t = some a → ∀ c pin, ¬ Checked O e a c pin) :
    r.out = none ∧ ∀ ca body, .enrol ca body ∉ r.sent := by
  rcases postSignCert_inv hsm hsz.1 hen.1 hen.2 hr with h0 | ⟨a1, r1, cms, a2, r2, pin, key, own, -, -, -, h4, h5, -⟩
  · exact h0
  · exact absurd h5 (hno _ a2 h4 r2 pin)

theorem demoGen_sized {c1 c2 body crt : Bytes} (hb : (cstr body).length < 2 ^ 63) (hc : (cstr crt).length < 2 ^ 63) :
    NetSized demoPledge demoGen (demoNet c1 c2 body crt) :=
  ⟨(demoNet_sized _ _ _ _ hb).2, fun ca t s b h => by
    simp only [demoNet, Option.some.injEq, Prod.mk.injEq] at h
    rw [← h.2]
    exact ⟨rfl, hc⟩⟩

theorem enrolView_some {o : Outcome Enrolled} {x y : Option Bytes} {k l : Nat} (h : enrolView o = some (some (x, y), k, l)) :
    ∃ r c key, o = .ok r ∧ r.out = some (c, key) ∧ r.heap.blk c = x ∧ r.heap.blk key = y := by
  cases o with
  | ub => cases h
  | ok r =>
    simp only [enrolView, Option.some.injEq, Prod.mk.injEq] at h
    cases hp : r.out with
    | none => rw [hp] at h; exact absurd h.1 (by simp)
    | some p =>
      rw [hp] at h
      have := Option.some.inj h.1
      exact ⟨r, p.1, p.2, rfl, hp, congrArg Prod.fst this, congrArg Prod.snd this⟩

/-- non-vacuity of C67: the instance returns something (`demo_onboarding`), after an enrolment. -/
example : ∃ r c k ca body, postSignCert toy demoPledge demoGen (demoNet [7] [7] demoVoucherText (str "CQ==")) Heap.empty =
    .ok r ∧ r.out = some (c, k) ∧ .enrol ca body ∈ r.sent := by
  obtain ⟨r, c, k, hr, ho, -, -⟩ := enrolView_some demo_onboarding
  obtain ⟨ca, body, -, -, -, -, hm, -⟩ := C67_returned toy toy_small demoPledge demoGen _
    (demoNet_sized _ _ _ _ demoVoucher_length) (demoGen_sized demoVoucher_length (by decide +kernel)) _ r hr c k ho
  exact ⟨r, c, k, ca, body, hr, ho, hm⟩

/-- non-vacuity of C67_no_voucher: another voucher signer (02) is not trusted; no enrolment, nothing left. -/
example : enrolView (postSignCert toy { demoPledge with verifyStore := .list [([2], 0)] } demoGen
    (demoNet [7] [7] demoVoucherText (str "CQ==")) Heap.empty) = some (none, 2, 0) :=
  demo_untrusted

/-! ## C68 -/

/-- **C68** as stated: the returned certificate belongs to the returned key, for every notion of belonging under
which generated certificates belong to their keys. -/
def C68_statement : Prop :=
  ∀ (O : Ossl) (e : PledgeEnv) (g : Gen) (net : Net) (h : Heap) (r : Enrolled) (c k : Nat) (crt key : Bytes)
    (belongs : Bytes → Bytes → Prop), Small O → RunSized e net → NetSized e g net →
    (∀ key own, g.cert key = some own → belongs own key) → postSignCert O e g net h = .ok r → r.out = some (c, k) →
    r.heap.blk c = some crt → r.heap.blk k = some key → belongs crt key

/-- **C68** is violated: the answer to the enrolment is returned unseen. -/
theorem C68_violated : ¬ C68_statement := by
  intro h
  obtain ⟨r, c, k, hr, ho, hc, hk⟩ := enrolView_some demo_onboarding
  have := h toy demoPledge demoGen _ _ r c k [9] [5] (fun crt key => crt = key ++ [6]) toy_small
    (demoNet_sized _ _ _ _ demoVoucher_length) (demoGen_sized demoVoucher_length (by decide +kernel))
    (fun key own hg => (Option.some.inj hg).symm) hr ho hc hk
  exact absurd this (by decide)

/-- **C68**, the part that holds: if the registrar answers an enrolment with a certificate for the key of the
certificate it was sent, then certificate and key belong together.  Missing: the pledge does not check this. -/
theorem C68_partial (O : Ossl) (hsm : Small O) (e : PledgeEnv) (g : Gen) (net : Net) (hsz : RunSized e net)
    (hen : NetSized e g net) (h : Heap) (r : Enrolled) (c k : Nat) (crt key : Bytes) (belongs : Bytes → Bytes → Prop)
    (hg : ∀ key own, g.cert key = some own → belongs own key)
    (hreg : ∀ ca own s resp crt key, net.enrol ca (rfc4648 own) = some (s, resp) → s < 400 →
      BodyDecodes g.al g.blk resp crt → belongs own key → belongs crt key)
    (hr : postSignCert O e g net h = .ok r) (hout : r.out = some (c, k)) (hc : r.heap.blk c = some crt)
    (hk : r.heap.blk k = some key) : belongs crt key := by
  rcases postSignCert_inv hsm hsz.1 hen.1 hen.2 hr with ⟨h0, -⟩ | ⟨a1, r1, cms, a2, r2, pin, key', own, -, -, -, -, -, -,
    h7, -, h9⟩
  · rw [h0] at hout; cases hout
  · obtain ⟨s, resp, crt', q1, q2, q3, q4, q5⟩ := h9 c k hout
    rw [q4 crt hc, q5 key hk]
    exact hreg _ own s resp crt' key' q1 q2 q3 (hg key' own h7)

/-- non-vacuity of C68_partial: a registrar that sends the certificate back (`BQY=` is 05 06). -/
example : enrolView (postSignCert toy demoPledge demoGen { demoNet [7] [7] demoVoucherText [] with
    enrol := fun _ body => some (200, body) } Heap.empty) = some (some (some [5, 6], some [5]), 3, 2) :=
  demo_echo

/-! ## C69 -/

/-- **C69** as stated: the answer that made the pledge accept in one run does not make it accept in another run at a
different time. -/
def C69_statement : Prop :=
  ∀ (O : Ossl) (e : PledgeEnv) (now : Tm) (net net' : Net) (h h' : Heap) (r r' : Ran) (p p' : Nat) (ask ask' : Bytes)
    (a a' : Answer), Small O → RunSized e net → RunSized e net' → e.nonce ≠ none → e.now ≠ some now →
    postVoucher O e net h = .ok r → r.pinned = some p → r.sent = [.voucher [], .voucher ask] → net.second ask = some a →
    postVoucher O { e with now := some now } net' h' = .ok r' → r'.pinned = some p' →
    r'.sent = [.voucher [], .voucher ask'] → net'.second ask' = some a' → a.body ≠ a'.body

/-- **C69** is violated: the nonce is a constant of the configuration, and the answer is accepted again. -/
theorem C69_violated : ¬ C69_statement := by
  intro hst
  obtain ⟨r, p, hr, hp, -⟩ := ranView_some demo_run
  obtain ⟨r', p', hr', hp', -⟩ := ranView_some demo_replay
  have hsz := demoNet_sized [7] [66] demoVoucherText [] demoVoucher_length
  have hsz' := demoNet_sized [7] [7] demoVoucherText [] demoVoucher_length
  obtain ⟨-, ⟨h1, -⟩ | ⟨a1, r1, cms, -, -, -, h6, -⟩⟩ := postVoucher_inv toy_small hsz.1 hsz.2 hr
  · rw [h1] at hp; cases hp
  · obtain ⟨-, ⟨h1, -⟩ | ⟨a1, r1, cms', -, -, -, h6', -⟩⟩ := postVoucher_inv (e := demoLater) toy_small hsz'.1 hsz'.2 hr'
    · rw [h1] at hp'; cases hp'
    · exact hst toy demoPledge ⟨1, 2, 3, 4, 5, 130, 0, 0, 0⟩ _ _ _ _ r r' p p' _ _ ⟨200, some [66], demoVoucherText⟩
        ⟨200, some [7], demoVoucherText⟩ toy_small hsz hsz' (by decide) (by decide) hr hp h6 rfl hr' hp' h6' rfl rfl

/-- What a text decodes to does not depend on the memory used. -/
theorem decodes_unique {al al' : Allocator} {blk blk' t a b : Bytes} (hs : Sized blk t) (hs' : Sized blk' t)
    (ha : BodyDecodes al blk t a) (hb : BodyDecodes al' blk' t b) : a = b := by
  have key : ∀ {al : Allocator} {blk a : Bytes}, Sized blk t → BodyDecodes al blk t a →
      decBlocks (padded (cstr t)) = some a := by
    intro al blk a hs ha
    unfold BodyDecodes base64str2array at ha
    rw [genDecode_spec al blk (cstr t) hs.1 hs.2] at ha
    unfold padded
    split at ha
    · cases ha
    · split at ha
      · cases ha
      · split at ha
        · cases ha
        · rename_i bs hbs
          rw [bind'_ok] at ha
          simp only [Outcome.ok.injEq, Prod.mk.injEq, OutPtr.owned.injEq] at ha
          rw [hbs, ha.2]
  have h1 := key hs ha
  rw [key hs' hb] at h1
  exact (Option.some.inj h1).symm

/-- **C69**, the part that holds: two pledges, or one pledge with two configurations, whose configured nonces decode to
different values never accept the same answer, whoever signed it and whatever else differs.  Missing: the
pledge makes no nonce of its own, so that a voucher is accepted as long as the configuration stays. -/
theorem C69_partial (O : Ossl) (hsm : Small O) (e e' : PledgeEnv) (hlib : (e.verRt.json 0).lib = (e'.verRt.json 0).lib)
    (s s' b b' : Bytes) (hn : e.nonce = some s) (hn' : e'.nonce = some s') (hb : BodyDecodes (e.nonceAl 1) e.blk s b)
    (hb' : BodyDecodes (e'.nonceAl 1) e'.blk s' b') (hne : b ≠ b') (net net' : Net) (h h' : Heap) (r r' : Ran)
    (p p' : Nat) (ask ask' : Bytes) (a a' : Answer) (hsz : RunSized e net) (hsz' : RunSized e' net')
    (hr : postVoucher O e net h = .ok r) (hp : r.pinned = some p) (hsent : r.sent = [.voucher [], .voucher ask])
    (ha : net.second ask = some a) (hr' : postVoucher O e' net' h' = .ok r') (hp' : r'.pinned = some p')
    (hsent' : r'.sent = [.voucher [], .voucher ask']) (ha' : net'.second ask' = some a') : a.body ≠ a'.body := by
  have key : ∀ {e : PledgeEnv} {net : Net} {h : Heap} {r : Ran} {p : Nat} {ask : Bytes} {a : Answer}, RunSized e net →
      postVoucher O e net h = .ok r → r.pinned = some p → r.sent = [.voucher [], .voucher ask] →
      net.second ask = some a → ∃ c pin, Checked O e a c pin := by
    intro e net h r p ask a hsz hr hp hsent ha
    obtain ⟨-, ⟨h1, -⟩ | ⟨a1, r1, cms, -, -, -, h6, h7⟩⟩ := postVoucher_inv hsm hsz.1 hsz.2 hr
    · rw [h1] at hp; cases hp
    · obtain ⟨-, a2, r2, pin, g1, g2, -⟩ := h7 p hp
      rw [hsent] at h6
      simp only [List.cons.injEq, Msg.voucher.injEq, and_true, true_and] at h6
      rw [← h6, ha] at g1
      cases g1
      exact ⟨r2, pin, g2⟩
  obtain ⟨-, pin, -, -, c, s1, n, v, d1, -, d3, d4, -⟩ := key hsz hr hp hsent ha
  obtain ⟨-, pin', -, -, c', s1', n', v', d1', -, d3', d4', -⟩ := key hsz' hr' hp' hsent' ha'
  intro heq
  rw [← heq] at d1'
  have hc : c = c' := decodes_unique (hsz.2 _ a ha) ⟨(hsz'.2 _ a' ha').1, (hsz.2 _ a ha).2⟩ d1 d1'
  subst hc
  obtain ⟨text, hA, hR⟩ := d4.signed
  obtain ⟨text', hA', hR'⟩ := d4'.signed
  have hl := authentic_small hsm hA
  obtain ⟨m, hm, rfl, -⟩ := hA
  obtain ⟨m', hm', rfl, -⟩ := hA'
  rw [hm] at hm'
  cases hm'
  have hv := reads_same _ _ hlib hl hR hR'
  subst hv
  have nonce : ∀ {e : PledgeEnv} {n : Option BinArr} {s b : Bytes}, (∀ s, e.nonce = some s → Sized e.blk s) →
      NonceIs e 1 n → e.nonce = some s → BodyDecodes (e.nonceAl 1) e.blk s b → n = some (.of b) := by
    intro e n s b hs hN hn hb
    rcases hN with ⟨h, -⟩ | ⟨x, y, hx, rfl, hy⟩
    · rw [hn] at h; cases h
    · rw [hn] at hx
      cases hx
      rw [decodes_unique (hs s hn) (hs s hn) hy hb]
  obtain ⟨x, x1, x2⟩ := d4.nonce_eq _ (nonce hsz.1 d3 hn hb)
  obtain ⟨y, y1, y2⟩ := d4'.nonce_eq _ (nonce hsz'.1 d3' hn' hb')
  have hxy : x = y := of_inj (x1.symm.trans y1)
  apply hne
  have cx : content (BinArr.of b) = b := by simp [content, BinArr.of]
  have cy : content (BinArr.of b') = b' := by simp [content, BinArr.of]
  rw [← cx, ← cy, x2, y2, hxy]

/-- non-vacuity of C69_partial: a pledge with the nonce 02 refuses the voucher the instance accepts; `Ag==` and `AQ==`
decode differently. -/
example : ranView (postVoucher toy { demoPledge with nonce := some (str "Ag==") } (demoNet [7] [7] demoVoucherText [])
    Heap.empty) = some (none, 2) ∧ base64str2array zeroAllocator [0, 0, 0, 0] (str "Ag==") = .ok (some 1, .owned [2]) ∧
    base64str2array zeroAllocator [0, 0, 0, 0] (str "AQ==") = .ok (some 1, .owned [1]) := by
  refine ⟨demo_other_nonce, ?_, ?_⟩ <;> decide +kernel

end Brski.Props
