import Verif.PledgeRuns2

/-!
# C113: only a reply that reports success is used

RFC 8995 (5.6) and RFC 7030 (4.2.3) let a voucher and a certificate come with status 200 only; 202 says "come back
later", 3xx redirects.  The pledge compares the status of the last two answers with 400 and never looks at the status of
the first (/repo/src/brski/pledge/pledge_request.cpp:118-125,151-166,335-352).
-/

namespace Brski.Props
open Outcome Brski.Voucher VoucherJson Crypto BoolTime Request Base64 Server Brski.Spec Pledge

/-- The status of the reply to the `i`-th message sent. -/
def replyStatus (net : Net) : Nat → Msg → Option Nat
  | 0, _ => net.first.map (·.status)
  | _ + 1, .voucher b => (net.second b).map (·.status)
  | _ + 1, .enrol ca b => (net.enrol ca b).map (·.1)

/-- **C113.** Whenever the pledge ends up with a certificate, every reply it has used reported success: its status
was 200. -/
def C113_statement : Prop :=
  ∀ (O : Ossl) (e : PledgeEnv) (g : Gen) (net : Net) (h : Heap) (r : Enrolled), postSignCert O e g net h = .ok r →
    r.out.isSome → ∀ i m, r.sent[i]? = some m → replyStatus net i m = some 200

/-- The network of the instance with other statuses. -/
def statusNet (s1 s2 s3 : Nat) (crt : Bytes) : Net where
  first := some ⟨s1, some [7], []⟩
  second := fun _ => some ⟨s2, some [7], demoVoucherText⟩
  enrol := fun _ _ => some (s3, crt)

/-- Two networks that differ in nothing but the statuses, and in those only so that no status crosses 400; the first
status is free. -/
structure AlikeNets (n n' : Net) : Prop where
  first : n.first.map (fun a => (a.cert, a.body)) = n'.first.map fun a => (a.cert, a.body)
  second : ∀ b, (n.second b).map (fun a => (decide (a.status < 400), a.cert, a.body)) =
    (n'.second b).map fun a => (decide (a.status < 400), a.cert, a.body)
  enrol : ∀ ca b, (n.enrol ca b).map (fun a => (decide (a.1 < 400), a.2)) =
    (n'.enrol ca b).map fun a => (decide (a.1 < 400), a.2)

theorem judge_alike {O : Ossl} {e : PledgeEnv} {a a' : Answer} {sent : List Msg} {h : Heap}
    (q : (decide (a.status < 400), a.cert, a.body) = (decide (a'.status < 400), a'.cert, a'.body)) :
    judge O e a sent h = judge O e a' sent h := by
  obtain ⟨s, c, b⟩ := a
  obtain ⟨s', c', b'⟩ := a'
  simp only [Prod.mk.injEq] at q
  obtain ⟨q1, rfl, rfl⟩ := q
  unfold judge
  have : (s ≥ 400) = (s' ≥ 400) := by
    by_cases h1 : s < 400
    · have : s' < 400 := by simpa [h1] using q1
      simp; omega
    · have : ¬s' < 400 := by simpa [h1] using q1
      simp; omega
  simp only [this]

theorem enrolAnswer_alike {g : Gen} {c k p : Nat} {sent : List Msg} {h : Heap} {a a' : Option (Nat × Bytes)}
    (q : a.map (fun a => (decide (a.1 < 400), a.2)) = a'.map fun a => (decide (a.1 < 400), a.2)) :
    enrolAnswer g c k p sent h a = enrolAnswer g c k p sent h a' := by
  match a, a', q with
  | none, none, _ => rfl
  | some (s, b), some (s', b'), q =>
    simp only [Option.map_some, Option.some.injEq, Prod.mk.injEq] at q
    obtain ⟨q1, rfl⟩ := q
    unfold enrolAnswer
    have : (s ≥ 400) = (s' ≥ 400) := by
      by_cases h1 : s < 400
      · have : s' < 400 := by simpa [h1] using q1
        simp; omega
      · have : ¬s' < 400 := by simpa [h1] using q1
        simp; omega
    simp only [this]

theorem postVoucher_alike {O : Ossl} {e : PledgeEnv} {n n' : Net} (q : AlikeNets n n') {h : Heap} :
    postVoucher O e n h = postVoucher O e n' h := by
  have q1 := q.first
  unfold postVoucher
  have second : ∀ (t : Bytes) (h : Heap),
      (match n.second t with
        | none => Outcome.ok (⟨h, none, [.voucher [], .voucher t]⟩ : Ran)
        | some a => judge O e a [.voucher [], .voucher t] h) =
      (match n'.second t with
        | none => Outcome.ok (⟨h, none, [.voucher [], .voucher t]⟩ : Ran)
        | some a => judge O e a [.voucher [], .voucher t] h) := by
    intro t h
    have q2 := q.second t
    match h1 : n.second t, h2 : n'.second t with
    | none, none => rfl
    | none, some _ => rw [h1, h2] at q2; simp at q2
    | some _, none => rw [h1, h2] at q2; simp at q2
    | some a, some a' =>
      rw [h1, h2] at q2
      simp only [Option.map_some, Option.some.injEq] at q2
      exact judge_alike q2
  split
  · rfl
  match h1 : n.first, h2 : n'.first with
  | none, none => rfl
  | none, some _ => rw [h1, h2] at q1; simp at q1
  | some _, none => rw [h1, h2] at q1; simp at q1
  | some a, some a' =>
    rw [h1, h2] at q1
    simp only [Option.map_some, Option.some.injEq, Prod.mk.injEq] at q1
    simp only [q1.1]
    refine congrArg _ (funext fun b => ?_)
    cases b.2 with
    | none => rfl
    | some p =>
      dsimp only
      refine congrArg _ (funext fun h => congrArg _ (funext fun reg => congrArg _ (funext fun q => congrArg _ (funext fun h => ?_))))
      cases q.2 with
      | none => rfl
      | some t =>
        dsimp only
        exact congrArg _ (funext fun text => congrArg _ (funext fun h => second _ _))

theorem enrol_alike {g : Gen} {n n' : Net} (q : AlikeNets n n') {c k : Option Nat} {p : Nat} {sent : List Msg} {h : Heap} :
    enrol g n c k p sent h = enrol g n' c k p sent h := by
  unfold enrol
  have : ∀ c k ca b, enrolAnswer g c k p (sent ++ [.enrol ca b]) h (n.enrol ca b) =
      enrolAnswer g c k p (sent ++ [.enrol ca b]) h (n'.enrol ca b) := fun c k ca b => enrolAnswer_alike (q.enrol ca b)
  simp only [this]

/-- **C113, what the statuses decide:** exactly the side of 400 on which the second and the third lie.  Two networks
that differ in nothing else lead to the same result, the same memory and the same messages — also in the undefined
case; whatever the first status is. -/
theorem C113_blind (O : Ossl) (e : PledgeEnv) (g : Gen) {n n' : Net} (q : AlikeNets n n') (h : Heap) :
    postVoucher O e n h = postVoucher O e n' h ∧ postSignCert O e g n h = postSignCert O e g n' h := by
  refine ⟨postVoucher_alike q, ?_⟩
  unfold postSignCert
  simp only [postVoucher_alike q, enrol_alike q]

theorem bind_inv' {α β : Type} {x : Outcome α} {f : α → Outcome β} {b : β} (h : x.bind f = .ok b) :
    ∃ a, x = .ok a ∧ f a = .ok b := by
  cases x with
  | ub => cases h
  | ok a => exact ⟨a, rfl, h⟩

theorem giveUp_none {h : Heap} {ps : List (Option Nat)} {sent : List Msg} {r : Ran} (e : giveUp h ps sent = .ok r) :
    r.pinned = none := by
  obtain ⟨_, -, e⟩ := bind_inv' e
  cases e; rfl

theorem enrolFail_none {h : Heap} {ps : List (Option Nat)} {sent : List Msg} {r : Enrolled}
    (e : enrolFail h ps sent = .ok r) : r.out = none := by
  obtain ⟨_, -, e⟩ := bind_inv' e
  cases e; rfl

theorem judge_status {O : Ossl} {e : PledgeEnv} {a : Answer} {sent : List Msg} {h : Heap} {r : Ran}
    (q : judge O e a sent h = .ok r) (s : r.pinned.isSome) : a.status < 400 ∧ r.sent = sent := by
  unfold judge at q
  simp only at q
  split at q
  · rw [giveUp_none q] at s; cases s
  next hs =>
    refine ⟨by omega, ?_⟩
    obtain ⟨b, -, q⟩ := bind_inv' q
    split at q
    · rw [giveUp_none q] at s; cases s
    obtain ⟨_, -, q⟩ := bind_inv' q
    obtain ⟨_, -, q⟩ := bind_inv' q
    obtain ⟨_, -, q⟩ := bind_inv' q
    obtain ⟨v, -, q⟩ := bind_inv' q
    split at q
    · rw [giveUp_none q] at s; cases s
    obtain ⟨_, -, q⟩ := bind_inv' q
    cases q; rfl

theorem postVoucher_status {O : Ossl} {e : PledgeEnv} {n : Net} {h : Heap} {r : Ran} (q : postVoucher O e n h = .ok r)
    (s : r.pinned.isSome) :
    ∃ a0 t a, n.first = some a0 ∧ n.second t = some a ∧ a.status < 400 ∧ r.sent = [.voucher [], .voucher t] := by
  unfold postVoucher at q
  split at q
  · cases q; cases s
  split at q
  · cases q; cases s
  next a0 h0 =>
    obtain ⟨b, -, q⟩ := bind_inv' q
    split at q
    · rw [giveUp_none q] at s; cases s
    obtain ⟨_, -, q⟩ := bind_inv' q
    obtain ⟨_, -, q⟩ := bind_inv' q
    obtain ⟨_, -, q⟩ := bind_inv' q
    obtain ⟨_, -, q⟩ := bind_inv' q
    split at q
    · cases q; cases s
    obtain ⟨text, -, q⟩ := bind_inv' q
    obtain ⟨_, -, q⟩ := bind_inv' q
    split at q
    · cases q; cases s
    next a ha =>
      obtain ⟨q1, q2⟩ := judge_status q s
      exact ⟨a0, _, a, h0, ha, q1, q2⟩

theorem enrolAnswer_status {g : Gen} {c k p : Nat} {sent : List Msg} {h : Heap} {a : Option (Nat × Bytes)} {r : Enrolled}
    (q : enrolAnswer g c k p sent h a = .ok r) (s : r.out.isSome) : (∃ x, a = some x ∧ x.1 < 400) ∧ r.sent = sent := by
  unfold enrolAnswer at q
  split at q
  · rw [enrolFail_none q] at s; cases s
  next st body =>
    split at q
    · rw [enrolFail_none q] at s; cases s
    next hs =>
      refine ⟨⟨_, rfl, by simp only; omega⟩, ?_⟩
      obtain ⟨_, -, q⟩ := bind_inv' q
      obtain ⟨b, -, q⟩ := bind_inv' q
      split at q
      · obtain ⟨_, -, q⟩ := bind_inv' q
        cases q; rfl
      · rw [enrolFail_none q] at s; cases s

theorem enrol_status {g : Gen} {n : Net} {c k : Option Nat} {p : Nat} {sent : List Msg} {h : Heap} {r : Enrolled}
    (q : enrol g n c k p sent h = .ok r) (s : r.out.isSome) :
    ∃ ca b x, n.enrol ca b = some x ∧ x.1 < 400 ∧ r.sent = sent ++ [.enrol ca b] := by
  unfold enrol at q
  obtain ⟨_, -, q⟩ := bind_inv' q
  obtain ⟨_, -, q⟩ := bind_inv' q
  split at q
  · rw [enrolFail_none q] at s; cases s
  split at q
  · obtain ⟨_, -, q⟩ := bind_inv' q
    obtain ⟨_, -, q⟩ := bind_inv' q
    split at q
    · rw [enrolFail_none q] at s; cases s
    · obtain ⟨⟨x, h1, h2⟩, h3⟩ := enrolAnswer_status q s
      exact ⟨_, _, x, h1, h2, h3⟩
  · rw [enrolFail_none q] at s; cases s

/-- **C113, the part that holds:** three messages were sent and answered, and the second and the third reply did not
report an error: their status was below 400. -/
theorem C113_partial (O : Ossl) (e : PledgeEnv) (g : Gen) (net : Net) (h : Heap) {r : Enrolled}
    (q : postSignCert O e g net h = .ok r) (s : r.out.isSome) :
    (∃ t ca b, r.sent = [.voucher [], .voucher t, .enrol ca b]) ∧
    (∀ i m, r.sent[i]? = some m → ∃ st, replyStatus net i m = some st ∧ (1 ≤ i → st < 400)) := by
  unfold postSignCert at q
  split at q
  · obtain ⟨v, hv, q⟩ := bind_inv' q
    split at q
    · rw [enrolFail_none q] at s; cases s
    next pin hp =>
      obtain ⟨a0, t, a, h0, h1, h2, h3⟩ := postVoucher_status hv (by rw [hp]; rfl)
      obtain ⟨ca, b, x, e1, e2, e3⟩ := enrol_status q s
      rw [h3] at e3
      refine ⟨⟨t, ca, b, e3⟩, fun i m hm => ?_⟩
      rw [e3] at hm
      match i, hm with
      | 0, _ => exact ⟨a0.status, by simp [replyStatus, h0], by omega⟩
      | 1, hm =>
        simp at hm
        subst hm
        exact ⟨a.status, by simp [replyStatus, h1], fun _ => h2⟩
      | 2, hm =>
        simp at hm
        subst hm
        exact ⟨x.1, by simp [replyStatus, e1], fun _ => e2⟩
      | i + 3, hm => simp at hm
  · cases q; cases s

/-- The networks of the instance are alike whatever the statuses below 400. -/
theorem statusNet_alike {s1 s2 s3 t1 t2 t3 : Nat} {crt : Bytes} (h2 : s2 < 400) (h3 : s3 < 400) (k2 : t2 < 400)
    (k3 : t3 < 400) : AlikeNets (statusNet s1 s2 s3 crt) (statusNet t1 t2 t3 crt) where
  first := rfl
  second := fun _ => by simp [statusNet, h2, k2]
  enrol := fun _ _ => by simp [statusNet, h3, k3]

/-- Every combination of statuses below 400 (the first: any) leads to the end of `demo_onboarding`. -/
theorem demo_status (s1 : Nat) {s2 s3 : Nat} (h2 : s2 < 400) (h3 : s3 < 400) :
    enrolView (postSignCert toy demoPledge demoGen (statusNet s1 s2 s3 (str "CQ==")) Heap.empty) =
      some (some (some [9], some [5]), 3, 2) := by
  rw [(C113_blind toy demoPledge demoGen
    (statusNet_alike (t1 := 400) (t2 := 200) (t3 := 200) h2 h3 (by omega) (by omega)) Heap.empty).2]
  exact demo_onboarding

/-- **C113 is violated:** a first answer 500, a voucher with 302 and a "certificate" with 202 are all used. -/
theorem C113_violated : ¬C113_statement := by
  intro hs
  have hd := demo_status 500 (s2 := 302) (s3 := 202) (by omega) (by omega)
  match hr : postSignCert toy demoPledge demoGen (statusNet 500 302 202 (str "CQ==")) Heap.empty, hd with
  | .ok r, hd =>
    simp only [enrolView, Option.some.injEq, Prod.mk.injEq] at hd
    obtain ⟨h1, h2, -⟩ := hd
    have hl : 0 < r.sent.length := by omega
    have := hs toy demoPledge demoGen _ Heap.empty r hr (by cases ho : r.out <;> simp [ho] at h1 ⊢) 0 r.sent[0]
      (List.getElem?_eq_getElem hl)
    simp [replyStatus, statusNet] at this

/-- A concrete case of `C113_blind`: "come back later" (202) with a body is taken for the certificate as 200 is. -/
example : postSignCert toy demoPledge demoGen (statusNet 200 200 202 (str "CQ==")) Heap.empty =
    postSignCert toy demoPledge demoGen (statusNet 400 200 200 (str "CQ==")) Heap.empty :=
  (C113_blind toy demoPledge demoGen (statusNet_alike (by omega) (by omega) (by omega) (by omega)) Heap.empty).2

/-- A concrete case of `C113_partial`: the run of the instance ends with a certificate after three messages … -/
example : ∃ r, postSignCert toy demoPledge demoGen (statusNet 200 200 200 (str "CQ==")) Heap.empty = .ok r ∧ r.out.isSome ∧
    r.sent.length = 3 := by
  have hd := demo_status 200 (s2 := 200) (s3 := 200) (by omega) (by omega)
  match hr : postSignCert toy demoPledge demoGen (statusNet 200 200 200 (str "CQ==")) Heap.empty, hd with
  | .ok r, hd =>
    simp only [enrolView, Option.some.injEq, Prod.mk.injEq] at hd
    have hs : r.out.isSome := by cases ho : r.out <;> simp [ho] at hd ⊢
    obtain ⟨t, ca, b, h3⟩ := (C113_partial _ _ _ _ _ hr hs).1
    exact ⟨r, rfl, hs, by rw [h3]; rfl⟩

/-- … and with 404 for the enrolment there is none. -/
example : ∀ r, postSignCert toy demoPledge demoGen (statusNet 200 200 404 (str "CQ==")) Heap.empty = .ok r →
    r.out = none := by
  intro r hr
  match ho : r.out with
  | none => rfl
  | some x =>
    obtain ⟨⟨t, ca, b, h3⟩, h⟩ := C113_partial _ _ _ _ _ hr (by rw [ho]; rfl)
    obtain ⟨st, h1, h2⟩ := h 2 (.enrol ca b) (by rw [h3]; rfl)
    simp [replyStatus, statusNet] at h1
    omega

end Brski.Props
