import Verif.PropsFlow

/-!
# C36: voucher authenticity against a network adversary

The network belongs to the adversary: every message handed to a party is arbitrary.  A run is a
list of successful steps of MASA, pledges and registrars (latest first).  The signature scheme is
unforgeable in the sense that a message that passes the pledge's check encloses a text the MASA
signed earlier in the run.
-/

namespace Brski.Props
open Outcome Brski.Voucher VoucherJson Crypto BoolTime Spec Request

/-- Key material and trust lists of the MASA and of the pledges
(arguments of /repo/src/voucher/request.c:247-256,448-456). -/
structure World (O : Ossl) where
  cert : Option BinArr
  key : Option BinArr
  additional : Option CertList
  registrarCerts : Option CertList
  registrarStore : Option CertList
  pledgeCerts : Option CertList
  pledgeStore : Option CertList
  masaCerts : Option CertList
  masaStore : Option CertList

/-- A successful step with its arguments, the message received, and its output
(/repo/src/voucher/request.c:20-581). -/
inductive Event where
  | pledgeRequest (rt : Rt) (t : Tm) (serial : Bytes) (nonce : Option Bytes) (reg cert key : Bytes)
      (add : Option CertList) (out : Bytes)
  | voucher (rt : Rt) (request : Bytes) (expires : Tm) (cb : Callback) (out : Bytes)
  | accepted (rt : Rt) (cms serial : Bytes) (nonce : Option BinArr) (reg : BinArr) (dom : Option CertList)
      (pin : BinArr)

/-- The step is one of the code (/repo/src/voucher/request.c:20-581). -/
def Happens {O : Ossl} (W : World O) : Event → Prop
  | .pledgeRequest rt t serial nonce reg cert key add out =>
    signPledgeVoucherRequest O rt (some t) (some serial) (nonce.map .of) (some (.of reg)) (some (.of cert))
      (some (.of key)) add = .ok (some out)
  | .voucher rt request expires cb out =>
    signMasaPledgeVoucher O rt (some (.of request)) (some expires) (some cb) W.cert W.key W.registrarCerts
      W.registrarStore W.pledgeCerts W.pledgeStore W.additional = .ok (some out)
  | .accepted rt cms serial nonce reg dom pin =>
    verifyMasaPledgeVoucher O rt (some (.of cms)) (some serial) nonce (some reg) dom W.masaCerts W.masaStore false =
      .ok (some pin)

/-- The message encloses the text (/repo/src/voucher/crypto_ossl.c:1658-1669). -/
def Encloses (O : Ossl) (der text : Bytes) : Prop := ∃ m, O.d2iCms der = some m ∧ O.content m = text

/-- MASA signatures cannot be forged: what passes the pledge's check was signed by the MASA before
(assumption on /repo/src/voucher/crypto_ossl.c:1610-1694). -/
def MasaUnforgeable {O : Ossl} (W : World O) (past : List Event) : Event → Prop
  | .accepted _ cms _ _ _ _ _ => ∀ text, Authentic O W.masaCerts W.masaStore cms text →
      ∃ rt request expires cb out, Event.voucher rt request expires cb out ∈ past ∧ Encloses O out text
  | _ => True

/-- Runs against the adversary (latest event first; steps of /repo/src/voucher/request.c:20-581). -/
inductive Run {O : Ossl} (W : World O) : List Event → Prop where
  | nil : Run W []
  | step {es : List Event} {e : Event} : Run W es → Happens W e → MasaUnforgeable W es e → Run W (e :: es)

/-- Arguments of honest parties are within their contracts: well formed arrays, dates with four digit
years, callbacks that pin a certificate (/repo/src/voucher/voucher.h:518-681). -/
def Sane : Event → Prop
  | .pledgeRequest _ t serial nonce reg _ _ _ _ => FourDigits t ∧ serial.length ≤ 127 ∧ (0 : UInt8) ∉ serial ∧
      Proper reg ∧ ∀ b, nonce = some b → Proper b
  | .voucher _ _ expires cb _ => FourDigits expires ∧ CallbackOk cb ∧ CallbackProper cb
  | .accepted _ _ _ nonce reg _ _ => ArgWf nonce ∧ BinArr.Wf reg

/-- Before the events `past`, the MASA issued a voucher with this serial number and nonce for a
request containing a signed pledge request for that serial number (specification; RFC 8995
section 5.6). -/
def IssuedBefore {O : Ossl} (W : World O) (past : List Event) (serial : Bytes) (nonce : Option BinArr)
    (pin : BinArr) : Prop :=
  ∃ rt request expires cb out vr pv signers p, Event.voucher rt request expires cb out ∈ past ∧
    Consistent O rt request W.registrarCerts W.registrarStore W.pledgeCerts W.pledgeStore vr pv serial ∧
    SignersOf O request signers ∧ cb serial signers = .ok (some (.of p)) ∧ pin = .of p ∧
    ∀ n, nonce = some n → ∃ b, vr.nonce = .of b ∧ Props.content n = b

/-- **C36** as stated. -/
def C36_statement : Prop :=
  ∀ (O : Ossl) (W : World O) (es : List Event), Small O → Faithful O → ArgWf W.cert → ArgWf W.key →
    Run W es → (∀ e ∈ es, Sane e) → ∀ post past rt cms serial nonce reg dom pin,
    es = post ++ Event.accepted rt cms serial nonce reg dom pin :: past → IssuedBefore W past serial nonce pin

theorem run_split {O : Ossl} {W : World O} {e : Event} {past : List Event} : ∀ post, Run W (post ++ e :: past) →
    Run W past ∧ Happens W e ∧ MasaUnforgeable W past e := by
  intro post
  induction post with
  | nil =>
    intro h
    cases h with
    | step h1 h2 h3 => exact ⟨h1, h2, h3⟩
  | cons x post ih =>
    intro h
    cases h with
    | step h1 _ _ => exact ih h1

theorem run_mem {O : Ossl} {W : World O} {es : List Event} (h : Run W es) : ∀ e ∈ es, Happens W e := by
  induction h with
  | nil => intro e he; cases he
  | step _ h2 _ ih =>
    intro e he
    rcases List.mem_cons.1 he with rfl | he
    · exact h2
    · exact ih e he

/-- What acceptance gives without any condition on serial numbers: the accepted text is one the
MASA wrote for a consistent request. -/
theorem accepted_origin (O : Ossl) (W : World O) (es : List Event) (hsm : Small O) (hfa : Faithful O)
    (hc : ArgWf W.cert) (hk : ArgWf W.key) (hrun : Run W es) (hsane : ∀ e ∈ es, Sane e) (post past : List Event)
    (rt : Rt) (cms serial : Bytes) (nonce : Option BinArr) (reg : BinArr) (dom : Option CertList) (pin : BinArr)
    (hes : es = post ++ Event.accepted rt cms serial nonce reg dom pin :: past) :
    ∃ rt' request expires cb out vr pv s' signers p v pinb, Event.voucher rt' request expires cb out ∈ past ∧
      Consistent O rt' request W.registrarCerts W.registrarStore W.pledgeCerts W.pledgeStore vr pv s' ∧
      SignersOf O request signers ∧ cb s' signers = .ok (some (.of p)) ∧
      Acceptable O rt cms W.masaCerts W.masaStore serial nonce v pinb ∧ pin = .of pinb ∧
      (StringText s' → SameVoucher (issuedVoucher s' vr.nonce p expires) v) := by
  subst hes
  obtain ⟨hpast, hhap, hun⟩ := run_split post hrun
  have hs0 : ArgWf nonce ∧ BinArr.Wf reg := hsane (Event.accepted rt cms serial nonce reg dom pin) (by simp)
  obtain ⟨x, s, v, pinb, r, e1, e2, -, hacc, -, rfl⟩ := C32_acceptance O hsm rt _ _ nonce reg dom W.masaCerts W.masaStore false
    (fun y hy => by cases hy; exact wf_of cms) hs0.1 hs0.2 pin hhap
  cases e1
  cases e2
  obtain ⟨text, hA, hR⟩ := hacc.signed
  obtain ⟨rt', request, expires, cb, out, hmem, m, hm, hmt⟩ := hun text hA
  have hvs : FourDigits expires ∧ CallbackOk cb ∧ CallbackProper cb :=
    hsane (Event.voucher rt' request expires cb out) (by simp [hmem])
  obtain ⟨x, vr, pv, s', signers, p, e1, hcon, hsg, hcb, hsig⟩ := C29_consistent O hsm rt' _ expires cb hvs.2.1 W.cert W.key
    W.registrarCerts W.registrarStore W.pledgeCerts W.pledgeStore W.additional
    (fun y hy => by cases hy; exact wf_of request) hc hk out (run_mem hpast _ hmem)
  cases e1
  refine ⟨rt', request, expires, cb, out, vr, pv, s', signers, p, v, pinb, hmem, hcon, hsg, hcb, hacc, rfl, fun hpl => ?_⟩
  obtain ⟨m', t', hm', he, hh⟩ := signed_content hfa hsig
  rw [hm] at hm'
  cases hm'
  rw [hmt] at hh
  obtain ⟨rtext, hrA, hrR⟩ := hcon.registrar
  have hvrok : VoucherOk vr := deserialize_voucherOk _ _ (by have := authentic_small hsm hrA; omega) _ hrR.2
  have h0 := serial_ok hvrok hcon.named
  exact handed_reads _ (issuedVoucher_ok hvrok.2.2.2.1 h0.1 h0.2) (issuedVoucher_times hvs.1)
    (issuedVoucher_full (hvs.2.2 _ _ _ hcb) (reads_full (authentic_small hsm hrA) hrR)) (issuedVoucher_plain hpl) he hh
    (authentic_small hsm hA) hR

/-- **C36**, the part that holds: in every run in which the requests the MASA answered name serial
numbers without quotes and backslashes but for the escapes of JSON, whenever a pledge accepts a voucher for its serial number and
nonce, the MASA issued a voucher with this serial number, nonce and pinned certificate before, for
a registrar request containing a signed pledge request for that serial number.  Missing: requests
naming other serial numbers (`C36_violated`). -/
theorem C36_partial (O : Ossl) (W : World O) (es : List Event) (hsm : Small O) (hfa : Faithful O)
    (hc : ArgWf W.cert) (hk : ArgWf W.key) (hrun : Run W es) (hsane : ∀ e ∈ es, Sane e)
    (hplain : ∀ rt request expires cb out vr pv s, Event.voucher rt request expires cb out ∈ es →
      Consistent O rt request W.registrarCerts W.registrarStore W.pledgeCerts W.pledgeStore vr pv s →
      StringText s)
    (post past : List Event) (rt : Rt) (cms serial : Bytes) (nonce : Option BinArr) (reg : BinArr)
    (dom : Option CertList) (pin : BinArr) (hes : es = post ++ Event.accepted rt cms serial nonce reg dom pin :: past) :
    IssuedBefore W past serial nonce pin := by
  obtain ⟨rt', request, expires, cb, out, vr, pv, s', signers, p, v, pinb, hmem, hcon, hsg, hcb, hacc, rfl, hread⟩ :=
    accepted_origin O W es hsm hfa hc hk hrun hsane post past rt cms serial nonce reg dom pin hes
  have hw := hread (hplain rt' request expires cb out vr pv s' (by rw [hes]; simp [hmem]) hcon)
  have hser : s' = serial := by
    have := hw.serial
    rw [hacc.serial_eq] at this
    simpa [issuedVoucher] using this
  subst hser
  refine ⟨rt', request, expires, cb, out, vr, pv, signers, p, hmem, hcon, hsg, hcb, ?_, fun n hn => ?_⟩
  · rw [← hacc.pinned, ← hw.pinned]; rfl
  · obtain ⟨b, h1, h2⟩ := hacc.nonce_eq n hn
    refine ⟨b, ?_, h2⟩
    rw [← h1, ← hw.nonce]
    rfl

/-! ## Honest pledges -/

/-- Pledge signatures cannot be forged: the pledge request inside a registrar request that passes the
MASA's check was signed by a pledge before (assumption on
/repo/src/voucher/crypto_ossl.c:1610-1694). -/
def PledgeUnforgeable {O : Ossl} (W : World O) (past : List Event) : Event → Prop
  | .voucher rt request _ _ _ => ∀ vr pv s prior text,
      Consistent O rt request W.registrarCerts W.registrarStore W.pledgeCerts W.pledgeStore vr pv s →
      vr.prior = .of prior → Authentic O W.pledgeCerts W.pledgeStore prior text →
      ∃ rt' t serial nonce reg cert key add out,
        Event.pledgeRequest rt' t serial nonce reg cert key add out ∈ past ∧ Encloses O out text
  | _ => True

/-- A pledge with this serial number signed a request before the events `past` (specification; RFC 8995 section
5.2). -/
def AskedBefore (past : List Event) (serial : Bytes) : Prop :=
  ∃ rt t nonce reg cert key add out, Event.pledgeRequest rt t serial nonce reg cert key add out ∈ past

theorem mem_split {α : Type} {x : α} {l : List α} (h : x ∈ l) : ∃ a b, l = a ++ x :: b := List.append_of_mem h

/-- **C36** with honest pledges: if neither MASA nor pledge signatures can be forged and the pledges
have serial numbers without quotes and backslashes but for the escapes of JSON, then nothing is missing; moreover the pledge itself asked
for the voucher before.  (Registrars are not trusted here.) -/
theorem C36_honest_pledges (O : Ossl) (W : World O) (es : List Event) (hsm : Small O) (hfa : Faithful O)
    (hc : ArgWf W.cert) (hk : ArgWf W.key) (hrun : Run W es) (hsane : ∀ e ∈ es, Sane e)
    (hpl : ∀ post e past, es = post ++ e :: past → PledgeUnforgeable W past e)
    (hdev : ∀ rt t serial nonce reg cert key add out, Event.pledgeRequest rt t serial nonce reg cert key add out ∈ es →
      StringText serial)
    (post past : List Event) (rt : Rt) (cms serial : Bytes) (nonce : Option BinArr) (reg : BinArr)
    (dom : Option CertList) (pin : BinArr) (hes : es = post ++ Event.accepted rt cms serial nonce reg dom pin :: past) :
    IssuedBefore W past serial nonce pin ∧ AskedBefore past serial := by
  -- a consistent request is for the serial number of an earlier pledge request
  have key : ∀ rt request expires cb out vr pv s, Event.voucher rt request expires cb out ∈ es →
      Consistent O rt request W.registrarCerts W.registrarStore W.pledgeCerts W.pledgeStore vr pv s →
      ∀ a b, es = a ++ Event.voucher rt request expires cb out :: b → StringText s ∧ AskedBefore b s := by
    intro rt request expires cb out vr pv s hmem hcon a b hsplit
    obtain ⟨prior, text, hpr, hA, hR⟩ := hcon.pledge
    obtain ⟨rt', t, s0, n0, r0, c0, k0, a0, out0, hm0, m, hm, hmt⟩ := hpl a _ b hsplit vr pv s prior text hcon hpr hA
    have hmem0 : Event.pledgeRequest rt' t s0 n0 r0 c0 k0 a0 out0 ∈ es := by rw [hsplit]; simp [hm0]
    have hsn : FourDigits t ∧ s0.length ≤ 127 ∧ (0 : UInt8) ∉ s0 ∧ Proper r0 ∧ ∀ b, n0 = some b → Proper b :=
      hsane _ hmem0
    have hhap : signPledgeVoucherRequest O rt' (some t) (some s0) (n0.map .of) (some (.of r0)) (some (.of c0))
        (some (.of k0)) a0 = .ok (some out0) := run_mem hrun _ hmem0
    have arg : ∀ b : Bytes, ArgWf (some (BinArr.of b)) := fun b y hy => by cases hy; exact wf_of b
    have hnArg : ArgWf (n0.map BinArr.of) := by
      intro n h
      obtain ⟨b, -, rfl⟩ := Option.map_eq_some_iff.1 h
      exact wf_of b
    rcases C26_pledge_request O rt' t (some s0) (n0.map .of) (some (.of r0)) (some (.of c0)) (some (.of k0)) a0
      (fun y hy => by cases hy; exact hsn.2.2.1) hnArg (arg r0) (arg c0) (arg k0) with e | ⟨s1, r1, cms1, e1, e2, -, hsig, e⟩
    · rw [hhap] at e; cases e
    · rw [hhap] at e
      cases e
      cases e1
      have hr1 := of_inj (Option.some.inj e2)
      subst hr1
      obtain ⟨m', t', hm', he, hh⟩ := signed_content hfa hsig
      rw [hm] at hm'
      cases hm'
      rw [hmt] at hh
      have hplain := hdev _ _ _ _ _ _ _ _ _ hmem0
      have hsv := handed_reads _ (pledgeVoucher_ok hnArg hsn.2.2.1 hsn.2.1) (pledgeVoucher_times hsn.1)
        (pledgeVoucher_full hsn.2.2.2.1 hsn.2.2.2.2) (pledgeVoucher_plain hplain) he hh (authentic_small hsm hA) hR
      have hs : s = s0 := by
        have := hsv.serial
        rw [hcon.same] at this
        simpa [pledgeVoucher] using this.symm
      subst hs
      exact ⟨hplain, rt', t, n0, r0, c0, k0, a0, out0, hm0⟩
  have hplain : ∀ rt request expires cb out vr pv s, Event.voucher rt request expires cb out ∈ es →
      Consistent O rt request W.registrarCerts W.registrarStore W.pledgeCerts W.pledgeStore vr pv s →
      StringText s := by
    intro rt request expires cb out vr pv s hmem hcon
    obtain ⟨a, b, hab⟩ := mem_split hmem
    exact (key rt request expires cb out vr pv s hmem hcon a b hab).1
  have hiss := C36_partial O W es hsm hfa hc hk hrun hsane hplain post past rt cms serial nonce reg dom pin hes
  refine ⟨hiss, ?_⟩
  obtain ⟨rt', request, expires, cb, out, vr, pv, signers, p, hmem, hcon, -⟩ := hiss
  obtain ⟨a, b, hab⟩ := mem_split hmem
  obtain ⟨rt2, t, n, r, c, k, ad, o, hm⟩ := (key rt' request expires cb out vr pv serial (by rw [hes]; simp [hmem]) hcon
    (post ++ Event.accepted rt cms serial nonce reg dom pin :: a) b (by rw [hes, hab]; simp)).2
  exact ⟨rt2, t, n, r, c, k, ad, o, by rw [hab]; simp [hm]⟩

/-! ## The violation and an instance -/

/-- The instance: MASA 1, registrar 7, pledge 3. -/
def demoWorld : World toy :=
  ⟨some (.of [1]), some (.of [1]), none, none, some [([7], 0)], none, some [([3], 0)], none, some [([1], 0)]⟩

/-- The pledge request of the instance run. -/
def runPledge : Bytes :=
  3 :: str "{\"ietf-voucher:voucher\":{\"created-on\":\"2030-01-01T00:00:00Z\",\"assertion\":\"proximity\",\"serial-number\":\"S1\",\"domain-cert-revocation-checks\":false,\"nonce\":\"AQ==\",\"proximity-registrar-cert\":\"Bw==\"}}"

theorem runPledge_eq : signPledgeVoucherRequest toy Rt.plain (some demoTime) (some (str "S1")) (some (.of [1]))
    (some (.of [7])) (some (.of [3])) (some (.of [3])) none = .ok (some runPledge) := by decide +kernel

/-- A registrar request around the pledge request. -/
def runRequest : Bytes :=
  7 :: (str "{\"ietf-voucher:voucher\":{\"serial-number\":\"S1\",\"nonce\":\"AQ==\",\"prior-signed-voucher-request\":\"" ++
    rfc4648 runPledge ++ str "\"}}")

theorem runVoucher_eq : signMasaPledgeVoucher toy Rt.plain (some (.of runRequest)) (some demoTime) (some demoCb)
    (some (.of [1])) (some (.of [1])) none (some [([7], 0)]) none (some [([3], 0)]) none =
      .ok (some (1 :: demoIssuedText)) := by
  decide +kernel

theorem runAccept_eq : verifyMasaPledgeVoucher toy Rt.plain (some (.of (1 :: demoIssuedText))) (some (str "S1"))
    (some (.of [1])) (some (.of [7])) none none (some [([1], 0)]) false = .ok (some (.of [8])) := by
  decide +kernel

/-- The run: request, voucher, acceptance (latest first). -/
def demoRun : List Event :=
  [.accepted Rt.plain (1 :: demoIssuedText) (str "S1") (some (.of [1])) (.of [7]) none (.of [8]),
   .voucher Rt.plain runRequest demoTime demoCb (1 :: demoIssuedText),
   .pledgeRequest Rt.plain demoTime (str "S1") (some [1]) [7] [3] [3] none runPledge]

theorem toy_encloses {certs store : Option CertList} {c : UInt8} {t text : Bytes}
    (h : Authentic toy certs store (c :: t) text) : Encloses toy (c :: t) text := by
  obtain ⟨m, h1, h2, -⟩ := h
  exact ⟨m, h1, h2⟩

theorem demoRun_run : Run demoWorld demoRun :=
  .step (.step (.step .nil runPledge_eq trivial) runVoucher_eq trivial) runAccept_eq
    fun _ h => ⟨_, _, _, _, _, .head _, toy_encloses h⟩

theorem demoCb_proper : CallbackProper demoCb := by
  intro s l p h
  simp only [demoCb, Outcome.ok.injEq, Option.some.injEq] at h
  rw [← of_inj h]
  exact ⟨by simp, by decide⟩

theorem demoRun_sane : ∀ e ∈ demoRun, Sane e := by
  intro e he
  simp only [demoRun, List.mem_cons, List.not_mem_nil, or_false] at he
  rcases he with rfl | rfl | rfl
  · exact ⟨(fun n h => by cases h; exact wf_of [1]), wf_of [7]⟩
  · exact ⟨demoTime_ok, demoCb_ok, demoCb_proper⟩
  · exact ⟨demoTime_ok, by decide, by decide, ⟨by simp, by decide⟩, (fun b h => by cases h; exact ⟨by simp, by decide⟩)⟩

theorem demoRun_serials (rt : Rt) (t : Tm) (serial : Bytes) (nonce : Option Bytes) (reg cert key : Bytes)
    (add : Option CertList) (out : Bytes) (h : Event.pledgeRequest rt t serial nonce reg cert key add out ∈ demoRun) :
    StringText serial := by
  simp only [demoRun, List.mem_cons, List.not_mem_nil, or_false, reduceCtorEq, false_or] at h
  cases h
  refine .of_plain ?_
  unfold isPlain
  decide

/-- What the MASA reads from the request of the run. -/
theorem demoRun_prior {vr pv : Voucher} {s prior : Bytes}
    (h : Consistent toy Rt.plain runRequest none (some [([7], 0)]) none (some [([3], 0)]) vr pv s)
    (hp : vr.prior = .of prior) : prior = runPledge := by
  obtain ⟨⟨text, ⟨m, hm, rfl, -⟩, hne, hd⟩, -⟩ := h
  cases hm
  have hd' : deserialize Env.plain (List.take (2 ^ 31 - 1) (str "{\"ietf-voucher:voucher\":{\"serial-number\":\"S1\",\"nonce\":\"AQ==\",\"prior-signed-voucher-request\":\"" ++
    rfc4648 runPledge ++ str "\"}}")) = .ok (some vr) := hd
  rw [List.take_of_length_le (by decide +kernel)] at hd'
  have he : deserialize Env.plain (str "{\"ietf-voucher:voucher\":{\"serial-number\":\"S1\",\"nonce\":\"AQ==\",\"prior-signed-voucher-request\":\"" ++
    rfc4648 runPledge ++ str "\"}}") = .ok (some
      { Voucher.init with serial := some (str "S1"), nonce := .of [1], prior := .of runPledge }) := by
    decide +kernel
  rw [he] at hd'
  cases hd'
  exact (of_inj hp).symm

/-- non-vacuity of C36_partial and C36_honest_pledges: the run meets all hypotheses. -/
example : IssuedBefore demoWorld demoRun.tail (str "S1") (some (.of [1])) (.of [8]) ∧
    AskedBefore demoRun.tail (str "S1") := by
  refine C36_honest_pledges toy demoWorld demoRun toy_small toy_faithful (fun y hy => by cases hy; exact wf_of [1])
    (fun y hy => by cases hy; exact wf_of [1]) demoRun_run demoRun_sane ?_ demoRun_serials [] _ Rt.plain
    (1 :: demoIssuedText) _ _ (.of [7]) none _ rfl
  intro post e past h
  match post, h with
  | [], h => cases h; exact trivial
  | [_], h =>
    cases h
    intro vr pv s prior text hcon hpr hA
    have := demoRun_prior hcon hpr
    subst this
    exact ⟨_, _, _, _, _, _, _, _, _, .head _, toy_encloses hA⟩
  | [_, _], h => cases h; exact trivial
  | _ :: _ :: _ :: post, h => simp [demoRun] at h

/-- A pledge request naming a serial number with quotes, as a bare JSON value. -/
def badPledge : Bytes := 3 :: str "{\"ietf-voucher:voucher\":{\"serial-number\":S1\"\"nonce\"\"CQ==}}"

/-- The registrar request around it. -/
def badRequest : Bytes :=
  7 :: (str "{\"ietf-voucher:voucher\":{\"serial-number\":S1\"\"nonce\"\"CQ==,\"nonce\":\"AQ==\",\"prior-signed-voucher-request\":\"" ++
    rfc4648 badPledge ++ str "\"}}")

/-- The voucher issued for it: the quotes end the serial number early, and the rest is read as a
nonce. -/
def badVoucher : Bytes :=
  1 :: str "{\"ietf-voucher:voucher\":{\"expires-on\":\"2030-01-01T00:00:00Z\",\"assertion\":\"proximity\",\"serial-number\":\"S1\"\"nonce\"\"CQ==\",\"pinned-domain-cert\":\"CA==\",\"domain-cert-revocation-checks\":false,\"nonce\":\"AQ==\"}}"

theorem badVoucher_eq : signMasaPledgeVoucher toy Rt.plain (some (.of badRequest)) (some demoTime) (some demoCb)
    (some (.of [1])) (some (.of [1])) none (some [([7], 0)]) none (some [([3], 0)]) none = .ok (some badVoucher) := by
  decide +kernel

theorem badAccept_eq : verifyMasaPledgeVoucher toy Rt.plain (some (.of badVoucher)) (some (str "S1"))
    (some (.of [9])) (some (.of [7])) none none (some [([1], 0)]) false = .ok (some (.of [8])) := by
  decide +kernel

/-- The run of the attack. -/
def badRun : List Event :=
  [.accepted Rt.plain badVoucher (str "S1") (some (.of [9])) (.of [7]) none (.of [8]),
   .voucher Rt.plain badRequest demoTime demoCb badVoucher]

/-- The code violates C36: the serial number is written to the voucher without escaping
(/repo/src/voucher/serialize.c:380-397) and may contain quotes when it was read from a bare JSON
value.  A voucher issued for the serial number `S1""nonce""CQ==` and nonce 1 is accepted by the
pledge with serial number `S1` and nonce 9, for which nothing was ever issued. -/
theorem C36_violated : ¬ C36_statement := by
  intro h
  have hrun : Run demoWorld badRun :=
    .step (.step .nil badVoucher_eq trivial) badAccept_eq fun _ h => ⟨_, _, _, _, _, .head _, toy_encloses h⟩
  have hsane : ∀ e ∈ badRun, Sane e := by
    intro e he
    simp only [badRun, List.mem_cons, List.not_mem_nil, or_false] at he
    rcases he with rfl | rfl
    · exact ⟨(fun n h => by cases h; exact wf_of [9]), wf_of [7]⟩
    · exact ⟨demoTime_ok, demoCb_ok, demoCb_proper⟩
  obtain ⟨rt, request, expires, cb, out, vr, pv, signers, p, hmem, hcon, -⟩ := h toy demoWorld badRun toy_small toy_faithful
    (fun y hy => by cases hy; exact wf_of [1]) (fun y hy => by cases hy; exact wf_of [1]) hrun hsane [] _ Rt.plain
    badVoucher _ _ (.of [7]) none _ rfl
  simp only [List.mem_cons, List.not_mem_nil, or_false] at hmem
  cases hmem
  obtain ⟨⟨text, ⟨m, hm, rfl, -⟩, hne, hd⟩, hnm, -⟩ := hcon
  cases hm
  have hd' : deserialize Env.plain (List.take (2 ^ 31 - 1) (str "{\"ietf-voucher:voucher\":{\"serial-number\":S1\"\"nonce\"\"CQ==,\"nonce\":\"AQ==\",\"prior-signed-voucher-request\":\"" ++
    rfc4648 badPledge ++ str "\"}}")) = .ok (some vr) := hd
  rw [List.take_of_length_le (by decide +kernel)] at hd'
  have he : deserialize Env.plain (str "{\"ietf-voucher:voucher\":{\"serial-number\":S1\"\"nonce\"\"CQ==,\"nonce\":\"AQ==\",\"prior-signed-voucher-request\":\"" ++
    rfc4648 badPledge ++ str "\"}}") = .ok (some
      { Voucher.init with serial := some (str "S1\"\"nonce\"\"CQ=="), nonce := .of [1], prior := .of badPledge }) := by
    decide +kernel
  rw [he] at hd'
  cases hd'
  revert hnm
  decide

end Brski.Props
