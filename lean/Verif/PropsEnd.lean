import Verif.PropsEnroll
import Verif.PledgeRuns2

/-!
# Property C61: registrar and MASA handlers connected
-/

namespace Brski.Props
open Outcome Brski.Voucher VoucherJson Crypto BoolTime Request Base64 Brski.Spec Server

/-- What the registrar's HTTP client gets from a MASA that runs `masa_requestvoucher`
(/repo/src/brski/registrar/registrar_api.cpp:90-133, /repo/src/brski/masa/masa_server.cpp:24-64): nothing if the
MASA crashes.  The transport is assumed to deliver the bytes; the MASA's own error page for an empty body
(/repo/src/brski/http/httplib_wrapper.cpp:163-172) is left out, the registrar ignores it. -/
def masaAnswer (O : Ossl) (m : MasaEnv) (h : Heap) (ctx : Option Nat) (body : Bytes) : Option (Nat × Bytes) :=
  match masaRequestVoucher O m body h ctx with
  | .ok r => some (r.status, r.body)
  | .ub => none

/-- **C61**: when the registrar, connected to a MASA, answers 200, it has vetted the request of the pledge, and
either the MASA refused and the body is empty, or the body is the base64 text of a voucher that the MASA issued
for exactly the bytes the registrar signed. -/
theorem C61_connected (O : Ossl) (hsm : Small O) (e : RegEnv) (m : MasaEnv) (hm : Heap) (ctx : Option Nat)
    (hconn : e.masa = masaAnswer O m hm ctx) (hblk : e.blk.length = 4) (hblk2 : m.blk.length = 4) (hser : strOk e.serial)
    (hmem : NoOom m.al) (body : Bytes) (hsz : (cstr body).length < 2 ^ 63) (h : Heap) (r : Reply)
    (he : registrarRequestVoucher O e body h = .ok r) (h200 : r.status = 200) :
    ∃ sent, Forwarded O e body sent ∧ (sent ≠ [] → sent.length < sizeMax / 4 →
      (r.body = [] ∨ ∃ cms, Issued O m sent cms ∧ r.body = rfc4648 cms)) := by
  obtain ⟨sent, status, answer, hf, ha, h1, h2⟩ := C39_partial O hsm e hblk hser body hsz h r he h200
  refine ⟨sent, hf, fun hne hlt => ?_⟩
  rw [hconn, masaAnswer] at ha
  cases hr : masaRequestVoucher O m (rfc4648 sent) hm ctx with
  | ub => rw [hr] at ha; cases ha
  | ok q =>
    rw [hr] at ha
    cases ha
    have hl := rfc_length sent
    rcases C40_answer O hsm m hblk2 (rfc4648 sent) (by unfold sizeMax at hlt; omega) hm ctx q hr with
      ⟨s1, c, cms, hdec, hi, hb⟩ | ⟨s1, -⟩
    · have := decodes_rfc m.al hmem m.blk sent hblk2 hne hlt
      unfold BodyDecodes at this hdec
      rw [hdec] at this
      have hc : c = sent := by
        simp only [Outcome.ok.injEq, Prod.mk.injEq, OutPtr.owned.injEq] at this
        exact this.2
      subst hc
      exact .inr ⟨cms, hi, (h1 (by omega)).trans hb⟩
    · exact .inl (h2 (by omega))

/-- The MASA answers 200 with the voucher whenever the library function makes one for the decoded body with a
callback that returns the configured certificate. -/
theorem C40_reply (O : Ossl) (e : MasaEnv) (body : Bytes) (h : Heap) (hw : h.Wf) (ctx : Option Nat) (c text pin : Bytes)
    (t : Tm) (cms : Bytes) (hcm : NoOom e.cbMem) (hout : NoOom e.out)
    (hlists : ∀ l ∈ [e.registrarCerts, e.registrarStore, e.pledgeCerts, e.pledgeStore, e.additional],
      l ≠ .noMem ∧ l ≠ .freed)
    (ht : e.expiresOn = some text) (ht' : str2time e.lib text = some t) (hdec : BodyDecodes e.al e.blk body c)
    (hpin : e.ldevid = .der pin) (hcert : e.signCert ≠ .unset ∧ e.signCert ≠ .bad)
    (hkey : e.signKey ≠ .unset ∧ e.signKey ≠ .bad)
    (hsign : signMasaPledgeVoucher O e.rt (some (.of c)) (some t) (some fun _ _ => .ok (some (.of pin))) e.signCert.arr
      e.signKey.arr e.registrarCerts.certs e.registrarStore.certs e.pledgeCerts.certs e.pledgeStore.certs
      e.additional.certs = .ok (some cms)) (hlen : cms.length < sizeMax / 4) :
    ∃ r, masaRequestVoucher O e body h ctx = .ok r ∧ r.status = 200 ∧ r.body = rfc4648 cms ∧ r.heap.blk = h.blk := by
  obtain ⟨cert, hcert⟩ : ∃ b, e.signCert = .der b := by
    cases hx : e.signCert with
    | unset => exact absurd hx hcert.1
    | bad => exact absurd hx hcert.2
    | der b => exact ⟨b, rfl⟩
  obtain ⟨ky, hky⟩ : ∃ b, e.signKey = .der b := by
    cases hx : e.signKey with
    | unset => exact absurd hx hkey.1
    | bad => exact absurd hx hkey.2
    | der b => exact ⟨b, rfl⟩
  have hbody : decodeBody e.al e.blk h body = .ok ⟨(h.alloc c).1, some c.length, some (h.alloc c).2, c⟩ := by
    unfold decodeBody
    rw [hdec, bind'_ok]
  unfold masaRequestVoucher
  simp only [ht, Option.bind_some, ht', hbody, bind'_ok, hpin, hcert, hky, readFile, loadLists_full hlists, if_true]
  have harr : (⟨(h.alloc c).1, some c.length, some (h.alloc c).2, c⟩ : Body).arr = .of c := rfl
  rw [harr]
  generalize hH : loadLists _ _ = L
  have hp : L.1.blk ((h.alloc c).1.alloc pin).2 = some pin := by
    rw [← hH, loadLists_keep _ _ _ (by simp [Heap.alloc])]
    exact pin_kept _ pin cert ky
  have ho : Owns h L.1 (L.2.1 ++ [some ((((h.alloc c).1.alloc pin).1.alloc cert).1.alloc ky).2,
      some (((h.alloc c).1.alloc pin).1.alloc cert).2, some ((h.alloc c).1.alloc pin).2, some (h.alloc c).2]) := by
    rw [← hH]
    exact owns_loadLists _ (fun l hl => (hlists l hl).2)
      (owns_alloc (owns_alloc (owns_alloc (owns_alloc (owns_nil hw) c) pin) cert) ky)
  unfold masaIssue
  have hcb : voucherReqCb e.cbMem L.1 (some ((h.alloc c).1.alloc pin).2) = fun _ _ => .ok (some (.of pin)) := by
    funext s l
    unfold voucherReqCb
    simp only [Heap.read, hp, bind'_ok]
    unfold copyBinaryArray memdup
    cases hm : e.cbMem.malloc pin.length with
    | none => exact absurd hm (hcm _)
    | some b => simp [BinArr.of, hm]
  rw [hcb, hsign, bind'_ok]
  simp only
  obtain ⟨buf, n, hb, -⟩ := C02_encode_rfc4648 e.out hout cms hlen
  rw [hb, bind'_ok]
  simp only
  have ho2 := owns_alloc (owns_alloc ho cms) buf
  obtain ⟨h', hf', ho'⟩ := owns_freeAll hw _ (owns_perm (qs := some ((L.1.alloc cms).1.alloc buf).2 ::
      some ((h.alloc c).1.alloc pin).2 :: some ((((h.alloc c).1.alloc pin).1.alloc cert).1.alloc ky).2 ::
      some (((h.alloc c).1.alloc pin).1.alloc cert).2 :: L.2.1 ++ [some (h.alloc c).2, some (L.1.alloc cms).2])
    (List.perm_iff_count.2 fun a => by
      simp only [List.count_append, List.count_cons, List.count_nil, List.cons_append]; omega) ho2)
  rw [hf', bind'_ok]
  exact ⟨_, rfl, rfl, cstr_encoded hb, owns_blk ho'⟩

/-- **C61**, the way through: a pledge request from which the registrar makes a voucher request for which the MASA
makes a voucher is answered by the registrar with the base64 text of that voucher. -/
theorem C61_served (O : Ossl) (e : RegEnv) (m : MasaEnv) (hm : Heap) (hwm : hm.Wf) (ctx : Option Nat)
    (hconn : e.masa = masaAnswer O m hm ctx) (body : Bytes) (h : Heap) (hw : h.Wf) (c serial issuer text pin : Bytes)
    (t tm : Tm) (sent cms : Bytes) (hblk2 : m.blk.length = 4) (hknown : e.known = true) (hmem : e.mem = true)
    (hout : NoOom e.out) (hmal : NoOom m.al) (hcm : NoOom m.cbMem) (hmout : NoOom m.out)
    (hlists : ∀ l ∈ [e.pledgeCerts, e.pledgeStore, e.additional], l ≠ .noMem ∧ l ≠ .freed)
    (hmlists : ∀ l ∈ [m.registrarCerts, m.registrarStore, m.pledgeCerts, m.pledgeStore, m.additional],
      l ≠ .noMem ∧ l ≠ .freed)
    (hs : e.serial = some serial) (hi : e.issuer = some issuer) (ht : e.now = some t)
    (htls : e.tlsCert ≠ .unset ∧ e.tlsCert ≠ .bad) (hcert : e.signCert ≠ .unset ∧ e.signCert ≠ .bad)
    (hkey : e.signKey ≠ .unset ∧ e.signKey ≠ .bad) (hhost : e.host ≠ none ∧ e.keyPath ≠ none)
    (hdec : BodyDecodes e.al e.blk body c) (hsign : signVoucherRequest O e.rt (some (.of c)) (some t) (some serial) (some (.of issuer)) e.tlsCert.arr
      e.signCert.arr e.signKey.arr e.pledgeCerts.certs e.pledgeStore.certs e.additional.certs = .ok (some sent))
    (hne : sent ≠ []) (hlen : sent.length < sizeMax / 4)
    (hmt : m.expiresOn = some text) (hmt' : str2time m.lib text = some tm)
    (hpin : m.ldevid = .der pin) (hmcert : m.signCert ≠ .unset ∧ m.signCert ≠ .bad)
    (hmkey : m.signKey ≠ .unset ∧ m.signKey ≠ .bad)
    (hmsign : signMasaPledgeVoucher O m.rt (some (.of sent)) (some tm) (some fun _ _ => .ok (some (.of pin))) m.signCert.arr
      m.signKey.arr m.registrarCerts.certs m.registrarStore.certs m.pledgeCerts.certs m.pledgeStore.certs
      m.additional.certs = .ok (some cms)) (hmlen : cms.length < sizeMax / 4) :
    ∃ r, registrarRequestVoucher O e body h = .ok r ∧ r.status = 200 ∧ r.body = rfc4648 cms ∧ r.heap.blk = h.blk := by
  obtain ⟨q, q1, q2, q3, -⟩ := C40_reply O m (rfc4648 sent) hm hwm ctx sent text pin tm cms hcm hmout hmlists hmt hmt'
    (decodes_rfc m.al hmal m.blk sent hblk2 hne hlen) hpin hmcert hmkey hmsign hmlen
  obtain ⟨r, r1, r2, -, r3⟩ := C39_partial_forwards O e body h hw c serial issuer t sent hknown hmem hout hlists hs hi ht
    htls hcert hkey hhost hdec hsign hlen
  have : e.masa (rfc4648 sent) = some (200, rfc4648 cms) := by rw [hconn, masaAnswer, q1, ← q2, ← q3]
  obtain ⟨a, b⟩ := r3 _ _ this
  exact ⟨r, r1, a, by rw [b]; rfl, r2⟩

/-- The registrar of the instance connected to the MASA of the instance. -/
def demoConnected : RegEnv := demoReg (masaAnswer toy demoMasa Heap.empty none)

/-- The voucher issued in the connected instance: the nonce is that of the pledge. -/
def demoConnectedText : Bytes :=
  str "{\"ietf-voucher:voucher\":{\"expires-on\":\"2030-01-01T00:00:00Z\",\"assertion\":\"proximity\",\"serial-number\":\"S1\",\"pinned-domain-cert\":\"CA==\",\"domain-cert-revocation-checks\":false,\"nonce\":\"CQ==\"}}"

/-- The two library calls of the connected instance. -/
theorem demo_both : ∃ sent, signVoucherRequest toy Rt.plain (some (.of demoPledgeCms))
    (some ⟨1, 2, 3, 4, 5, 120, 0, 0, 0⟩) (some (str "S1")) (some (.of [5])) (some (.of [7])) (some (.of [7]))
    (some (.of [7])) none (some [([3], 0)]) none = .ok (some sent) ∧ sent ≠ [] ∧ sent.length < 1000 ∧
    signMasaPledgeVoucher toy Rt.plain (some (.of sent)) (some ⟨0, 0, 0, 1, 0, 130, 2, 0, 0⟩)
      (some fun _ _ => .ok (some (.of [8]))) (some (.of [1])) (some (.of [1])) none (some [([7], 0)]) none
      (some [([3], 0)]) none = .ok (some (1 :: demoConnectedText)) := by
  have h : (signVoucherRequest toy Rt.plain (some (.of demoPledgeCms)) (some ⟨1, 2, 3, 4, 5, 120, 0, 0, 0⟩)
    (some (str "S1")) (some (.of [5])) (some (.of [7])) (some (.of [7])) (some (.of [7])) none
    (some [([3], 0)]) none).bind (fun r => match r with
      | none => .ok false
      | some v => .ok (decide (v ≠ [] ∧ v.length < 1000 ∧
        signMasaPledgeVoucher toy Rt.plain (some (.of v)) (some ⟨0, 0, 0, 1, 0, 130, 2, 0, 0⟩)
          (some fun _ _ => .ok (some (.of [8]))) (some (.of [1])) (some (.of [1])) none (some [([7], 0)]) none
          (some [([3], 0)]) none = .ok (some (1 :: demoConnectedText))))) = .ok true := by
    decide +kernel
  revert h
  generalize signVoucherRequest _ _ _ _ _ _ _ _ _ _ _ _ = o
  intro h
  cases o with
  | ub => cases h
  | ok v =>
    rw [bind'_ok] at h
    cases v with
    | none => cases h
    | some v => exact ⟨v, rfl, of_decide_eq_true (Outcome.ok.inj h)⟩

/-- non-vacuity of C61_connected and C61_served: the pledge's request goes through both servers. -/
theorem demo_connected : ∃ r, registrarRequestVoucher toy demoConnected (rfc4648 demoPledgeCms) Heap.empty = .ok r ∧ r.status = 200 ∧
    r.body = rfc4648 (1 :: demoConnectedText) := by
  obtain ⟨sent, h1, h2, h3, h4⟩ := demo_both
  have ok : ∀ b, (FileRes.der b ≠ .unset ∧ FileRes.der b ≠ .bad) := fun b => ⟨(fun h => by cases h), (fun h => by cases h)⟩
  obtain ⟨r, r1, r2, r3, -⟩ := C61_served toy demoConnected demoMasa Heap.empty Heap.wf_empty none rfl
    (rfc4648 demoPledgeCms) Heap.empty Heap.wf_empty demoPledgeCms (str "S1") [5] (str "2030-01-01T00:00:00Z") [8] _ _
    sent (1 :: demoConnectedText) rfl rfl rfl noOom_zero noOom_zero noOom_zero noOom_zero
    (by intro l hl
        simp only [demoConnected, demoReg, List.mem_cons, List.not_mem_nil, or_false] at hl
        rcases hl with rfl | rfl | rfl <;> exact ⟨(fun h => by cases h), (fun h => by cases h)⟩)
    (by intro l hl
        simp only [demoMasa, List.mem_cons, List.not_mem_nil, or_false] at hl
        rcases hl with rfl | rfl | rfl | rfl | rfl <;> exact ⟨(fun h => by cases h), (fun h => by cases h)⟩)
    rfl rfl rfl (ok _) (ok _) (ok _) ⟨nofun, nofun⟩ (decodes_rfc _ noOom_zero _ _ rfl (by decide) (by decide +kernel)) h1 h2
    (by unfold sizeMax; omega) rfl (by decide +kernel) rfl (ok _) (ok _) h4 (by decide +kernel)
  exact ⟨r, r1, r2, r3⟩

end Brski.Props
