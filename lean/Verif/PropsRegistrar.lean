import Verif.PropsServer

/-!
# Properties C39, C41, C56, C59, C60: the endpoints of the registrar
-/

namespace Brski.Props
open Outcome Brski.Voucher VoucherJson Crypto BoolTime Request Base64 Brski.Spec Server

/-! ## Voucher requests -/

theorem arr_of_inj {a b : Bytes} (h : BinArr.of a = BinArr.of b) : a = b := by
  simpa [BinArr.of] using congrArg BinArr.array h

theorem regReturn_inv {h : Heap} {ps : List (Option Nat)} {s : Nat} {b : Bytes} {r : Reply}
    (he : regReturn h ps s b = .ok r) : r.status = s ∧ r.body = b := by
  unfold regReturn at he
  cases hf : freeAll h ps with
  | ub => rw [hf] at he; cases he
  | ok h' => rw [hf, bind'_ok] at he; cases he; exact ⟨rfl, rfl⟩

/-- The registrar vetted the pledge request in the body and asked the MASA with a voucher request made from
it (specification for /repo/src/brski/registrar/registrar_api.cpp:135-304; RFC 8995 section 5.5).  `sent` is
the signed request. -/
def Forwarded (O : Ossl) (e : RegEnv) (body sent : Bytes) : Prop :=
  ∃ serial issuer t tls c text pv, e.serial = some serial ∧ e.issuer = some issuer ∧ e.now = some t ∧
    e.tlsCert = .der tls ∧ BodyDecodes e.al e.blk body c ∧
    Authentic O e.pledgeCerts.certs e.pledgeStore.certs c text ∧ Reads (e.rt.json 0) text pv ∧
    Vetted pv serial tls ∧
    SignedVoucher O e.signCert.arr e.signKey.arr e.additional.certs (registrarVoucher t serial issuer c pv) sent

/-- What the registrar answers (specification for
/repo/src/brski/registrar/registrar_api.cpp:135-304). -/
inductive RegAnswer (O : Ossl) (e : RegEnv) (body : Bytes) : Nat → Bytes → Prop where
  | refused : RegAnswer O e body 400 []
  | unable : RegAnswer O e body 500 []
  | gateway (sent : Bytes) : Forwarded O e body sent → RegAnswer O e body 502 badGateway
  | answered (sent : Bytes) (status : Nat) (answer : Bytes) : Forwarded O e body sent →
      e.masa (rfc4648 sent) = some (status, answer) →
      RegAnswer O e body 200 (if status ≥ 400 then [] else answer)

theorem post_inv {e : RegEnv} {cms : Bytes} {r : Option (Option Bytes)} (h : postVoucherRequest e cms = .ok r) :
    r = none ∨ ∃ s b, e.masa (rfc4648 cms) = some (s, b) ∧ r = some (if s ≥ 400 then none else some b) := by
  unfold postVoucherRequest at h
  cases ha : array2base64str e.out cms with
  | ub => rw [ha] at h; cases h
  | ok s =>
    rw [ha, bind'_ok] at h
    cases s with
    | none => cases h; exact .inl rfl
    | some s =>
      obtain ⟨buf, n⟩ := s
      simp only [cstr_encoded ha] at h
      split at h
      · cases h
      · cases hm : e.masa (rfc4648 cms) with
        | none => rw [hm] at h; cases h; exact .inl rfl
        | some q =>
          obtain ⟨s, b⟩ := q
          rw [hm] at h
          cases h
          exact .inr ⟨s, b, rfl, rfl⟩

theorem regForward_inv (O : Ossl) (hsm : Small O) (e : RegEnv) (body : Bytes) (t : Tm) (serial issuer : Bytes)
    (hs : e.serial = some serial) (h0 : (0 : UInt8) ∉ serial) (hi : e.issuer = some issuer) (ht : e.now = some t)
    (tls : Bytes) (htls : e.tlsCert = .der tls) (c : Bytes) (req : BinArr)
    (hreq : (BodyDecodes e.al e.blk body c ∧ req = .of c) ∨ req = ⟨none, sizeMax⟩) (h : Heap)
    (owned : List (Option Nat)) (r : Reply) (he : regForward O e t serial issuer req h owned = .ok r) :
    RegAnswer O e body r.status r.body := by
  unfold regForward at he
  rcases hreq with ⟨hdec, rfl⟩ | rfl
  · cases hv : signVoucherRequest O e.rt (some (.of c)) (some t) (some serial) (some (.of issuer)) e.tlsCert.arr
      e.signCert.arr e.signKey.arr e.pledgeCerts.certs e.pledgeStore.certs e.additional.certs with
    | ub => rw [hv] at he; cases he
    | ok v =>
      rw [hv, bind'_ok] at he
      cases v with
      | none => obtain ⟨h1, h2⟩ := regReturn_inv he; rw [h1, h2]; exact .refused
      | some v =>
        obtain ⟨s, i, rr, c', text, pv, e1, e2, e3, e4, hA, hR, hvet, hsig⟩ := C27_vetting O hsm e.rt _ t _ _ _ _ _ _ _ _
          (by intro y hy; cases hy; exact wf_of c) (by intro s hs; cases hs; exact h0)
          (by intro y hy; cases hy; exact wf_of issuer) (arr_wf _) (arr_wf _) (arr_wf _) v hv
        cases e1
        obtain rfl := arr_of_inj (Option.some.inj e2)
        obtain rfl := arr_of_inj (Option.some.inj e4)
        rw [htls] at e3
        obtain rfl : BinArr.of tls = rr := Option.some.inj e3
        have hfw : Forwarded O e body v := ⟨serial, issuer, t, tls, c, text, pv, hs, hi, ht, htls, hdec, hA, hR, hvet, hsig⟩
        simp only at he
        cases hp : postVoucherRequest e v with
        | ub => rw [hp] at he; cases he
        | ok p =>
          rw [hp, bind'_ok] at he
          rcases post_inv hp with rfl | ⟨s, b, hm, rfl⟩
          · obtain ⟨h1, h2⟩ := regReturn_inv he; rw [h1, h2]; exact .gateway v hfw
          · obtain ⟨h1, h2⟩ := regReturn_inv he
            rw [h1, h2]
            have : (if s ≥ 400 then none else some b).getD [] = if s ≥ 400 then [] else b := by
              split <;> rfl
            rw [this]
            exact .answered v s b hfw hm
  · rw [registrar_failed, bind'_ok] at he
    obtain ⟨h1, h2⟩ := regReturn_inv he
    rw [h1, h2]
    exact .refused

/-- Every answer of the registrar. -/
theorem registrar_answer (O : Ossl) (hsm : Small O) (e : RegEnv) (hblk : e.blk.length = 4) (hser : strOk e.serial)
    (body : Bytes) (hsz : (cstr body).length < 2 ^ 63) (h : Heap) (r : Reply)
    (he : registrarRequestVoucher O e body h = .ok r) : RegAnswer O e body r.status r.body := by
  unfold registrarRequestVoucher at he
  split at he
  · cases hs : e.serial with
    | none => rw [hs] at he; cases he; exact .refused
    | some serial =>
      rw [hs] at he
      simp only at he
      cases hi : e.issuer with
      | none => rw [hi] at he; cases he; exact .refused
      | some issuer =>
        rw [hi] at he
        simp only at he
        split at he
        · have key : ∀ (H : Heap) (b : Body), decodeBody e.al e.blk H body = .ok b →
              ∃ c, (BodyDecodes e.al e.blk body c ∧ b.arr = .of c) ∨ b.arr = ⟨none, sizeMax⟩ := by
            intro H b hb
            rcases decodeBody_cases e.al e.blk hblk H body hsz with ⟨c, h1, h2⟩ | ⟨-, h2⟩ | ⟨-, h2⟩
            · rw [h2] at hb; cases hb; exact ⟨c, .inl ⟨h1, rfl⟩⟩
            · rw [h2] at hb; cases hb; exact ⟨[], .inr rfl⟩
            · rw [h2] at hb; cases hb; exact ⟨[], .inr rfl⟩
          have fin : ∀ {H ps}, regReturn H ps 500 [] = .ok r → RegAnswer O e body r.status r.body := by
            intro H ps hr
            obtain ⟨h1, h2⟩ := regReturn_inv hr
            rw [h1, h2]; exact .unable
          cases hb : decodeBody e.al e.blk ((h.alloc issuer).1.alloc []).1 body with
          | ub => rw [hb] at he; cases he
          | ok b =>
            obtain ⟨c, hbk⟩ := key _ b hb
            rw [hb, bind'_ok] at he
            cases ht : e.now with
            | none => rw [ht] at he; exact fin he
            | some t =>
              rw [ht] at he
              simp only at he
              cases hf : readFile b.heap e.tlsCert with
              | ub => rw [hf] at he; cases he
              | ok f =>
                rw [hf, bind'_ok] at he
                rcases readFile_inv hf with ⟨-, rfl⟩ | ⟨tls, htls, rfl⟩
                · exact fin he
                · simp only at he
                  cases hc : readFile (b.heap.alloc tls).1 e.signCert with
                  | ub => rw [hc] at he; cases he
                  | ok f =>
                    rw [hc, bind'_ok] at he
                    rcases readFile_inv hc with ⟨-, rfl⟩ | ⟨cert, hcert, rfl⟩
                    · exact fin he
                    · simp only at he
                      cases hk : readFile ((b.heap.alloc tls).1.alloc cert).1 e.signKey with
                      | ub => rw [hk] at he; cases he
                      | ok f =>
                        rw [hk, bind'_ok] at he
                        rcases readFile_inv hk with ⟨-, rfl⟩ | ⟨ky, hky, rfl⟩
                        · exact fin he
                        · simp only at he
                          split at he
                          · exact regForward_inv O hsm e body t serial issuer hs (hser _ hs) hi ht tls htls c _ hbk _ _ r he
                          · exact fin he
        · cases he
  · cases he; exact .refused

/-- **C39** as stated: an answer 200 carries the body of a successful answer of the MASA to the voucher
request made from the request of the pledge (specification for
/repo/src/brski/registrar/registrar_api.cpp:90-133,292-303). -/
def C39_statement : Prop :=
  ∀ (O : Ossl) (e : RegEnv) (body : Bytes) (h : Heap) (r : Reply), Small O → e.blk.length = 4 → strOk e.serial →
    (cstr body).length < 2 ^ 63 → registrarRequestVoucher O e body h = .ok r → r.status = 200 →
    ∃ sent status answer, Forwarded O e body sent ∧ e.masa (rfc4648 sent) = some (status, answer) ∧
      200 ≤ status ∧ status < 300 ∧ r.body = answer

/-- **C39**, the part that holds: an answer 200 is given only after a vetted request was sent to the MASA and
answered with any status; below 400 the body is that of the MASA, otherwise it is empty.  Missing: a refusal by
the MASA is not passed on (see `C39_violated`). -/
theorem C39_partial (O : Ossl) (hsm : Small O) (e : RegEnv) (hblk : e.blk.length = 4) (hser : strOk e.serial)
    (body : Bytes) (hsz : (cstr body).length < 2 ^ 63) (h : Heap) (r : Reply)
    (he : registrarRequestVoucher O e body h = .ok r) (h200 : r.status = 200) :
    ∃ sent status answer, Forwarded O e body sent ∧ e.masa (rfc4648 sent) = some (status, answer) ∧
      (status < 400 → r.body = answer) ∧ (400 ≤ status → r.body = []) := by
  have := registrar_answer O hsm e hblk hser body hsz h r he
  rw [h200] at this
  generalize hb : r.body = B at this ⊢
  cases this with
  | answered sent status answer hf hm =>
    exact ⟨sent, status, answer, hf, hm, fun h => if_neg (by omega), fun h => if_pos h⟩

/-- **C39**, other answers: 400 and 500 with an empty body, and 502 with the fixed text, which means a vetted
request could not be delivered. -/
theorem C39_partial_refused (O : Ossl) (hsm : Small O) (e : RegEnv) (hblk : e.blk.length = 4) (hser : strOk e.serial)
    (body : Bytes) (hsz : (cstr body).length < 2 ^ 63) (h : Heap) (r : Reply)
    (he : registrarRequestVoucher O e body h = .ok r) (h200 : r.status ≠ 200) :
    ((r.status = 400 ∨ r.status = 500) ∧ r.body = []) ∨
      (r.status = 502 ∧ r.body = badGateway ∧ ∃ sent, Forwarded O e body sent) := by
  have := registrar_answer O hsm e hblk hser body hsz h r he
  generalize hb : r.body = B at this ⊢
  generalize hst : r.status = S at this h200 ⊢
  cases this with
  | refused => exact .inl ⟨.inl rfl, rfl⟩
  | unable => exact .inl ⟨.inr rfl, rfl⟩
  | gateway sent hf => exact .inr ⟨rfl, rfl, sent, hf⟩
  | answered => exact absurd rfl h200

/-- A registrar for instances: the pledge presents serial `S1`, the registrar is 7, pledges are trusted by 3. -/
def demoReg (masa : Bytes → Option (Nat × Bytes)) : RegEnv where
  known := true
  serial := some (str "S1")
  issuer := some [5]
  mem := true
  al := zeroAllocator
  blk := [0, 0, 0, 0]
  now := some ⟨1, 2, 3, 4, 5, 120, 0, 0, 0⟩
  tlsCert := .der [7]
  signCert := .der [7]
  signKey := .der [7]
  pledgeCerts := .absent
  pledgeStore := .list [([3], 0)]
  additional := .absent
  rt := Rt.plain
  out := zeroAllocator
  host := some (str "masa")
  keyPath := some (str "k.pem")
  masa := masa

theorem cstr_idem (b : Bytes) : cstr (cstr b) = cstr b := by
  unfold cstr
  induction b with
  | nil => rfl
  | cons x xs ih =>
    by_cases hx : x ≠ 0
    · rw [List.takeWhile_cons_of_pos (by simpa using hx), List.takeWhile_cons_of_pos (by simpa using hx), ih]
    · rw [List.takeWhile_cons_of_neg (by simpa using hx)]; rfl

/-- The base64 text of a message is decoded to the message by the handlers. -/
theorem decodes_rfc (al : Allocator) (hal : NoOom al) (blk bs : Bytes) (hblk : blk.length = 4) (hne : bs ≠ [])
    (hlt : bs.length < sizeMax / 4) : BodyDecodes al blk (rfc4648 bs) bs := by
  obtain ⟨buf, n, h1, h2⟩ := C01_roundtrip zeroAllocator al noOom_zero hal blk bs hblk hne hlt
  obtain ⟨-, ht, -⟩ := C02_encode_any_alloc _ bs buf n h1
  have hc := cstr_encoded h1
  have : cstr (rfc4648 bs) = rfc4648 bs := by rw [← hc, cstr_idem]
  unfold BodyDecodes
  rw [this, ← ht]
  exact h2

theorem rfc_length (bs : Bytes) : (cstr (rfc4648 bs)).length ≤ 4 * (bs.length + 2) / 3 := by
  have h1 : (cstr (rfc4648 bs)).length ≤ (rfc4648 bs).length := (List.takeWhile_sublist _).length_le
  have h2 := enc_length bs
  rw [← enc_eq_rfc] at *
  omega

theorem regLists_full {ls : List Loaded} (hl : ∀ l ∈ ls, l ≠ .noMem ∧ l ≠ .freed) :
    ∀ {h : Heap} {ps : List (Option Nat)}, (regLists h ps ls).2.2 = true := by
  induction ls with
  | nil => intro h ps; rfl
  | cons l ls ih =>
    intro h ps
    have h1 := hl l (by simp)
    have hok : (loadList h l).2.2 = true := by
      cases l with
      | absent => rfl
      | list l => rfl
      | noMem => exact absurd rfl h1.1
      | freed => exact absurd rfl h1.2
    simp only [regLists, hok, if_true]
    exact ih fun l' hm => hl l' (by simp [hm])

theorem regReturn_owns {h0 h : Heap} (hw : h0.Wf) {ps : List (Option Nat)} (ho : Owns h0 h ps) (s : Nat) (b : Bytes) :
    ∃ r, regReturn h ps s b = .ok r ∧ Owns h0 r.heap [] ∧ r.status = s ∧ r.body = b := by
  obtain ⟨h', e, o⟩ := owns_freeAll hw _ ho
  exact ⟨⟨h', none, s, b⟩, by rw [regReturn, e, bind'_ok], o, rfl, rfl⟩

/-- **C39**, completeness: a body that decodes to a pledge request from which a voucher request is made is sent
to the MASA, and what the MASA answers below 400 is the answer of the registrar. -/
theorem C39_partial_forwards (O : Ossl) (e : RegEnv) (body : Bytes) (h : Heap) (hw : h.Wf) (c serial issuer : Bytes) (t : Tm)
    (sent : Bytes) (hknown : e.known = true) (hmem : e.mem = true) (hout : NoOom e.out)
    (hlists : ∀ l ∈ [e.pledgeCerts, e.pledgeStore, e.additional], l ≠ .noMem ∧ l ≠ .freed)
    (hs : e.serial = some serial) (hi : e.issuer = some issuer) (ht : e.now = some t)
    (htls : e.tlsCert ≠ .unset ∧ e.tlsCert ≠ .bad) (hcert : e.signCert ≠ .unset ∧ e.signCert ≠ .bad)
    (hkey : e.signKey ≠ .unset ∧ e.signKey ≠ .bad) (hhost : e.host ≠ none ∧ e.keyPath ≠ none)
    (hdec : BodyDecodes e.al e.blk body c)
    (hsign : signVoucherRequest O e.rt (some (.of c)) (some t) (some serial) (some (.of issuer)) e.tlsCert.arr
      e.signCert.arr e.signKey.arr e.pledgeCerts.certs e.pledgeStore.certs e.additional.certs = .ok (some sent))
    (hlen : sent.length < sizeMax / 4) :
    ∃ r, registrarRequestVoucher O e body h = .ok r ∧ r.heap.blk = h.blk ∧
      (e.masa (rfc4648 sent) = none → r.status = 502 ∧ r.body = badGateway) ∧
      (∀ s b, e.masa (rfc4648 sent) = some (s, b) → r.status = 200 ∧ r.body = if s ≥ 400 then [] else b) := by
  have der : ∀ {f : FileRes}, f ≠ .unset ∧ f ≠ .bad → ∃ b, f = .der b := by
    intro f hf
    cases f with
    | unset => exact absurd rfl hf.1
    | bad => exact absurd rfl hf.2
    | der b => exact ⟨b, rfl⟩
  obtain ⟨tls, htls⟩ := der htls
  obtain ⟨cert, hcert⟩ := der hcert
  obtain ⟨ky, hky⟩ := der hkey
  have hbody : ∀ H, decodeBody e.al e.blk H body = .ok ⟨(H.alloc c).1, some c.length, some (H.alloc c).2, c⟩ := by
    intro H
    unfold decodeBody
    rw [hdec, bind'_ok]
  unfold registrarRequestVoucher
  simp only [hknown, hmem, if_true, hs, hi, ht, hbody, bind'_ok, htls, hcert, hky, readFile, regLists_full hlists]
  rw [htls, hcert, hky] at hsign
  have o := owns_regLists [e.pledgeCerts, e.pledgeStore, e.additional] (owns_alloc (owns_alloc (owns_alloc
    (owns_alloc (owns_alloc (owns_alloc (owns_nil hw) issuer) []) c) tls) cert) ky)
  generalize hL : regLists _ _ _ = L at o ⊢
  unfold regForward
  rw [show (⟨_, some c.length, some _, c⟩ : Body).arr = .of c from rfl, htls, hcert, hky, hsign, bind'_ok]
  simp only
  have o2 := owns_alloc o sent
  unfold postVoucherRequest
  obtain ⟨buf, n, hb, -⟩ := C02_encode_rfc4648 e.out hout sent hlen
  rw [hb, bind'_ok]
  simp only [cstr_encoded hb]
  rw [if_neg (fun h => h.elim hhost.1 hhost.2)]
  cases hm : e.masa (rfc4648 sent) with
  | none =>
    simp only [bind'_ok]
    obtain ⟨r, h1, h2, h3, h4⟩ := regReturn_owns hw o2 502 badGateway
    exact ⟨r, h1, owns_blk h2, (fun _ => ⟨h3, h4⟩), (fun s b hb => by cases hb)⟩
  | some q =>
    obtain ⟨s, b⟩ := q
    simp only [bind'_ok]
    obtain ⟨r, h1, h2, h3, h4⟩ := regReturn_owns hw o2 200 ((if s ≥ 400 then none else some b).getD [])
    refine ⟨r, h1, owns_blk h2, (fun h => by cases h), ?_⟩
    intro s' b' he
    cases he
    refine ⟨h3, ?_⟩
    rw [h4]
    split <;> rfl

/-- The voucher request made in the instance. -/
theorem demoReg_signs : ∃ v, signVoucherRequest toy Rt.plain (some (.of demoPledgeCms)) (some ⟨1, 2, 3, 4, 5, 120, 0, 0, 0⟩)
    (some (str "S1")) (some (.of [5])) (some (.of [7])) (some (.of [7])) (some (.of [7])) none
    (some [([3], 0)]) none = .ok (some v) ∧ v.length < 1000 := by
  have h : (signVoucherRequest toy Rt.plain (some (.of demoPledgeCms)) (some ⟨1, 2, 3, 4, 5, 120, 0, 0, 0⟩)
    (some (str "S1")) (some (.of [5])) (some (.of [7])) (some (.of [7])) (some (.of [7])) none
    (some [([3], 0)]) none).bind (fun r => .ok (r.map fun v => decide (v.length < 1000))) = .ok (some true) := by
    decide +kernel
  revert h
  generalize signVoucherRequest _ _ _ _ _ _ _ _ _ _ _ _ = o
  intro h
  cases o with
  | ub => cases h
  | ok v =>
    rw [bind'_ok] at h
    cases v with
    | none => cases h
    | some v => exact ⟨v, rfl, by simpa using h⟩

/-- The instance run, whatever the MASA answers. -/
theorem demoReg_runs (s : Nat) (b : Bytes) :
    ∃ r, registrarRequestVoucher toy (demoReg fun _ => some (s, b)) (rfc4648 demoPledgeCms) Heap.empty = .ok r ∧
      r.status = 200 ∧ r.body = if s ≥ 400 then [] else b := by
  obtain ⟨v, hv, hl⟩ := demoReg_signs
  obtain ⟨r, h1, -, -, h2⟩ := C39_partial_forwards toy (demoReg fun _ => some (s, b)) (rfc4648 demoPledgeCms) Heap.empty
    Heap.wf_empty demoPledgeCms (str "S1") [5] ⟨1, 2, 3, 4, 5, 120, 0, 0, 0⟩ v rfl rfl noOom_zero
    (by intro l hl; simp only [demoReg, List.mem_cons, List.not_mem_nil, or_false] at hl
        rcases hl with rfl | rfl | rfl <;> exact ⟨(fun h => by cases h), (fun h => by cases h)⟩)
    rfl rfl rfl ⟨(fun h => by cases h), (fun h => by cases h)⟩ ⟨(fun h => by cases h), (fun h => by cases h)⟩
    ⟨(fun h => by cases h), (fun h => by cases h)⟩ ⟨nofun, nofun⟩
    (decodes_rfc _ noOom_zero _ _ rfl (by decide) (by decide +kernel)) hv (by unfold sizeMax; omega)
  exact ⟨r, h1, h2 s b rfl⟩

/-- non-vacuity of C39_partial and C39_partial_forwards: the body of the MASA is passed on. -/
example : ∃ r, registrarRequestVoucher toy (demoReg fun _ => some (200, str "voucher")) (rfc4648 demoPledgeCms)
    Heap.empty = .ok r ∧ r.status = 200 ∧ r.body = str "voucher" := demoReg_runs 200 _

/-- non-vacuity of C39_partial_refused: a client without serial number. -/
example : ∃ r, registrarRequestVoucher toy { demoReg (fun _ => none) with serial := none } (rfc4648 demoPledgeCms)
    Heap.empty = .ok r ∧ r.status ≠ 200 := ⟨_, rfl, by decide⟩

/-- The code violates C39: when the MASA refuses with 400 the registrar answers 200 with an empty body. -/
theorem C39_violated : ¬ C39_statement := by
  intro h
  obtain ⟨r, hr, h1, h2⟩ := demoReg_runs 400 (str "no")
  have hsz : (cstr (rfc4648 demoPledgeCms)).length < 2 ^ 63 := by
    have := rfc_length demoPledgeCms
    have h3 : demoPledgeCms.length < 1000 := by decide +kernel
    omega
  obtain ⟨sent, status, answer, hf, hm, h3, h4, h5⟩ := h toy (demoReg fun _ => some (400, str "no"))
    (rfc4648 demoPledgeCms) Heap.empty r toy_small rfl (by intro s hs; cases hs; decide) hsz hr h1
  cases hm
  omega

/-! ## C41, registrar, voucher requests -/

/-- The request step releases everything, unless the pledge request has no serial number. -/
theorem regForward_owns (O : Ossl) (hsm : Small O) (e : RegEnv) (hal : Alloc (e.rt.json 0)) (t : Tm)
    (serial issuer c : Bytes) (h0s : (0 : UInt8) ∉ serial) (req : BinArr) (hreq : req = .of c ∨ req = ⟨none, sizeMax⟩)
    (hser : ∀ text pv, req = .of c → Authentic O e.pledgeCerts.certs e.pledgeStore.certs c text →
      Reads (e.rt.json 0) text pv → pv.serial ≠ none) (hhost : e.host ≠ none ∧ e.keyPath ≠ none)
    (h0 h : Heap) (hw : h0.Wf) (ps : List (Option Nat)) (ho : Owns h0 h ps) :
    ∃ r, regForward O e t serial issuer req h ps = .ok r ∧ Owns h0 r.heap [] := by
  unfold regForward
  have hd : (signVoucherRequest O e.rt (some req) (some t) (some serial) (some (.of issuer)) e.tlsCert.arr e.signCert.arr
      e.signKey.arr e.pledgeCerts.certs e.pledgeStore.certs e.additional.certs).Defined := by
    rcases hreq with rfl | rfl
    · exact C27_defined O hsm e.rt hal _ _ _ _ _ _ _ _ _ _ (by intro y hy; cases hy; exact wf_of c)
        (by intro s hs; cases hs; exact h0s) (by intro y hy; cases hy; exact wf_of issuer) (arr_wf _) (arr_wf _) (arr_wf _)
        (by intro x text pv hx hA hR; cases hx; exact hser text pv rfl hA hR)
    · exact ⟨_, registrar_failed ..⟩
  obtain ⟨v, hv⟩ := hd
  rw [hv, bind'_ok]
  have ret : ∀ {H : Heap} {qs : List (Option Nat)} (s : Nat) (b : Bytes), Owns h0 H qs →
      ∃ r, regReturn H qs s b = .ok r ∧ Owns h0 r.heap [] := by
    intro H qs s b hq
    obtain ⟨r, h1, h2, -, -⟩ := regReturn_owns hw hq s b
    exact ⟨r, h1, h2⟩
  cases v with
  | none => exact ret _ _ ho
  | some v =>
    simp only
    have o2 := owns_alloc ho v
    have hp : (postVoucherRequest e v).Defined := by
      unfold postVoucherRequest
      obtain ⟨s, hs⟩ := C03_encode_safe e.out v
      rw [hs, bind'_ok]
      cases s with
      | none => exact ⟨_, rfl⟩
      | some s =>
        obtain ⟨buf, n⟩ := s
        simp only
        rw [if_neg (fun h => h.elim hhost.1 hhost.2)]
        cases e.masa (cstr buf) with
        | none => exact ⟨_, rfl⟩
        | some q => exact ⟨_, rfl⟩
    obtain ⟨p, hp⟩ := hp
    rw [hp, bind'_ok]
    cases p with
    | none => exact ret _ _ o2
    | some p => exact ret _ _ o2

/-- The registrar handler on a body that is not badly padded. -/
theorem registrar_owns (O : Ossl) (hsm : Small O) (e : RegEnv) (hblk : e.blk.length = 4) (hmem : e.mem = true)
    (hstr : strOk e.serial) (hf1 : e.tlsCert ≠ .unset) (hf2 : e.signCert ≠ .unset) (hf3 : e.signKey ≠ .unset)
    (hhost : e.host ≠ none ∧ e.keyPath ≠ none) (hal : Alloc (e.rt.json 0)) (body : Bytes) (hsz : (cstr body).length < 2 ^ 63)
    (hser : ∀ c text pv, BodyDecodes e.al e.blk body c → Authentic O e.pledgeCerts.certs e.pledgeStore.certs c text →
      Reads (e.rt.json 0) text pv → pv.serial ≠ none)
    (hd : base64str2array e.al e.blk (cstr body) ≠ .ok (none, .dangling)) (h : Heap) (hw : h.Wf) :
    ∃ r, registrarRequestVoucher O e body h = .ok r ∧ Owns h r.heap [] := by
  unfold registrarRequestVoucher
  have done : ∃ r, (Outcome.ok ⟨h, none, 400, []⟩ : Outcome Reply) = .ok r ∧ Owns h r.heap [] := ⟨_, rfl, owns_nil hw⟩
  have ret : ∀ {H : Heap} {qs : List (Option Nat)} (s : Nat) (b : Bytes), Owns h H qs →
      ∃ r, regReturn H qs s b = .ok r ∧ Owns h r.heap [] := by
    intro H qs s b hq
    obtain ⟨r, h1, h2, -, -⟩ := regReturn_owns hw hq s b
    exact ⟨r, h1, h2⟩
  split
  · cases hs : e.serial with
    | none => exact done
    | some serial =>
      cases hi : e.issuer with
      | none => exact done
      | some issuer =>
        simp only [hmem, if_true]
        have oi := owns_alloc (owns_alloc (owns_nil hw) issuer) []
        have key : ∃ b : Body, decodeBody e.al e.blk ((h.alloc issuer).1.alloc []).1 body = .ok b ∧
            Owns h b.heap [b.ptr, some ((h.alloc issuer).1.alloc []).2, some (h.alloc issuer).2] ∧
            ∃ c, (BodyDecodes e.al e.blk body c ∧ b.arr = .of c) ∨ b.arr = ⟨none, sizeMax⟩ := by
          rcases decodeBody_cases e.al e.blk hblk ((h.alloc issuer).1.alloc []).1 body hsz with
            ⟨c, h1, h2⟩ | ⟨-, h2⟩ | ⟨h1, -⟩
          · exact ⟨_, h2, owns_alloc oi c, c, .inl ⟨h1, rfl⟩⟩
          · exact ⟨_, h2, owns_none.2 oi, [], .inr rfl⟩
          · exact absurd h1 hd
        obtain ⟨b, hb, ob, c, harr⟩ := key
        rw [hb, bind'_ok]
        cases ht : e.now with
        | none => exact ret _ _ ob
        | some t =>
          simp only
          rcases readFile_set hf1 b.heap with e1 | ⟨tls, htls, e1⟩
          · rw [e1, bind'_ok]; exact ret _ _ ob
          · rw [e1, bind'_ok]
            have o1 := owns_alloc ob tls
            simp only
            rcases readFile_set hf2 (b.heap.alloc tls).1 with e2 | ⟨cert, hcert, e2⟩
            · rw [e2, bind'_ok]; exact ret _ _ o1
            · rw [e2, bind'_ok]
              have o2 := owns_alloc o1 cert
              simp only
              rcases readFile_set hf3 ((b.heap.alloc tls).1.alloc cert).1 with e3 | ⟨ky, hky, e3⟩
              · rw [e3, bind'_ok]; exact ret _ _ o2
              · rw [e3, bind'_ok]
                have o4 := owns_regLists [e.pledgeCerts, e.pledgeStore, e.additional] (owns_alloc o2 ky)
                simp only
                split
                · refine regForward_owns O hsm e hal t serial issuer c (hstr _ hs) b.arr ?_ ?_ ?_ h _ hw _ o4
                  · rcases harr with ⟨-, h1⟩ | h1
                    · exact .inl h1
                    · exact .inr h1
                  · intro text pv he hA hR
                    rcases harr with ⟨h1, -⟩ | h1
                    · exact hser c text pv h1 hA hR
                    · rw [h1] at he; simp [BinArr.of] at he
                  · exact hhost
                · exact ret _ _ o4
  · exact done

theorem regReturn_stale {h : Heap} {p : Nat} (hs : Stale h p) {ps : List (Option Nat)} (hm : some p ∈ ps) (s : Nat)
    (b : Bytes) : regReturn h ps s b = .ub := by
  rw [regReturn, freeAll_stale _ hs hm]
  rfl

/-- A badly padded body makes the registrar release a block twice for every known client with serial number and
issuer. -/
theorem registrar_dangling (O : Ossl) (e : RegEnv) (body : Bytes)
    (hk : e.known = true) (hs : e.serial ≠ none) (hi : e.issuer ≠ none)
    (hd : base64str2array e.al e.blk (cstr body) = .ok (none, .dangling)) (h : Heap) (hw : h.Wf) :
    registrarRequestVoucher O e body h = .ub := by
  unfold registrarRequestVoucher
  rw [if_pos hk]
  cases hs' : e.serial with
  | none => exact absurd hs' hs
  | some serial =>
    cases hi' : e.issuer with
    | none => exact absurd hi' hi
    | some issuer =>
      simp only
      split
      · have hw2 := Heap.alloc_wf (Heap.alloc_wf hw issuer) []
        have hb : decodeBody e.al e.blk ((h.alloc issuer).1.alloc []).1 body =
            .ok ⟨(burn ((h.alloc issuer).1.alloc []).1).1, none, some (burn ((h.alloc issuer).1.alloc []).1).2, []⟩ := by
          unfold decodeBody
          rw [hd, bind'_ok]
        rw [hb, bind'_ok]
        have s0 := stale_of_burn hw2
        generalize burn ((h.alloc issuer).1.alloc []).1 = B at s0 ⊢
        cases e.now with
        | none => exact regReturn_stale s0 (by simp) _ _
        | some t =>
          simp only
          cases hf : readFile B.1 e.tlsCert with
          | ub => rfl
          | ok f =>
            rw [bind'_ok]
            rcases readFile_inv hf with ⟨-, rfl⟩ | ⟨tls, htls, rfl⟩
            · exact regReturn_stale s0 (by simp) _ _
            · have s1 := stale_alloc s0 tls
              simp only
              cases hc : readFile (B.1.alloc tls).1 e.signCert with
              | ub => rfl
              | ok c =>
                rw [bind'_ok]
                rcases readFile_inv hc with ⟨-, rfl⟩ | ⟨cert, hcert, rfl⟩
                · exact regReturn_stale s1 (by simp) _ _
                · have s2 := stale_alloc s1 cert
                  simp only
                  cases hk : readFile ((B.1.alloc tls).1.alloc cert).1 e.signKey with
                  | ub => rfl
                  | ok k =>
                    rw [bind'_ok]
                    rcases readFile_inv hk with ⟨-, rfl⟩ | ⟨ky, hky, rfl⟩
                    · exact regReturn_stale s2 (by simp) _ _
                    · have s3 := regLists_stale [e.pledgeCerts, e.pledgeStore, e.additional]
                        (ps := [some (((B.1.alloc tls).1.alloc cert).1.alloc ky).2, some ((B.1.alloc tls).1.alloc cert).2,
                          some (B.1.alloc tls).2, some B.2, some ((h.alloc issuer).1.alloc []).2, some (h.alloc issuer).2])
                        (stale_alloc s2 ky) (by simp)
                      simp only
                      split
                      · unfold regForward
                        rw [show (⟨B.1, none, some B.2, []⟩ : Body).arr = ⟨none, sizeMax⟩ from rfl, registrar_failed,
                          bind'_ok]
                        exact regReturn_stale s3.1 s3.2 _ _
                      · exact regReturn_stale s3.1 s3.2 _ _
      · rfl

/-- **C41** for voucher requests at the registrar, exact: for a client with serial number and issuer the handler
is defined (and leaves no block behind, and releases none twice) exactly for the bodies that are not badly
padded, as long as verifying pledge requests carry a serial number (see C28). -/
theorem C41_registrar_partial (O : Ossl) (hsm : Small O) (e : RegEnv) (hblk : e.blk.length = 4) (hmem : e.mem = true)
    (hk : e.known = true) (hs : e.serial ≠ none) (hi : e.issuer ≠ none) (hal0 : NoOom e.al)
    (hstr : strOk e.serial) (hf1 : e.tlsCert ≠ .unset) (hf2 : e.signCert ≠ .unset) (hf3 : e.signKey ≠ .unset)
    (hhost : e.host ≠ none ∧ e.keyPath ≠ none) (hal : Alloc (e.rt.json 0)) (body : Bytes) (hsz : (cstr body).length < 2 ^ 63)
    (hser : ∀ c text pv, BodyDecodes e.al e.blk body c → Authentic O e.pledgeCerts.certs e.pledgeStore.certs c text →
      Reads (e.rt.json 0) text pv → pv.serial ≠ none) (h : Heap) (hw : h.Wf) :
    (∃ r, registrarRequestVoucher O e body h = .ok r ∧ r.heap.blk = h.blk) ↔
      ((cstr body).filter isB64Char = [] ∨ ¬ BadPadding (padded (cstr body))) := by
  have hiff := dangling_iff e.al e.blk (cstr body) hblk hsz
  by_cases hd : base64str2array e.al e.blk (cstr body) = .ok (none, .dangling)
  · have h1 := hiff.1 hd
    constructor
    · rintro ⟨r, hr, -⟩
      rw [registrar_dangling O e body hk hs hi hd h hw] at hr
      cases hr
    · rintro (h2 | h2)
      · exact absurd h2 h1.1
      · exact absurd h1.2.2 h2
  · constructor
    · intro _
      by_cases h0 : (cstr body).filter isB64Char = []
      · exact .inl h0
      · exact .inr fun hb => hd (hiff.2 ⟨h0, hal0 _, hb⟩)
    · intro _
      obtain ⟨r, h1, h2⟩ := registrar_owns O hsm e hblk hmem hstr hf1 hf2 hf3 hhost hal body hsz hser hd h hw
      exact ⟨r, h1, owns_blk h2⟩

end Brski.Props
