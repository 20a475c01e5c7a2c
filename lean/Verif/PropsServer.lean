import Verif.ServerLemmas

/-!
# Properties C40, C41: the voucher endpoint of the MASA
-/

namespace Brski.Props
open Outcome Brski.Voucher VoucherJson Crypto BoolTime Request Base64 Brski.Spec Server

/-- The request text of a body decodes to `c` (see C01, C04, C57 for what this means;
/repo/src/brski/masa/masa_api.cpp:87-89). -/
def BodyDecodes (al : Allocator) (blk body c : Bytes) : Prop :=
  base64str2array al blk (cstr body) = .ok (some c.length, .owned c)

/-- A voucher issued for the request `c` under the configuration (specification for
/repo/src/brski/masa/masa_api.cpp:57-183; RFC 8995 section 5.6). -/
def Issued (O : Ossl) (e : MasaEnv) (c cms : Bytes) : Prop :=
  ∃ text t vr pv serial pin, e.expiresOn = some text ∧ str2time e.lib text = some t ∧
    Consistent O e.rt c e.registrarCerts.certs e.registrarStore.certs e.pledgeCerts.certs e.pledgeStore.certs
      vr pv serial ∧
    e.ldevid = .der pin ∧
    SignedVoucher O e.signCert.arr e.signKey.arr e.additional.certs (issuedVoucher serial vr.nonce pin t) cms

theorem masaFail_inv {h : Heap} {ctx : Option Nat} {ps : List (Option Nat)} {r : Reply}
    (he : masaFail h ctx ps = .ok r) : r.status = 400 ∧ r.body = [] ∧ r.ctx = ctx := by
  unfold masaFail at he
  cases hf : freeAll h (ctx :: ps) with
  | ub => rw [hf] at he; cases he
  | ok h' => rw [hf, bind'_ok] at he; cases he; exact ⟨rfl, rfl, rfl⟩

theorem loadList_keep (h : Heap) (l : Loaded) (p : Nat) (hp : p < h.next) :
    (loadList h l).1.blk p = h.blk p ∧ h.next ≤ (loadList h l).1.next := by
  cases l with
  | absent => exact ⟨rfl, Nat.le_refl _⟩
  | list l => simp only [loadList, Heap.alloc_blk]; exact ⟨if_neg (by omega), by simp [Heap.alloc]⟩
  | noMem => exact ⟨rfl, Nat.le_refl _⟩
  | freed => exact ⟨rfl, by simp [loadList, burn]⟩

theorem loadLists_keep (ls : List Loaded) (p : Nat) :
    ∀ (h : Heap), p < h.next → (loadLists h ls).1.blk p = h.blk p := by
  induction ls with
  | nil => intro h _; rfl
  | cons l ls ih =>
    intro h hp
    obtain ⟨h1, h2⟩ := loadList_keep h l p hp
    simp only [loadLists]
    split
    · rw [ih _ (by omega), h1]
    · exact h1

theorem readFile_inv {h : Heap} {f : FileRes} {r : Heap × Option Nat} (he : readFile h f = .ok r) :
    (f = .bad ∧ r = (h, none)) ∨ ∃ b, f = .der b ∧ r = ((h.alloc b).1, some (h.alloc b).2) := by
  cases f with
  | unset => cases he
  | bad => cases he; exact .inl ⟨rfl, rfl⟩
  | der b => cases he; exact .inr ⟨b, rfl, rfl⟩

theorem pin_kept (h : Heap) (a b c : Bytes) :
    (((h.alloc a).1.alloc b).1.alloc c).1.blk (h.alloc a).2 = some a := by
  simp only [Heap.alloc_blk, Heap.alloc]
  rw [if_neg (by omega), if_neg (by omega), if_pos trivial]

/-- Outcome of the signing step. -/
theorem masaIssue_inv (O : Ossl) (hsm : Small O) (e : MasaEnv) (text : Bytes) (t : Tm) (ht : e.expiresOn = some text)
    (ht' : str2time e.lib text = some t) (c : Bytes) (req : BinArr) (hreq : req = .of c ∨ req = ⟨none, sizeMax⟩)
    (h : Heap) (p : Nat) (pin : Bytes) (hpin : e.ldevid = .der pin) (hb : h.blk p = some pin)
    (cert key : Option Nat) (ls : List (Option Nat)) (cms : Option Nat) (r : Reply)
    (he : masaIssue O e t req h (some p) cert key ls cms = .ok r) :
    (r.status = 400 ∧ r.body = [] ∧ r.ctx = some p) ∨
    (req = .of c ∧ r.status = 200 ∧ r.ctx = some p ∧ ∃ v, Issued O e c v ∧ r.body = rfc4648 v) := by
  unfold masaIssue at he
  rcases hreq with rfl | rfl
  · cases hsv : signMasaPledgeVoucher O e.rt (some (.of c)) (some t) (some (voucherReqCb e.cbMem h (some p))) e.signCert.arr
      e.signKey.arr e.registrarCerts.certs e.registrarStore.certs e.pledgeCerts.certs e.pledgeStore.certs
      e.additional.certs with
    | ub => rw [hsv] at he; cases he
    | ok v =>
      rw [hsv, bind'_ok] at he
      cases v with
      | none => exact .inl (masaFail_inv he)
      | some v =>
        obtain ⟨x, vr, pv, serial, signers, pin', hx, hcon, -, hcb, hsig⟩ := C29_consistent O hsm e.rt (some (.of c)) t
          _ (callback_ok e.cbMem h p pin hb) _ _ _ _ _ _ _ (by intro y hy; cases hy; exact wf_of c)
          (arr_wf _) (arr_wf _) v hsv
        cases hx
        have hpp : pin' = pin := by
          rcases callback_eq e.cbMem h p pin hb serial signers with e1 | e1
          · rw [e1] at hcb; cases hcb
          · rw [e1] at hcb; cases hcb; rfl
        subst hpp
        have hiss : Issued O e c v := ⟨text, t, vr, pv, serial, pin', ht, ht', hcon, hpin, hsig⟩
        simp only at he
        cases ha : array2base64str e.out v with
        | ub => rw [ha] at he; cases he
        | ok s =>
          rw [ha, bind'_ok] at he
          cases s with
          | none => exact .inl (masaFail_inv he)
          | some s =>
            obtain ⟨buf, n⟩ := s
            simp only at he
            cases hf : freeAll ((h.alloc v).1.alloc buf).1 (some ((h.alloc v).1.alloc buf).2 :: some p :: key :: cert :: ls ++
              [cms, some (h.alloc v).2]) with
            | ub => rw [hf] at he; cases he
            | ok h' =>
              rw [hf, bind'_ok] at he
              cases he
              exact .inr ⟨rfl, rfl, rfl, v, hiss, cstr_encoded ha⟩
  · rw [masa_failed, bind'_ok] at he
    exact .inl (masaFail_inv he)

/-- **C40** The MASA endpoint answers 200 only with the base64 text of a voucher issued for exactly the
request in the body, and otherwise 400 with an empty body.  For every body, configuration, heap,
allocation outcome and verification scheme. -/
theorem C40_answer (O : Ossl) (hsm : Small O) (e : MasaEnv) (hblk : e.blk.length = 4) (body : Bytes)
    (hsz : (cstr body).length < 2 ^ 63) (h : Heap) (ctx : Option Nat) (r : Reply)
    (he : masaRequestVoucher O e body h ctx = .ok r) :
    (r.status = 200 ∧ ∃ c cms, BodyDecodes e.al e.blk body c ∧ Issued O e c cms ∧ r.body = rfc4648 cms) ∨
    (r.status = 400 ∧ r.body = []) := by
  unfold masaRequestVoucher at he
  have fin : ∀ {h ctx ps}, masaFail h ctx ps = .ok r → r.status = 400 ∧ r.body = [] :=
    fun h => ⟨(masaFail_inv h).1, (masaFail_inv h).2.1⟩
  cases ht : e.expiresOn.bind (str2time e.lib) with
  | none => rw [ht] at he; exact .inr (fin he)
  | some t =>
    rw [ht] at he
    obtain ⟨text, ht1, ht2⟩ := Option.bind_eq_some_iff.1 ht
    simp only at he
    have key : ∀ b : Body, decodeBody e.al e.blk h body = .ok b →
        b.arr = ⟨none, sizeMax⟩ ∨ ∃ c, BodyDecodes e.al e.blk body c ∧ b.arr = .of c := by
      intro b hb
      rcases decodeBody_cases e.al e.blk hblk h body hsz with ⟨c, h1, h2⟩ | ⟨-, h2⟩ | ⟨-, h2⟩
      · rw [h2] at hb; cases hb; exact .inr ⟨c, h1, rfl⟩
      · rw [h2] at hb; cases hb; exact .inl rfl
      · rw [h2] at hb; cases hb; exact .inl rfl
    cases hb : decodeBody e.al e.blk h body with
    | ub => rw [hb] at he; cases he
    | ok b =>
      have hbk := key b hb
      rw [hb, bind'_ok] at he
      cases hf : readFile b.heap e.ldevid with
      | ub => rw [hf] at he; cases he
      | ok f =>
        rw [hf, bind'_ok] at he
        rcases readFile_inv hf with ⟨-, rfl⟩ | ⟨pin, hpin, rfl⟩
        · exact .inr (fin he)
        · simp only at he
          cases hc : readFile (b.heap.alloc pin).1 e.signCert with
          | ub => rw [hc] at he; cases he
          | ok c =>
            rw [hc, bind'_ok] at he
            rcases readFile_inv hc with ⟨-, rfl⟩ | ⟨cert, hcert, rfl⟩
            · exact .inr (fin he)
            · simp only at he
              cases hk : readFile ((b.heap.alloc pin).1.alloc cert).1 e.signKey with
              | ub => rw [hk] at he; cases he
              | ok k =>
                rw [hk, bind'_ok] at he
                rcases readFile_inv hk with ⟨-, rfl⟩ | ⟨ky, hky, rfl⟩
                · exact .inr (fin he)
                · simp only at he
                  split at he
                  · have hblkp : (loadLists (((b.heap.alloc pin).1.alloc cert).1.alloc ky).1
                        [e.registrarCerts, e.registrarStore, e.pledgeCerts, e.pledgeStore, e.additional]).1.blk
                        (b.heap.alloc pin).2 = some pin := by
                      rw [loadLists_keep _ _ _ (by simp [Heap.alloc]; omega)]
                      exact pin_kept b.heap pin cert ky
                    rcases hbk with hfail | ⟨cc, hdec, harr⟩
                    · rcases masaIssue_inv O hsm e text t ht1 ht2 [] b.arr (.inr hfail) _ _ pin hpin hblkp _ _ _ _ _ he
                        with ⟨h1, h2, -⟩ | ⟨h1, -⟩
                      · exact .inr ⟨h1, h2⟩
                      · rw [hfail] at h1; simp [BinArr.of] at h1
                    · rcases masaIssue_inv O hsm e text t ht1 ht2 cc b.arr (.inl harr) _ _ pin hpin hblkp _ _ _ _ _ he
                        with ⟨h1, h2, -⟩ | ⟨-, h1, -, v, h2, h3⟩
                      · exact .inr ⟨h1, h2⟩
                      · exact .inl ⟨h1, cc, v, hdec, h2, h3⟩
                  · exact .inr (fin he)

/-- **C40**, the other direction: with memory and readable files every request the rules allow is answered
200 with the base64 text of the voucher (if the signature succeeds).  `h` and `ctx` are arbitrary as long as
the heap is well formed. -/
theorem C40_issued (O : Ossl) (hsm : Small O) (e : MasaEnv) (hblk : e.blk.length = 4) (body : Bytes)
    (hsz : (cstr body).length < 2 ^ 63) (h : Heap) (hw : h.Wf) (ctx : Option Nat) (c text pin : Bytes) (t : Tm)
    (vr pv : Voucher) (serial : Bytes) (signers : Option CertList) (cms : Bytes)
    (hf : NoFail e.rt) (hcm : NoOom e.cbMem) (hout : NoOom e.out)
    (hlists : ∀ l ∈ [e.registrarCerts, e.registrarStore, e.pledgeCerts, e.pledgeStore, e.additional],
      l ≠ .noMem ∧ l ≠ .freed)
    (ht : e.expiresOn = some text) (ht' : str2time e.lib text = some t)
    (hdec : BodyDecodes e.al e.blk body c)
    (hcon : Consistent O e.rt c e.registrarCerts.certs e.registrarStore.certs e.pledgeCerts.certs
      e.pledgeStore.certs vr pv serial)
    (hsg : SignersOf O c signers) (hpin : e.ldevid = .der pin) (hcert : e.signCert ≠ .unset ∧ e.signCert ≠ .bad)
    (hkey : e.signKey ≠ .unset ∧ e.signKey ≠ .bad)
    (hsign : signCmsVoucher O (e.rt.json 2) (issuedVoucher serial vr.nonce pin t) e.signCert.arr e.signKey.arr
      e.additional.certs = .ok (some cms)) (hlen : cms.length < sizeMax / 4) :
    ∃ r, masaRequestVoucher O e body h ctx = .ok r ∧ r.status = 200 ∧ r.body = rfc4648 cms ∧ r.heap.blk = h.blk := by
  obtain ⟨cert, hcert⟩ : ∃ b, e.signCert = .der b := by
    cases hx : e.signCert with
    | unset => exact absurd hx hcert.1
    | bad => exact absurd hx hcert.2
    | der b => exact ⟨b, rfl⟩
  obtain ⟨ky, hky⟩ : ∃ b, e.signKey = .der b := by
    cases hx : e.signKey with
    | unset => exact absurd hx hkey.1
    | bad => exact absurd hx hkey.2
    | der b => exact ⟨b, rfl⟩
  have hbody : decodeBody e.al e.blk h body = .ok ⟨(h.alloc c).1, some c.length, some (h.alloc c).2, c⟩ := by
    unfold decodeBody
    rw [hdec, bind'_ok]
  unfold masaRequestVoucher
  simp only [ht, Option.bind_some, ht', hbody, bind'_ok, hpin, hcert, hky, readFile, loadLists_full hlists, if_true]
  have harr : (⟨(h.alloc c).1, some c.length, some (h.alloc c).2, c⟩ : Body).arr = .of c := rfl
  rw [harr]
  generalize hH : loadLists _ _ = L
  have hp : L.1.blk ((h.alloc c).1.alloc pin).2 = some pin := by
    rw [← hH, loadLists_keep _ _ _ (by simp [Heap.alloc])]
    exact pin_kept _ pin cert ky
  have ho : Owns h L.1 (L.2.1 ++ [some ((((h.alloc c).1.alloc pin).1.alloc cert).1.alloc ky).2,
      some (((h.alloc c).1.alloc pin).1.alloc cert).2, some ((h.alloc c).1.alloc pin).2, some (h.alloc c).2]) := by
    rw [← hH]
    exact owns_loadLists _ (fun l hl => (hlists l hl).2)
      (owns_alloc (owns_alloc (owns_alloc (owns_alloc (owns_nil hw) c) pin) cert) ky)
  unfold masaIssue
  have hcb : voucherReqCb e.cbMem L.1 (some ((h.alloc c).1.alloc pin).2) serial signers = .ok (some (.of pin)) := by
    unfold voucherReqCb
    simp only [Heap.read, hp, bind'_ok]
    unfold copyBinaryArray memdup
    cases hm : e.cbMem.malloc pin.length with
    | none => exact absurd hm (hcm _)
    | some b => simp [BinArr.of, hm]
  rw [masa_full O e.rt hf c t _ e.signCert.arr e.signKey.arr _ _ _ _ _ vr pv serial pin signers hsm hcon hsg hcb, hsign,
    bind'_ok]
  simp only
  obtain ⟨buf, n, hb, -⟩ := C02_encode_rfc4648 e.out hout cms hlen
  rw [hb, bind'_ok]
  simp only
  have ho2 := owns_alloc (owns_alloc ho cms) buf
  obtain ⟨h', hf', ho'⟩ := owns_freeAll hw _ (owns_perm (qs := some ((L.1.alloc cms).1.alloc buf).2 ::
      some ((h.alloc c).1.alloc pin).2 :: some ((((h.alloc c).1.alloc pin).1.alloc cert).1.alloc ky).2 ::
      some (((h.alloc c).1.alloc pin).1.alloc cert).2 :: L.2.1 ++ [some (h.alloc c).2, some (L.1.alloc cms).2])
    (List.perm_iff_count.2 fun a => by
      simp only [List.count_append, List.count_cons, List.count_nil, List.cons_append]; omega) ho2)
  rw [hf', bind'_ok]
  exact ⟨_, rfl, rfl, cstr_encoded hb, owns_blk ho'⟩

/-! ## C41, MASA -/

theorem masaFail_owns {h0 h : Heap} (hw : h0.Wf) {ctx : Option Nat} {ps qs : List (Option Nat)} (ho : Owns h0 h qs)
    (hp : qs.Perm (ctx :: ps)) :
    ∃ r, masaFail h ctx ps = .ok r ∧ Owns h0 r.heap [] ∧ r.ctx = ctx := by
  obtain ⟨h', e, o⟩ := owns_freeAll hw _ (owns_perm hp ho)
  exact ⟨⟨h', ctx, 400, []⟩, by rw [masaFail, e, bind'_ok], o, rfl⟩

theorem readFile_set {f : FileRes} (hf : f ≠ .unset) (h : Heap) :
    readFile h f = .ok (h, none) ∨ ∃ b, f = .der b ∧ readFile h f = .ok ((h.alloc b).1, some (h.alloc b).2) := by
  cases f with
  | unset => exact absurd rfl hf
  | bad => exact .inl rfl
  | der b => exact .inr ⟨b, rfl, rfl⟩

/-- The signing step releases everything. -/
theorem masaIssue_owns (O : Ossl) (hsm : Small O) (e : MasaEnv) (hal0 : Alloc (e.rt.json 0)) (hal1 : Alloc (e.rt.json 1))
    (t : Tm) (c : Bytes) (req : BinArr) (hreq : req = .of c ∨ req = ⟨none, sizeMax⟩)
    (h0 h : Heap) (hw : h0.Wf) (p : Nat) (pin : Bytes) (hb : h.blk p = some pin)
    (cert key : Option Nat) (ls : List (Option Nat)) (cms : Option Nat)
    (ho : Owns h0 h (some p :: cert :: key :: ls ++ [cms])) :
    ∃ r, masaIssue O e t req h (some p) cert key ls cms = .ok r ∧ Owns h0 r.heap [] := by
  unfold masaIssue
  have hd : (signMasaPledgeVoucher O e.rt (some req) (some t) (some (voucherReqCb e.cbMem h (some p))) e.signCert.arr
      e.signKey.arr e.registrarCerts.certs e.registrarStore.certs e.pledgeCerts.certs e.pledgeStore.certs
      e.additional.certs).Defined := by
    rcases hreq with rfl | rfl
    · exact C29_defined O hsm e.rt hal0 hal1 _ _ _ (by intro f hf; cases hf; exact callback_ok _ _ _ pin hb) _ _ _ _ _ _ _
        (by intro y hy; cases hy; exact wf_of c) (arr_wf _) (arr_wf _)
    · exact ⟨_, masa_failed ..⟩
  obtain ⟨v, hv⟩ := hd
  rw [hv, bind'_ok]
  cases v with
  | none =>
    obtain ⟨r, h1, h2, -⟩ := masaFail_owns hw (ctx := some p) (ps := cert :: key :: ls ++ [cms]) ho (List.Perm.refl _)
    exact ⟨r, h1, h2⟩
  | some v =>
    simp only
    obtain ⟨s, hs⟩ := C03_encode_safe e.out v
    rw [hs, bind'_ok]
    have ho1 := owns_alloc ho v
    cases s with
    | none =>
      obtain ⟨r, h1, h2, -⟩ := masaFail_owns hw (ctx := some p) (ps := cert :: key :: ls ++ [cms, some (h.alloc v).2]) ho1
        (List.perm_iff_count.2 fun a => by
          simp only [List.count_append, List.count_cons, List.count_nil, List.cons_append]; omega)
      exact ⟨r, h1, h2⟩
    | some s =>
      obtain ⟨buf, n⟩ := s
      simp only
      have ho2 := owns_alloc ho1 buf
      obtain ⟨h', hf', ho'⟩ := owns_freeAll hw _ (owns_perm (qs := some ((h.alloc v).1.alloc buf).2 :: some p :: key ::
          cert :: ls ++ [cms, some (h.alloc v).2])
        (List.perm_iff_count.2 fun a => by
          simp only [List.count_append, List.count_cons, List.count_nil, List.cons_append]; omega) ho2)
      rw [hf', bind'_ok]
      exact ⟨_, rfl, ho'⟩

/-- The configuration names all files and no certificate list fails half-way (see C43). -/
def MasaEnv.Complete (e : MasaEnv) : Prop :=
  e.ldevid ≠ .unset ∧ e.signCert ≠ .unset ∧ e.signKey ≠ .unset ∧
    ∀ l ∈ [e.registrarCerts, e.registrarStore, e.pledgeCerts, e.pledgeStore, e.additional], l ≠ .freed

/-- The MASA handler on a body that is not badly padded. -/
theorem masa_owns (O : Ossl) (hsm : Small O) (e : MasaEnv) (hblk : e.blk.length = 4) (hc : MasaEnv.Complete e)
    (hal0 : Alloc (e.rt.json 0)) (hal1 : Alloc (e.rt.json 1)) (body : Bytes) (hsz : (cstr body).length < 2 ^ 63)
    (hd : base64str2array e.al e.blk (cstr body) ≠ .ok (none, .dangling)) (h : Heap) (hw : h.Wf) (ctx : Option Nat)
    (hctx : e.expiresOn.bind (str2time e.lib) = none → ctx = none) :
    ∃ r, masaRequestVoucher O e body h ctx = .ok r ∧ Owns h r.heap [] ∧
      (e.expiresOn.bind (str2time e.lib) = none → r.ctx = none) := by
  obtain ⟨hf1, hf2, hf3, hls⟩ := hc
  unfold masaRequestVoucher
  cases ht : e.expiresOn.bind (str2time e.lib) with
  | none =>
    rw [hctx ht]
    obtain ⟨r, h1, h2, h3⟩ := masaFail_owns hw (ctx := none) (ps := []) (owns_nil hw |> owns_none.2) (List.Perm.refl _)
    exact ⟨r, h1, h2, fun _ => h3⟩
  | some t =>
    simp only
    have key : ∃ b : Body, decodeBody e.al e.blk h body = .ok b ∧ Owns h b.heap [b.ptr] ∧
        ∃ c, b.arr = .of c ∨ b.arr = ⟨none, sizeMax⟩ := by
      rcases decodeBody_cases e.al e.blk hblk h body hsz with ⟨c, -, h2⟩ | ⟨-, h2⟩ | ⟨h1, -⟩
      · exact ⟨_, h2, owns_alloc (owns_nil hw) c, c, .inl rfl⟩
      · exact ⟨_, h2, owns_none.2 (owns_nil hw), [], .inr rfl⟩
      · exact absurd h1 hd
    obtain ⟨b, hb, ob, c, harr⟩ := key
    rw [hb, bind'_ok]
    have wrap : ∀ {o : Outcome Reply}, (∃ r, o = .ok r ∧ Owns h r.heap []) →
        ∃ r, o = .ok r ∧ Owns h r.heap [] ∧ (some t = none → r.ctx = none) := by
      rintro o ⟨r, h1, h2⟩
      exact ⟨r, h1, h2, fun h => by cases h⟩
    apply wrap
    rcases readFile_set hf1 b.heap with e1 | ⟨pin, hpin, e1⟩
    · rw [e1, bind'_ok]
      obtain ⟨r, h1, h2, -⟩ := masaFail_owns hw (ctx := none) (ps := [b.ptr]) (owns_none.2 ob) (List.Perm.refl _)
      exact ⟨r, h1, h2⟩
    · rw [e1, bind'_ok]
      have o1 := owns_alloc ob pin
      rcases readFile_set hf2 (b.heap.alloc pin).1 with e2 | ⟨cert, hcert, e2⟩
      · simp only
        rw [e2, bind'_ok]
        obtain ⟨r, h1, h2, -⟩ := masaFail_owns hw o1 (List.Perm.refl _)
        exact ⟨r, h1, h2⟩
      · simp only
        rw [e2, bind'_ok]
        have o2 := owns_alloc o1 cert
        rcases readFile_set hf3 ((b.heap.alloc pin).1.alloc cert).1 with e3 | ⟨ky, hky, e3⟩
        · simp only
          rw [e3, bind'_ok]
          obtain ⟨r, h1, h2, -⟩ := masaFail_owns hw (ctx := some (b.heap.alloc pin).2)
            (ps := [some ((b.heap.alloc pin).1.alloc cert).2, b.ptr]) o2
            (List.perm_iff_count.2 fun a => by simp only [List.count_cons, List.count_nil]; omega)
          exact ⟨r, h1, h2⟩
        · simp only
          rw [e3, bind'_ok]
          have o3 := owns_alloc o2 ky
          have o4 := owns_loadLists [e.registrarCerts, e.registrarStore, e.pledgeCerts, e.pledgeStore, e.additional] hls o3
          simp only
          split
          · refine masaIssue_owns O hsm e hal0 hal1 t c b.arr harr h _ hw _ pin ?_ _ _ _ _ (owns_perm ?_ o4)
            · rw [loadLists_keep _ _ _ (by simp [Heap.alloc]; omega)]
              exact pin_kept _ pin cert ky
            · exact List.perm_iff_count.2 fun a => by
                simp only [List.count_append, List.count_cons, List.count_nil, List.cons_append]; omega
          · obtain ⟨r, h1, h2, -⟩ := masaFail_owns hw (ctx := some (b.heap.alloc pin).2)
              (ps := some ((b.heap.alloc pin).1.alloc cert).2 :: some (((b.heap.alloc pin).1.alloc cert).1.alloc ky).2 ::
                (loadLists (((b.heap.alloc pin).1.alloc cert).1.alloc ky).1
                  [e.registrarCerts, e.registrarStore, e.pledgeCerts, e.pledgeStore, e.additional]).2.1 ++ [b.ptr]) o4
              (List.perm_iff_count.2 fun a => by
                simp only [List.count_append, List.count_cons, List.count_nil, List.cons_append]; omega)
            exact ⟨r, h1, h2⟩

theorem masaFail_stale {h : Heap} {p : Nat} (hs : Stale h p) {ctx : Option Nat} {ps : List (Option Nat)}
    (hm : some p ∈ ps) : masaFail h ctx ps = .ub := by
  rw [masaFail, freeAll_stale _ hs (by simp [hm])]
  rfl

/-- A badly padded body makes the MASA handler release a block twice, whatever the configuration. -/
theorem masa_dangling (O : Ossl) (e : MasaEnv) (hblk : e.blk.length = 4) (body : Bytes)
    (hsz : (cstr body).length < 2 ^ 63)
    (hd : base64str2array e.al e.blk (cstr body) = .ok (none, .dangling)) (h : Heap) (hw : h.Wf) (ctx : Option Nat)
    (ht : e.expiresOn.bind (str2time e.lib) ≠ none) :
    masaRequestVoucher O e body h ctx = .ub := by
  unfold masaRequestVoucher
  cases ht' : e.expiresOn.bind (str2time e.lib) with
  | none => exact absurd ht' ht
  | some t =>
    simp only
    have hb : decodeBody e.al e.blk h body = .ok ⟨(burn h).1, none, some (burn h).2, []⟩ := by
      unfold decodeBody
      rw [hd, bind'_ok]
    rw [hb, bind'_ok]
    have s0 := stale_of_burn hw
    simp only
    cases hf : readFile (burn h).1 e.ldevid with
    | ub => rfl
    | ok f =>
      rw [bind'_ok]
      rcases readFile_inv hf with ⟨-, rfl⟩ | ⟨pin, hpin, rfl⟩
      · exact masaFail_stale s0 (by simp)
      · have s1 := stale_alloc s0 pin
        simp only
        cases hc : readFile ((burn h).1.alloc pin).1 e.signCert with
        | ub => rfl
        | ok c =>
          rw [bind'_ok]
          rcases readFile_inv hc with ⟨-, rfl⟩ | ⟨cert, hcert, rfl⟩
          · exact masaFail_stale s1 (by simp)
          · have s2 := stale_alloc s1 cert
            simp only
            cases hk : readFile (((burn h).1.alloc pin).1.alloc cert).1 e.signKey with
            | ub => rfl
            | ok k =>
              rw [bind'_ok]
              rcases readFile_inv hk with ⟨-, rfl⟩ | ⟨ky, hky, rfl⟩
              · exact masaFail_stale s2 (by simp)
              · have s3 := stale_alloc s2 ky
                have s4 := stale_loadLists [e.registrarCerts, e.registrarStore, e.pledgeCerts, e.pledgeStore, e.additional] s3
                simp only
                split
                · unfold masaIssue
                  rw [show (⟨(burn h).1, none, some (burn h).2, []⟩ : Body).arr = ⟨none, sizeMax⟩ from rfl, masa_failed,
                    bind'_ok]
                  exact masaFail_stale s4 (by simp)
                · exact masaFail_stale s4 (by simp)

/-- **C41** for the MASA, exact: with a complete configuration the handler is defined (and leaves no block
behind, and releases none twice) exactly for the bodies that are not badly padded.  `padded` completes the
base64 characters of the body with the implied `'='`. -/
theorem C41_masa_partial (O : Ossl) (hsm : Small O) (e : MasaEnv) (hblk : e.blk.length = 4) (hc : MasaEnv.Complete e)
    (hal0 : Alloc (e.rt.json 0)) (hal1 : Alloc (e.rt.json 1)) (hmem : NoOom e.al) (body : Bytes)
    (hsz : (cstr body).length < 2 ^ 63) (h : Heap) (hw : h.Wf) (ctx : Option Nat)
    (ht : e.expiresOn.bind (str2time e.lib) ≠ none) :
    (∃ r, masaRequestVoucher O e body h ctx = .ok r ∧ r.heap.blk = h.blk) ↔
      ((cstr body).filter isB64Char = [] ∨ ¬ BadPadding (padded (cstr body))) := by
  have hiff := dangling_iff e.al e.blk (cstr body) hblk hsz
  by_cases hd : base64str2array e.al e.blk (cstr body) = .ok (none, .dangling)
  · have h1 := hiff.1 hd
    constructor
    · rintro ⟨r, hr, -⟩
      rw [masa_dangling O e hblk body hsz hd h hw ctx ht] at hr
      cases hr
    · rintro (h2 | h2)
      · exact absurd h2 h1.1
      · exact absurd h1.2.2 h2
  · constructor
    · intro _
      by_cases h0 : (cstr body).filter isB64Char = []
      · exact .inl h0
      · exact .inr fun hb => hd (hiff.2 ⟨h0, hmem _, hb⟩)
    · intro _
      obtain ⟨r, h1, h2, -⟩ := masa_owns O hsm e hblk hc hal0 hal1 body hsz hd h hw ctx (fun h => absurd h ht)
      exact ⟨r, h1, owns_blk h2⟩

end Brski.Props
