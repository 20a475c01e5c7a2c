import Verif.Request
import Verif.SpecRequest
import Verif.PropsJson

namespace Brski.Request
open Outcome Brski.Voucher VoucherJson Crypto BoolTime Spec Props

/-! ## Arrays -/

theorem wf_cases {x : BinArr} (h : BinArr.Wf x) : x = .empty ∨ ∃ b, x = .of b := by
  obtain ⟨a, n⟩ := x
  cases a with
  | none => simp only [BinArr.Wf] at h; subst h; exact .inl rfl
  | some b => simp only [BinArr.Wf] at h; subst h; exact .inr ⟨b, rfl⟩

theorem wf_of (b : Bytes) : BinArr.Wf (.of b) := rfl

theorem arrBytes_of (b : Bytes) : arrBytes (.of b) = .ok b := by
  simp [arrBytes, BinArr.of]

theorem arrBytes_empty : arrBytes .empty = .ok [] := rfl

theorem copy_cases (al : Allocator) (b : Bytes) :
    copyBinaryArray al (.of b) = .ok (.of b, true) ∨ copyBinaryArray al (.of b) = .ok (.empty, false) := by
  simp only [copyBinaryArray, memdup, BinArr.of]
  cases al.malloc b.length with
  | none => right; rfl
  | some _ => left; simp

theorem nonempty_of (b : Bytes) : arrayNonempty (some (.of b)) = true := by
  simp [arrayNonempty, BinArr.of]

theorem nonempty_empty : arrayNonempty (some .empty) = false := rfl

/-! ## Setters: success with a known result, or failure -/

/-- The call succeeds with result `v'` or fails. -/
def Sets (r : Outcome (Voucher × Bool)) (v' : Voucher) : Prop :=
  r = .ok (v', true) ∨ ∃ w, r = .ok (w, false)

theorem setOr_sets {α : Type} {r : Outcome (Voucher × Bool)} {v' : Voucher}
    {k : Voucher → Outcome (Option α)} (h : Sets r v') : setOr r k = .ok none ∨ setOr r k = k v' := by
  rcases h with h | ⟨w, h⟩
  · right; rw [h]; rfl
  · left; rw [h]; rfl

theorem setOr_true {α : Type} {r : Outcome (Voucher × Bool)} {v' : Voucher}
    {k : Voucher → Outcome (Option α)} (h : r = .ok (v', true)) : setOr r k = k v' := by
  rw [h]; rfl

theorem setOr_fail {α : Type} {r : Outcome (Voucher × Bool)} {k : Voucher → Outcome (Option α)}
    {w : Voucher} (h : r = .ok (w, false)) : setOr r k = .ok none := by
  rw [h]; rfl

section
variable (al : Allocator) (v : Voucher) (b : Bytes)

theorem sets_nonce : Sets (setVa al v .nonce (.array (some (.of b)))) { v with nonce := .of b } := by
  simp only [Sets, setVa, setArray, nonempty_of, if_true]
  rcases copy_cases al b with h | h <;> rw [h] <;> simp

theorem sets_pinned :
    Sets (setVa al v .pinnedDomainCert (.array (some (.of b)))) { v with pinned := .of b } := by
  simp only [Sets, setVa, setArray, nonempty_of, if_true]
  rcases copy_cases al b with h | h <;> rw [h] <;> simp

theorem sets_issuer :
    Sets (setVa al v .idevidIssuer (.array (some (.of b)))) { v with idevidIssuer := .of b } := by
  simp only [Sets, setVa, setArray, nonempty_of, if_true]
  rcases copy_cases al b with h | h <;> rw [h] <;> simp

theorem sets_prior :
    Sets (setVa al v .priorSigned (.array (some (.of b)))) { v with prior := .of b } := by
  simp only [Sets, setVa, setArray, nonempty_of, if_true]
  rcases copy_cases al b with h | h <;> rw [h] <;> simp

theorem sets_proximity :
    Sets (setVa al v .proximityCert (.array (some (.of b)))) { v with proximity := .of b } := by
  simp only [Sets, setVa, setArray, nonempty_of, if_true]
  rcases copy_cases al b with h | h <;> rw [h] <;> simp

variable (hal : Props.NoOom al)
include hal

theorem succ_nonce : setVa al v .nonce (.array (some (.of b))) = .ok ({ v with nonce := .of b }, true) := by
  simp only [setVa, setArray, nonempty_of, if_true]
  rw [show copyBinaryArray al (.of b) = _ from copy_ok hal b]; rfl

theorem succ_pinned :
    setVa al v .pinnedDomainCert (.array (some (.of b))) = .ok ({ v with pinned := .of b }, true) := by
  simp only [setVa, setArray, nonempty_of, if_true]
  rw [show copyBinaryArray al (.of b) = _ from copy_ok hal b]; rfl

theorem succ_issuer :
    setVa al v .idevidIssuer (.array (some (.of b))) = .ok ({ v with idevidIssuer := .of b }, true) := by
  simp only [setVa, setArray, nonempty_of, if_true]
  rw [show copyBinaryArray al (.of b) = _ from copy_ok hal b]; rfl

theorem succ_prior :
    setVa al v .priorSigned (.array (some (.of b))) = .ok ({ v with prior := .of b }, true) := by
  simp only [setVa, setArray, nonempty_of, if_true]
  rw [show copyBinaryArray al (.of b) = _ from copy_ok hal b]; rfl

theorem succ_proximity :
    setVa al v .proximityCert (.array (some (.of b))) = .ok ({ v with proximity := .of b }, true) := by
  simp only [setVa, setArray, nonempty_of, if_true]
  rw [show copyBinaryArray al (.of b) = _ from copy_ok hal b]; rfl
end

theorem array_refused (al : Allocator) (v : Voucher) (a : Attr)
    (ha : a = .idevidIssuer ∨ a = .pinnedDomainCert ∨ a = .nonce ∨ a = .priorSigned ∨ a = .proximityCert)
    (x : Option BinArr) (hx : ∀ y, x = some y → y = .empty) :
    setVa al v a (.array x) = .ok (v, false) := by
  cases x with
  | none => rcases ha with rfl | rfl | rfl | rfl | rfl <;> rfl
  | some y => rw [hx y rfl]; rcases ha with rfl | rfl | rfl | rfl | rfl <;> rfl

theorem setStr_sets (al : Allocator) (v : Voucher) (s : Bytes) (h : (0 : UInt8) ∉ s)
    (hl : s.length ≤ 127) :
    Sets (setVa al v .serialNumber (.str (some s))) { v with serial := some s } := by
  have e : strnlen s 128 = s.length := by unfold strnlen; omega
  simp only [Sets, setVa, setStr, setNstr, e, if_pos (show s.length < 128 by omega), strndup]
  cases al.malloc (szWrap (s.length + 1)) with
  | none => right; exact ⟨_, rfl⟩
  | some _ => left; simp only [List.take_length, takeWhile_all h]

theorem setStr_succ (al : Allocator) (hal : Props.NoOom al) (v : Voucher) (s : Bytes)
    (h : (0 : UInt8) ∉ s) (hl : s.length ≤ 127) :
    setVa al v .serialNumber (.str (some s)) = .ok ({ v with serial := some s }, true) := by
  have e : strnlen s 128 = s.length := by unfold strnlen; omega
  simp only [setVa, setStr, setNstr, e, if_pos (show s.length < 128 by omega)]
  rw [strndup_ok hal h]

theorem setStr_long (al : Allocator) (v : Voucher) (s : Bytes) (hl : 127 < s.length) :
    setVa al v .serialNumber (.str (some s)) = .ok (v, false) := by
  have e : strnlen s 128 = 128 := by unfold strnlen; omega
  simp only [setVa, setStr, setNstr, e]
  rw [if_neg (by omega)]

theorem set_created (al : Allocator) (v : Voucher) (t : Tm) :
    setVa al v .createdOn (.time (some t)) = .ok ({ v with createdOn := t }, true) := rfl

theorem setNonce_cases (al : Allocator) (v : Voucher) (nonce : Option BinArr)
    (hn : ∀ n, nonce = some n → BinArr.Wf n) :
    (nonce = some .empty ∧ setNonce al v nonce = .ok (v, false)) ∨
    ((∀ n, nonce = some n → ∃ b, n = .of b) ∧
      Sets (setNonce al v nonce) { v with nonce := nonce.getD v.nonce }) := by
  cases nonce with
  | none => exact .inr ⟨fun n h => (by cases h), .inl rfl⟩
  | some n =>
    rcases wf_cases (hn n rfl) with rfl | ⟨b, rfl⟩
    · exact .inl ⟨rfl, rfl⟩
    · exact .inr ⟨fun n h => (by cases h; exact ⟨b, rfl⟩), sets_nonce al v b⟩

theorem setNonce_succ (al : Allocator) (hal : Props.NoOom al) (v : Voucher) (nonce : Option BinArr)
    (hn : ∀ n, nonce = some n → ∃ b, n = .of b) :
    setNonce al v nonce = .ok ({ v with nonce := nonce.getD v.nonce }, true) := by
  cases nonce with
  | none => rfl
  | some n =>
    obtain ⟨b, rfl⟩ := hn n rfl
    exact succ_nonce al v b hal

theorem set_expires (al : Allocator) (v : Voucher) (t : Tm) :
    setVa al v .expiresOn (.time (some t)) = .ok ({ v with expiresOn := t }, true) := rfl

theorem set_assertion (al : Allocator) (v : Voucher) :
    setVa al v .assertion (.int 3) = .ok ({ v with assertion := 3 }, true) := rfl

theorem set_revocation (al : Allocator) (v : Voucher) :
    setVa al v .revocationChecks (.int 0) = .ok ({ v with revocation := false }, true) := rfl

/-! ## Certificate lists -/

theorem certStack_iff (O : Ossl) : ∀ (l : CertList) (cs : List O.Cert),
    certStack O l = some cs ↔ Decoded O l cs := by
  intro l
  induction l with
  | nil =>
    intro cs
    simp only [certStack, Option.some.injEq]
    exact ⟨fun h => h ▸ .nil, (fun h => by cases h; rfl)⟩
  | cons e l ih =>
    obtain ⟨der, f⟩ := e
    intro cs
    simp only [certStack]
    cases hd : O.d2iX509 der with
    | none =>
      refine ⟨(fun h => by cases h), fun h => ?_⟩
      cases h with
      | cons h1 _ => rw [hd] at h1; cases h1
    | some c =>
      simp only [Option.map_eq_some_iff]
      refine ⟨fun ⟨cs', h1, h2⟩ => ?_, fun h => ?_⟩
      · subst h2; exact .cons hd ((ih _).1 h1)
      · cases h with
        | cons h1 h2 =>
          rw [hd] at h1; cases h1
          exact ⟨_, (ih _).2 h2, rfl⟩

theorem optStack_iff (O : Ossl) (certs : Option CertList) (cs : List O.Cert) :
    optStack O certs = some cs ↔ Extra O certs cs := by
  cases certs with
  | none => simp only [optStack, Extra, Option.some.injEq]; exact eq_comm
  | some l => exact certStack_iff O l cs

theorem certStore_sound (O : Ossl) (ok : Nat → Bool) : ∀ (l : CertList) (k : Nat)
    (st r : List O.Cert × List O.Crl), certStore O ok k st l = some r →
    ∃ xs rs, TrustList O l xs rs ∧ r = (st.1 ++ xs, st.2 ++ rs) := by
  intro l
  induction l with
  | nil =>
    intro k st r h
    simp only [certStore, Option.some.injEq] at h
    exact ⟨[], [], .nil, by simp [h]⟩
  | cons e l ih =>
    obtain ⟨der, f⟩ := e
    intro k st r h
    simp only [certStore] at h
    split at h
    · rename_i hf
      subst hf
      cases hd : O.d2iX509 der with
      | none => rw [hd] at h; cases h
      | some c =>
        rw [hd] at h
        simp only at h
        split at h
        · obtain ⟨xs, rs, h1, h2⟩ := ih _ _ _ h
          exact ⟨c :: xs, rs, .cert hd h1, by simp [h2]⟩
        · cases h
    · split at h
      · rename_i hf
        subst hf
        cases hd : O.d2iCrl der with
        | none => rw [hd] at h; cases h
        | some c =>
          rw [hd] at h
          simp only at h
          split at h
          · obtain ⟨xs, rs, h1, h2⟩ := ih _ _ _ h
            exact ⟨xs, c :: rs, .crl hd h1, by simp [h2]⟩
          · cases h
      · cases h

theorem certStore_complete (O : Ossl) (ok : Nat → Bool) (hok : ∀ k, ok k = true) {l : CertList}
    {xs : List O.Cert} {rs : List O.Crl} (h : TrustList O l xs rs) : ∀ (k : Nat)
    (st : List O.Cert × List O.Crl), certStore O ok k st l = some (st.1 ++ xs, st.2 ++ rs) := by
  induction h with
  | nil => intro k st; simp [certStore]
  | cert h1 _ ih => intro k st; simp only [certStore, if_true, h1, hok, ih]; simp
  | crl h1 _ ih =>
    intro k st
    simp only [certStore, h1, hok, ih, if_true]
    rw [if_neg (by decide)]
    simp

theorem optStore_sound (O : Ossl) (ok : Nat → Bool) (store : Option CertList)
    (st : Option (List O.Cert × List O.Crl)) (h : optStore O ok store = some st) :
    (store = none ∧ st = none) ∨
      ∃ l xs rs, store = some l ∧ TrustList O l xs rs ∧ st = some (xs, rs) := by
  cases store with
  | none => simp only [optStore, Option.some.injEq] at h; exact .inl ⟨rfl, h.symm⟩
  | some l =>
    right
    simp only [optStore] at h
    split at h
    · simp only [Option.map_eq_some_iff] at h
      obtain ⟨r, h1, h2⟩ := h
      obtain ⟨xs, rs, h3, h4⟩ := certStore_sound O ok l 1 ([], []) r h1
      exact ⟨l, xs, rs, rfl, h3, by rw [← h2, h4]; simp⟩
    · cases h

theorem optStore_complete (O : Ossl) (ok : Nat → Bool) (hok : ∀ k, ok k = true) {l : CertList}
    {xs : List O.Cert} {rs : List O.Crl} (h : TrustList O l xs rs) :
    optStore O ok (some l) = some (some (xs, rs)) := by
  simp only [optStore, hok, if_true, certStore_complete O ok hok h]
  simp

/-! ## Signed messages -/

theorem signerDers_map (O : Ossl) : ∀ (cs : List O.Cert) (l : CertList), signerDers O cs = some l →
    ∃ ders : List Bytes, l = ders.map (fun d => (d, 0)) ∧ cs.map O.i2dX509 = ders.map some := by
  intro cs
  induction cs with
  | nil => intro l h; simp only [signerDers, Option.some.injEq] at h; exact ⟨[], by simp [← h], rfl⟩
  | cons c cs ih =>
    intro l h
    simp only [signerDers] at h
    cases hd : O.i2dX509 c with
    | none => rw [hd] at h; cases h
    | some der =>
      rw [hd] at h
      simp only [Option.map_eq_some_iff] at h
      obtain ⟨l', h1, h2⟩ := h
      obtain ⟨ders, h3, h4⟩ := ih _ h1
      exact ⟨der :: ders, by rw [← h2, h3]; rfl, by simp [hd, h4]⟩

theorem extractCerts_spec (O : Ossl) (m : O.Cms) (der : Bytes) (hm : O.d2iCms der = some m)
    (out : Option CertList) (h : extractCerts O m = some out) : SignersOf O der out := by
  refine ⟨m, hm, ?_⟩
  unfold extractCerts at h
  split at h
  · rename_i hs
    simp only [Option.some.injEq] at h
    exact .inl ⟨by simpa using hs, h.symm⟩
  · rename_i hs
    simp only [Option.map_eq_some_iff] at h
    obtain ⟨l, h1, h2⟩ := h
    obtain ⟨ders, h3, h4⟩ := signerDers_map O _ _ h1
    exact .inr ⟨by simpa using hs, ders, by rw [← h2, h3], h4⟩

theorem cmsVerify_passes (O : Ossl) (ok : Nat → Bool) (m : O.Cms) (certs store : Option CertList)
    (cs : List O.Cert) (st : Option (List O.Cert × List O.Crl)) (h1 : optStack O certs = some cs)
    (h2 : optStore O ok store = some st) (h3 : cmsVerify O m cs st = true) :
    Passes O m certs store := by
  refine ⟨cs, (optStack_iff O certs cs).1 h1, ?_⟩
  rcases optStore_sound O ok store st h2 with ⟨rfl, rfl⟩ | ⟨l, xs, rs, rfl, ht, rfl⟩
  · exact ⟨h3, fun l h => by cases h⟩
  · simp only [cmsVerify, Bool.and_eq_true] at h3
    exact ⟨h3.2, fun l' h => by cases h; exact ⟨xs, rs, ht, h3.1⟩⟩

/-- A message is accepted only if it passes the specified check. -/
theorem verifyCms_sound (O : Ossl) (ok : Nat → Bool) (cms : BinArr) (hw : BinArr.Wf cms)
    (certs store : Option CertList) (out : Bool) :
    ∃ r, verifyCms O ok (some cms) certs store out = .ok r ∧
      ∀ x, r = some x → Authentic O certs store (Props.content cms) x.data ∧
        (out = true → SignersOf O (Props.content cms) x.certs) := by
  have hn : ¬ (cms.array.isNone = true ∧ 2 ^ 63 ≤ cms.length) := by
    obtain ⟨a, n⟩ := cms
    cases a with
    | none => simp only [BinArr.Wf] at hw; simp only [hw]; omega
    | some b => simp
  simp only [verifyCms, if_neg hn, arrBytes_ok hw, bind'_ok]
  refine ⟨_, rfl, fun x hx => ?_⟩
  cases hm : O.d2iCms (Props.content cms) with
  | none => rw [hm] at hx; cases hx
  | some m =>
    rw [hm] at hx
    simp only at hx
    cases h1 : optStack O certs with
    | none => rw [h1] at hx; cases hx
    | some cs =>
      rw [h1] at hx
      simp only at hx
      cases h2 : optStore O ok store with
      | none => rw [h2] at hx; cases hx
      | some st =>
        rw [h2] at hx
        simp only at hx
        split at hx
        · rename_i hv
          simp only [Bool.and_eq_true] at hv
          have hp := cmsVerify_passes O ok m certs store cs st h1 h2 hv.1
          split at hx
          · simp only [Option.map_eq_some_iff] at hx
            obtain ⟨l, h3, h4⟩ := hx
            subst h4
            exact ⟨⟨m, hm, rfl, hp⟩, fun _ => extractCerts_spec O m _ hm l h3⟩
          · rename_i ho
            cases hx
            exact ⟨⟨m, hm, rfl, hp⟩, fun h => absurd h ho⟩
        · cases hx

theorem extra_unique {O : Ossl} {certs : Option CertList} {cs cs' : List O.Cert}
    (h : Extra O certs cs) (h' : Extra O certs cs') : cs = cs' := by
  rw [← optStack_iff] at h h'
  rw [h] at h'
  exact Option.some.inj h'

theorem signerDers_complete (O : Ossl) : ∀ (cs : List O.Cert) (ders : List Bytes),
    cs.map O.i2dX509 = ders.map some → signerDers O cs = some (ders.map fun d => (d, 0)) := by
  intro cs
  induction cs with
  | nil => intro ders h; cases ders with | nil => rfl | cons _ _ => cases h
  | cons c cs ih =>
    intro ders h
    cases ders with
    | nil => cases h
    | cons d ders =>
      simp only [List.map_cons, List.cons.injEq] at h
      simp only [signerDers, h.1, ih ders h.2]; rfl

theorem not_negative (der : Bytes) : ¬ ((BinArr.of der).array.isNone = true ∧ 2 ^ 63 ≤ (BinArr.of der).length) := by
  simp [BinArr.of]

/-- With memory available a message that passes the check is accepted. -/
theorem verifyCms_complete (O : Ossl) (ok : Nat → Bool) (hok : ∀ k, ok k = true) (der text : Bytes)
    (certs store : Option CertList) (h : Authentic O certs store der text) :
    verifyCms O ok (some (.of der)) certs store false = .ok (some ⟨text, none⟩) := by
  obtain ⟨m, hm, ht, cs, h1, h2, h3⟩ := h
  simp only [verifyCms, if_neg (not_negative der), arrBytes_of, bind'_ok, hm, (optStack_iff O certs cs).2 h1, hok, Bool.and_true]
  cases store with
  | none => simp only [optStore, cmsVerify, h2, if_true, ht, Bool.false_eq_true, if_false]
  | some l =>
    obtain ⟨xs, rs, h4, h5⟩ := h3 l rfl
    simp only [optStore_complete O ok hok h4, cmsVerify, h2, h5, Bool.and_true, if_true, ht,
      Bool.false_eq_true, if_false]

theorem verifyCms_complete_out (O : Ossl) (ok : Nat → Bool) (hok : ∀ k, ok k = true) (der text : Bytes)
    (certs store out : Option CertList) (h : Authentic O certs store der text)
    (hs : SignersOf O der out) :
    verifyCms O ok (some (.of der)) certs store true = .ok (some ⟨text, out⟩) := by
  obtain ⟨m, hm, ht, cs, h1, h2, h3⟩ := h
  obtain ⟨m', hm', hs⟩ := hs
  rw [hm] at hm'; cases hm'
  have he : extractCerts O m = some out := by
    unfold extractCerts
    rcases hs with ⟨h4, h5⟩ | ⟨h4, ders, h5, h6⟩
    · rw [if_pos (by simp [h4]), h5]
    · rw [if_neg (by simpa using h4), signerDers_complete O _ _ h6, h5]; rfl
  simp only [verifyCms, if_neg (not_negative der), arrBytes_of, bind'_ok, hm, (optStack_iff O certs cs).2 h1, hok, Bool.and_true]
  cases store with
  | none => simp only [optStore, cmsVerify, h2, if_true, ht, he, Option.map_some]
  | some l =>
    obtain ⟨xs, rs, h4, h5⟩ := h3 l rfl
    simp only [optStore_complete O ok hok h4, cmsVerify, h2, h5, Bool.and_true, if_true, ht, he,
      Option.map_some]

/-! ## Signing vouchers -/

theorem bioWrite_handed (data : Bytes) : Handed data (bioWrite data) := by
  unfold bioWrite
  dsimp only
  split
  · refine ⟨List.take_prefix _ _, fun h => List.take_of_length_le ?_⟩
    rw [Nat.mod_eq_of_lt (by omega)]
    exact Nat.le_refl _
  · rename_i h
    refine ⟨List.nil_prefix, fun h' => absurd ?_ h⟩
    rw [Nat.mod_eq_of_lt (by omega)]
    exact h'

theorem signCms_cases (O : Ossl) (data : Bytes) (cert key : BinArr) (hc : BinArr.Wf cert)
    (hk : BinArr.Wf key) (certs : Option CertList) :
    signCms O data cert key certs = .ok none ∨
    ∃ c k x y cs part cms, cert = .of c ∧ key = .of k ∧ O.d2iX509 c = some x ∧ O.d2iKey k = some y ∧
      Extra O certs cs ∧ Handed data part ∧ O.cmsSign x y cs part = some cms ∧
      signCms O data cert key certs = .ok (some cms) := by
  rcases wf_cases hc with rfl | ⟨c, rfl⟩
  · left; simp [signCms, signCmsBy, BinArr.empty]
  · rcases wf_cases hk with rfl | ⟨k, rfl⟩
    · left; simp [signCms, signCmsBy, BinArr.empty]
    · unfold signCms signCmsBy
      rw [if_neg (by simp [BinArr.of]), arrBytes_of, arrBytes_of, bind'_ok, bind'_ok]
      cases h1 : O.d2iKey k with
      | none => left; rfl
      | some y =>
        cases h2 : O.d2iX509 c with
        | none => left; simp only
        | some x =>
          simp only
          cases h3 : optStack O certs with
          | none => left; rfl
          | some cs =>
            simp only
            cases h4 : O.cmsSign x y cs (bioWrite data) with
            | none => left; rfl
            | some cms =>
              right
              exact ⟨c, k, x, y, cs, _, cms, rfl, rfl, h2, h1, (optStack_iff O certs cs).1 h3, bioWrite_handed data, h4, rfl⟩

theorem serialize_encoded (env : Env) (v : Voucher) (hv : VoucherOk v) :
    serialize env v = .ok none ∨ ∃ t, Encoded v t ∧ serialize env v = .ok (some t) := by
  rcases serialize_ok env v hv.1 hv.2 with e | ⟨hs, e⟩
  · exact .inl e
  · right
    refine ⟨_, ⟨_, fun a ha => ?_, rfl⟩, e⟩
    have hm : a ∈ attrOrder := by cases a <;> first | decide | cases ha
    obtain ⟨x, hx⟩ := Option.isSome_iff_exists.1 (hs a (List.mem_filter.2 ⟨hm, ha⟩))
    rw [hx]
    exact flatVal_isValue hv ha hx

/-- Contract of an optional array argument (/repo/src/voucher/array.h:155-158). -/
abbrev ArgWf (x : Option BinArr) : Prop := ∀ y, x = some y → BinArr.Wf y

theorem argWf_iff (x : Option BinArr) : ArgWf x ↔ arrayOk x := by
  simp only [ArgWf, arrayOk]
  refine forall_congr' fun y => forall_congr' fun _ => ?_
  unfold BinArr.Wf
  rfl

theorem signCmsVoucher_cases (O : Ossl) (env : Env) (v : Voucher) (hv : VoucherOk v)
    (cert key : Option BinArr) (hc : ArgWf cert) (hk : ArgWf key) (certs : Option CertList) :
    signCmsVoucher O env v cert key certs = .ok none ∨
    ∃ cms, SignedVoucher O cert key certs v cms ∧
      signCmsVoucher O env v cert key certs = .ok (some cms) := by
  unfold signCmsVoucher
  cases cert with
  | none => exact .inl rfl
  | some cert =>
    cases key with
    | none => exact .inl rfl
    | some key =>
      simp only
      rcases serialize_encoded env v hv with e | ⟨t, ht, e⟩
      · left; rw [e]; rfl
      · rw [e, bind'_ok]
        simp only
        rcases signCms_cases O t cert key (hc _ rfl) (hk _ rfl) certs with h | ⟨c, k, x, y, cs, part, cms, rfl, rfl, h1, h2, h3, hh, h4, h5⟩
        · exact .inl h
        · exact .inr ⟨cms, ⟨c, k, x, y, cs, t, part, rfl, rfl, h1, h2, h3, ht, hh, h4⟩, h5⟩

/-! ## Reading signed vouchers -/

/-- The text is parsed to the voucher `v` (the meaning of parsing is the subject of C14 to C19). -/
def Reads (env : Env) (text : Bytes) (v : Voucher) : Prop := text ≠ [] ∧ deserialize env text = .ok (some v)

theorem runPtr_null {c : Call} {w : Option Voucher} {b : Bool} (h : Call.runPtr none c = .ok (w, b)) :
    w = none ∧ b = false := by
  simp only [Call.runPtr, ok.injEq, Prod.mk.injEq] at h
  exact ⟨h.1.symm, h.2.symm⟩

theorem setKeyvalue_null (env : Env) (k : Nat) (key value : Bytes) {w : Option Voucher} {b : Bool}
    (h : setKeyvalue env k none key value = .ok (w, b)) : w = none := by
  have hst : ∀ a, setStrtime env none a value = .ok (w, b) → w = none := by
    intro a h
    unfold setStrtime at h
    split at h
    · cases h; rfl
    · exact (runPtr_null h).1
  have h64 : ∀ a, setBase64 env k none a value = .ok (w, b) → w = none := by
    intro a h
    unfold setBase64 at h
    cases hb : Base64.base64str2array (env.mem k) env.blk value with
    | ub => rw [hb] at h; cases h
    | ok r =>
      rw [hb, bind'_ok] at h
      split at h
      · exact (runPtr_null h).1
      · cases h
      · cases h; rfl
  have hen : ∀ a, setStrenum none a value = .ok (w, b) → w = none := by
    intro a h
    unfold setStrenum at h
    rw [checkSizeStrEqual_eq, checkSizeStrEqual_eq, checkSizeStrEqual_eq] at h
    simp only [bind'_ok] at h
    split at h
    · exact (runPtr_null h).1
    · split at h
      · exact (runPtr_null h).1
      · split at h
        · exact (runPtr_null h).1
        · cases h; rfl
  unfold setKeyvalue at h
  rw [findKey_eq, bind'_ok] at h
  split at h
  · exact hst _ h
  · exact hst _ h
  · exact hst _ h
  · exact hen _ h
  · unfold setNstrPtr at h
    simp only at h
    split at h
    · cases h
    · cases h; rfl
  · unfold setStrbool at h
    split at h
    · cases h; rfl
    · exact (runPtr_null h).1
  all_goals first | exact h64 _ h | (cases h; rfl)

theorem memberLoop_null (env : Env) (js : Bytes) (toks : List Jsmn.Tok) (idx : Nat) :
    ∀ n j w, memberLoop env js toks idx n j none = .ok (some w) → w = none := by
  intro n
  induction n with
  | zero => intro j w h; simp only [memberLoop, ok.injEq, Option.some.injEq] at h; exact h.symm
  | succ n ih =>
    intro j w h
    simp only [memberLoop] at h
    split at h
    · split at h
      · rename_i kt vt _ _
        cases h1 : tokBytes js kt with
        | ub => rw [h1] at h; cases h
        | ok key =>
          rw [h1, bind'_ok] at h
          cases h2 : tokBytes js vt with
          | ub => rw [h2] at h; cases h
          | ok value =>
            rw [h2, bind'_ok] at h
            cases h3 : setKeyvalue env (2 * j + 1) none key value with
            | ub => rw [h3] at h; cases h
            | ok r =>
              obtain ⟨u, b⟩ := r
              rw [h3, bind'_ok] at h
              obtain rfl := setKeyvalue_null env _ _ _ h3
              simp only at h
              split at h
              · exact ih _ _ h
              · cases h
      · cases h
    · cases h

theorem rootLoop_null (env : Env) (js : Bytes) (toks : List Jsmn.Tok) :
    ∀ ts idx w, rootLoop env js toks none ts idx = .ok (some w) → w = none := by
  intro ts
  induction ts with
  | nil => intro idx w h; cases h
  | cons t rest ih =>
    intro idx w h
    simp only [rootLoop] at h
    cases h1 : span t with
    | ub => rw [h1] at h; cases h
    | ok p =>
      rw [h1, bind'_ok] at h
      cases h2 : suffix js p.1 with
      | ub => rw [h2] at h; cases h
      | ok sfx =>
        rw [h2, bind'_ok] at h
        cases h3 : strncmpEq rootName sfx p.2 with
        | ub => rw [h3] at h; cases h
        | ok e =>
          rw [h3, bind'_ok] at h
          cases e with
          | false => exact ih _ _ h
          | true =>
            simp only [if_true] at h
            cases rest with
            | nil => cases h
            | cons obj rest =>
              simp only at h
              split at h
              · exact memberLoop_null env js toks _ _ _ _ h
              · cases h

/-- A voucher that was read has well formed values, whatever happened to memory. -/
theorem deserialize_voucherOk (env : Env) (js : Bytes) (hl : js.length < 2 ^ 63) (v : Voucher)
    (h : deserialize env js = .ok (some v)) : VoucherOk v := by
  by_cases hm : (env.mem 0).malloc 240 = none
  · exfalso
    unfold deserialize at h
    cases hp : Jsmn.parse 32 js with
    | ub => rw [hp] at h; cases h
    | ok r =>
      rw [hp, bind'_ok] at h
      split at h
      · cases h
      · split at h
        · cases h
        · split at h
          · cases h
          · simp only [hm, Option.map_none] at h
            rename_i t rest _
            cases hr : rootLoop env js (t :: rest) none rest 1 with
            | ub => rw [hr] at h; cases h
            | ok w =>
              rw [hr, bind'_ok] at h
              cases w with
              | none => cases h
              | some w => rw [rootLoop_null env js _ _ _ _ hr] at h; cases h
  · obtain ⟨r, e, hr⟩ := deserialize_safe env js hl hm
    rw [e] at h
    cases h
    exact hr v rfl

/-- Messages enclose less than 2 GiB (positions in the JSON text are `int`,
/repo/lib/jsmn.cmake). -/
def Small (O : Ossl) : Prop := ∀ m, (O.content m).length < 2 ^ 31

theorem reads_ok {env : Env} {text : Bytes} {v : Voucher} (hl : text.length < 2 ^ 31)
    (h : Reads env text v) : VoucherOk v := by
  obtain ⟨-, h⟩ := h
  exact deserialize_voucherOk env text (by omega) v h

theorem authentic_small {O : Ossl} (hs : Small O) {certs store : Option CertList} {der text : Bytes}
    (h : Authentic O certs store der text) : text.length < 2 ^ 31 := by
  obtain ⟨m, -, rfl, -⟩ := h
  exact hs m

/-- The voucher is allocated when a message is parsed (otherwise see C16). -/
abbrev Alloc (env : Env) : Prop := (env.mem 0).malloc 240 ≠ none

theorem verifyCmsVoucher_cases (O : Ossl) (hs : Small O) (env : Env) (ha : Alloc env) (ok : Nat → Bool)
    (cms : Option BinArr) (hw : ArgWf cms) (certs store : Option CertList) (out : Bool) :
    verifyCmsVoucher O env ok cms certs store out = .ok none ∨
    ∃ x text v l, cms = some x ∧ Authentic O certs store (Props.content x) text ∧ Reads env text v ∧
      VoucherOk v ∧ (out = true → SignersOf O (Props.content x) l) ∧
      verifyCmsVoucher O env ok cms certs store out = .ok (some (v, l)) := by
  cases cms with
  | none => exact .inl rfl
  | some x =>
    obtain ⟨r, e, hr⟩ := verifyCms_sound O ok x (hw x rfl) certs store out
    simp only [verifyCmsVoucher, e, bind'_ok]
    cases r with
    | none => exact .inl rfl
    | some r =>
      obtain ⟨h1, h2⟩ := hr r rfl
      simp only
      split
      · exact .inl rfl
      · rename_i hne
        obtain ⟨w, e2, hw2⟩ := deserialize_safe env r.data (by have := authentic_small hs h1; omega) ha
        rw [e2, bind'_ok]
        cases w with
        | none => exact .inl rfl
        | some v => exact .inr ⟨x, r.data, v, r.certs, rfl, h1, ⟨hne, e2⟩, hw2 v rfl, h2, rfl⟩

/-- Without assuming that the voucher can be allocated: acceptance implies the check. -/
theorem verifyCmsVoucher_sound (O : Ossl) (hs : Small O) (env : Env) (ok : Nat → Bool)
    (cms : Option BinArr) (hw : ArgWf cms) (certs store : Option CertList) (out : Bool) (v : Voucher)
    (l : Option CertList)
    (h : verifyCmsVoucher O env ok cms certs store out = .ok (some (v, l))) :
    ∃ x text, cms = some x ∧ Authentic O certs store (Props.content x) text ∧ Reads env text v ∧
      VoucherOk v ∧ (out = true → SignersOf O (Props.content x) l) := by
  cases cms with
  | none => cases h
  | some x =>
    obtain ⟨r, e, hr⟩ := verifyCms_sound O ok x (hw x rfl) certs store out
    simp only [verifyCmsVoucher, e, bind'_ok] at h
    cases r with
    | none => cases h
    | some r =>
      obtain ⟨h1, h2⟩ := hr r rfl
      simp only at h
      split at h
      · cases h
      · rename_i hne
        cases hd : deserialize env r.data with
        | ub => rw [hd] at h; cases h
        | ok w =>
          rw [hd, bind'_ok] at h
          cases w with
          | none => cases h
          | some w =>
            simp only [Option.map_some, Outcome.ok.injEq, Option.some.injEq, Prod.mk.injEq] at h
            obtain ⟨rfl, rfl⟩ := h
            exact ⟨x, r.data, rfl, h1, ⟨hne, hd⟩,
              deserialize_voucherOk env _ (by have := authentic_small hs h1; omega) _ hd, h2⟩

end Brski.Request
