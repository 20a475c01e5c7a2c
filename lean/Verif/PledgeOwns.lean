import Verif.PledgeLemmas

/-!
# Ownership of memory on the client side of the pledge
-/

namespace Brski.Pledge
open Outcome Brski.Voucher VoucherJson Crypto BoolTime Request Base64 Server Brski.Props Brski.Spec

/-- Releasing the first pointers. -/
theorem owns_release {h0 : Heap} (hw : h0.Wf) (ps qs : List (Option Nat)) :
    ∀ {h : Heap}, Owns h0 h (ps ++ qs) → ∃ h', freeAll h ps = .ok h' ∧ Owns h0 h' qs := by
  induction ps with
  | nil => intro h ho; exact ⟨h, rfl, ho⟩
  | cons p ps ih =>
    intro h ho
    obtain ⟨h1, e1, o1⟩ := owns_free hw ho
    obtain ⟨h2, e2, o2⟩ := ih o1
    exact ⟨h2, by rw [freeAll, e1, bind'_ok, e2], o2⟩

theorem owns_failed {h0 : Heap} (hw : h0.Wf) (ps qs : List (Option Nat)) {h : Heap} (ho : Owns h0 h (ps ++ qs)) :
    ∃ r, failed h ps = .ok r ∧ Owns h0 r.1 (r.2 :: qs) := by
  obtain ⟨h', e, o⟩ := owns_release hw ps qs ho
  exact ⟨(h', none), by rw [failed, e, bind'_ok], owns_none.2 o⟩

theorem owns_read {h0 h : Heap} {ps : List (Option Nat)} (ho : Owns h0 h ps) {p : Nat} (hp : some p ∈ ps) :
    ∃ b, h.read p = .ok b := by
  have := (ho.live p (by simpa using hp)).2.2
  cases hb : h.blk p with
  | none => exact absurd hb this
  | some b => exact ⟨b, by simp [Heap.read, hb]⟩

/-- Configurations without the defects recorded elsewhere: the paths of certificate and key are set (`fopen(NULL)`), no
certificate list fails half-way (C43), the configured nonce is not badly padded (C05), it decodes again when the
answer is verified (it is released twice otherwise), the serial number is a C string, and the voucher structure can be
allocated. -/
structure Ready (e : PledgeEnv) : Prop where
  cert : e.signCert ≠ .unset
  key : e.signKey ≠ .unset
  additional : e.additional ≠ .freed
  lists : ∀ l ∈ [e.verifyCerts, e.verifyStore], l ≠ .freed
  sized : ∀ s, e.nonce = some s → Sized e.blk s
  padded : ∀ s, e.nonce = some s → base64str2array (e.nonceAl 0) e.blk (cstr s) ≠ .ok (none, .dangling)
  again : ∀ s, e.nonce = some s → e.nonceMem 1 = true → ∃ b, BodyDecodes (e.nonceAl 1) e.blk s b
  serial : strOk e.serial
  voucher : Alloc (e.verRt.json 0)

/-- The nonce when it does not end in a dangling pointer. -/
theorem nonce_owns {e : PledgeEnv} {k : Nat} (hs : ∀ s, e.nonce = some s → Sized e.blk s)
    (hp : ∀ s, e.nonce = some s → e.nonceMem k = true →
      base64str2array (e.nonceAl k) e.blk (cstr s) ≠ .ok (none, .dangling))
    {h0 h : Heap} {ps : List (Option Nat)} (ho : Owns h0 h ps) :
    ∃ n, readNonce (e.nonceMem k) (e.nonceAl k) e.blk e.nonce h = .ok n ∧ Owns h0 n.heap (n.ptrs ++ ps) := by
  unfold readNonce
  cases hn : e.nonce with
  | none => exact ⟨_, rfl, ho⟩
  | some s =>
    simp only
    by_cases hm : e.nonceMem k = true
    · rw [if_pos hm]
      have ho1 := owns_alloc ho []
      rcases decodeBody_cases (e.nonceAl k) e.blk (hs s hn).1 (h.alloc []).1 s (hs s hn).2 with
        ⟨c, h1, h2⟩ | ⟨h1, h2⟩ | ⟨h1, h2⟩
      · rw [h2, bind'_ok]
        exact ⟨_, rfl, owns_alloc ho1 c⟩
      · rw [h2, bind'_ok]
        exact ⟨_, rfl, owns_none.2 ho1⟩
      · exact absurd h1 (hp s hn hm)
    · rw [if_neg hm]
      exact ⟨_, rfl, ho⟩

theorem perm_count {ps qs : List (Option Nat)} (h : ∀ a, ps.count a = qs.count a) : ps.Perm qs :=
  List.perm_iff_count.2 h

theorem requestArray_owns {O : Ossl} {e : PledgeEnv} (hr : Ready e) (reg : Bytes) {h0 h : Heap} (hw : h0.Wf)
    {ps : List (Option Nat)} (ho : Owns h0 h ps) :
    ∃ r, requestArray O e reg h = .ok r ∧ Owns h0 r.1 (r.2 :: ps) := by
  unfold requestArray
  cases ht : requestTime e with
  | none => exact ⟨_, rfl, owns_none.2 ho⟩
  | some t =>
    simp only
    obtain ⟨n, hn, ho1⟩ := nonce_owns (k := 0) hr.sized (fun s hs _ => hr.padded s hs) ho
    rw [hn, bind'_ok]
    by_cases hok : n.ok = true
    · rw [if_pos hok]
      have hnw := (nonce_inv hr.sized hn hok).wf
      rcases readFile_set hr.cert n.heap with hc | ⟨cb, hcb, hc⟩
      · rw [hc, bind'_ok]
        exact owns_failed hw n.ptrs ps ho1
      · rw [hc, bind'_ok]
        simp only
        have ho2 := owns_alloc ho1 cb
        generalize n.heap.alloc cb = C at ho2
        rcases readFile_set hr.key C.1 with hk | ⟨kb, hkb, hk⟩
        · rw [hk, bind'_ok]
          exact owns_failed hw (n.ptrs ++ [some C.2]) ps (owns_perm (perm_count fun a => by
            simp only [List.count_append, List.count_cons, List.count_nil]; omega) ho2)
        · rw [hk, bind'_ok]
          simp only
          have ho3 := owns_alloc ho2 kb
          generalize C.1.alloc kb = K at ho3
          have ho4 := owns_loadList ho3 e.additional hr.additional
          generalize loadList K.1 e.additional = L at ho4
          have ho5 : Owns h0 L.1 ((n.ptrs ++ [some C.2, some K.2, L.2.1]) ++ ps) :=
            owns_perm (perm_count fun a => by
              simp only [List.count_append, List.count_cons, List.count_nil]; omega) ho4
          by_cases hl : L.2.2 = true
          · rw [if_pos hl]
            rcases C26_pledge_request O e.reqRt t e.serial n.arr (some (.of reg)) e.signCert.arr e.signKey.arr
              e.additional.certs hr.serial hnw (fun y hy => by cases hy; exact wf_of reg) (arr_wf _) (arr_wf _) with
              hq | ⟨_, _, cms, -, -, -, -, hq⟩
            · rw [hq, bind'_ok]
              exact owns_failed hw _ ps ho5
            · rw [hq, bind'_ok]
              simp only
              obtain ⟨h', e', o'⟩ := owns_release hw (n.ptrs ++ [some C.2, some K.2, L.2.1]) (some (L.1.alloc cms).2 :: ps)
                (owns_perm (perm_count fun a => by
                  simp only [List.count_append, List.count_cons, List.count_nil]; omega) (owns_alloc ho5 cms))
              rw [e', bind'_ok]
              exact ⟨_, rfl, o'⟩
          · rw [if_neg hl]
            exact owns_failed hw _ ps ho5
    · rw [if_neg hok]
      exact owns_failed hw n.ptrs ps ho1

theorem requestText_owns {O : Ossl} {e : PledgeEnv} (hr : Ready e) (reg : Bytes) {h0 h : Heap} (hw : h0.Wf)
    {ps : List (Option Nat)} (ho : Owns h0 h ps) :
    ∃ r, requestText O e reg h = .ok r ∧ Owns h0 r.1 (r.2 :: ps) := by
  unfold requestText
  obtain ⟨⟨ah, ap⟩, ha, ho1⟩ := requestArray_owns (O := O) hr reg hw ho
  rw [ha, bind'_ok]
  cases ap with
  | none => exact ⟨_, rfl, ho1⟩
  | some p =>
    simp only at ho1 ⊢
    obtain ⟨cms, hc⟩ := owns_read ho1 (p := p) (by simp)
    rw [hc, bind'_ok]
    obtain ⟨s, hs⟩ := C03_encode_safe e.reqOut cms
    rw [hs, bind'_ok]
    cases s with
    | none => exact owns_failed hw [some p] ps ho1
    | some s =>
      obtain ⟨buf, m⟩ := s
      simp only
      obtain ⟨h', e', o'⟩ := owns_release hw [some p] (some (ah.alloc buf).2 :: ps)
        (owns_perm (List.Perm.swap _ _ _) (owns_alloc ho1 buf))
      rw [e', bind'_ok]
      exact ⟨_, rfl, o'⟩

theorem verifyRequest_owns {O : Ossl} (hsm : Small O) {e : PledgeEnv} (hr : Ready e) (cms : BinArr)
    (hcms : (∃ c, cms = .of c) ∨ cms = ⟨none, sizeMax⟩) (reg : Bytes) {h0 h : Heap} (hw : h0.Wf)
    {ps : List (Option Nat)} (ho : Owns h0 h ps) :
    ∃ r, verifyRequest O e cms reg h = .ok r ∧ Owns h0 r.1 (r.2 :: ps) := by
  unfold verifyRequest
  obtain ⟨n, hn, ho1⟩ := nonce_owns (k := 1) hr.sized (fun s hs hm hd => by
    obtain ⟨b, hb⟩ := hr.again s hs hm
    unfold BodyDecodes at hb
    rw [hb] at hd
    cases hd) ho
  rw [hn, bind'_ok]
  by_cases hok : n.ok = true
  · rw [if_pos hok]
    simp only
    have hnw := (nonce_inv hr.sized hn hok).wf
    have ho2 := owns_loadLists [e.verifyCerts, e.verifyStore] hr.lists ho1
    generalize loadLists n.heap [e.verifyCerts, e.verifyStore] = L at ho2
    have ho3 : Owns h0 L.1 ((n.ptrs ++ L.2.1) ++ ps) := owns_perm (perm_count fun a => by
      simp only [List.count_append]; omega) ho2
    by_cases hl : L.2.2 = true
    · rw [if_pos hl]
      have hd : (verifyMasaPledgeVoucher O e.verRt (some cms) e.serial n.arr (some (.of reg)) none e.verifyCerts.certs
          e.verifyStore.certs false).Defined := by
        rcases hcms with ⟨c, rfl⟩ | rfl
        · exact C32_defined O hsm e.verRt hr.voucher _ _ _ _ _ _ _ _ (fun y hy => by cases hy; exact wf_of c) hnw (wf_of reg)
        · exact ⟨_, verify_failed ..⟩
      obtain ⟨q, hq⟩ := hd
      rw [hq, bind'_ok]
      cases q with
      | none => exact owns_failed hw _ ps ho3
      | some pin =>
        simp only
        obtain ⟨h', e', o'⟩ := owns_release hw (n.ptrs ++ L.2.1)
          (some (L.1.alloc ((pin.array.getD []).take pin.length)).2 :: ps)
          (owns_perm (perm_count fun a => by
            simp only [List.count_append, List.count_cons]; omega)
              (owns_alloc ho3 ((pin.array.getD []).take pin.length)))
        rw [e', bind'_ok]
        exact ⟨_, rfl, o'⟩
    · rw [if_neg hl]
      exact owns_failed hw _ ps ho3
  · rw [if_neg hok]
    have hp : n.ptrs = [] := by
      unfold readNonce at hn
      cases hnn : e.nonce with
      | none => rw [hnn] at hn; cases hn; rfl
      | some s =>
        rw [hnn] at hn
        simp only at hn
        split at hn
        · rename_i hm
          obtain ⟨b, hb⟩ := hr.again s hnn hm
          unfold BodyDecodes at hb
          simp only [decodeBody, hb, bind'_ok] at hn
          cases hn
          exact absurd rfl hok
        · cases hn; rfl
    rw [hp] at ho1 ⊢
    exact owns_failed hw [] ps ho1

theorem giveUp_owns {h0 : Heap} (hw : h0.Wf) (ps qs : List (Option Nat)) {h : Heap} (ho : Owns h0 h (ps ++ qs))
    (sent : List Msg) : ∃ r, giveUp h ps sent = .ok r ∧ Owns h0 r.heap (r.pinned :: qs) := by
  obtain ⟨h', e, o⟩ := owns_release hw ps qs ho
  exact ⟨⟨h', none, sent⟩, by rw [giveUp, e, bind'_ok], owns_none.2 o⟩

theorem owns_peer {h0 h : Heap} {ps : List (Option Nat)} (ho : Owns h0 h ps) (c : Option Bytes) :
    Owns h0 (peerCert h c).1 ((peerCert h c).2 :: ps) := by
  cases c with
  | none => exact owns_none.2 ho
  | some b => exact owns_alloc ho b

theorem certBuf_owns {mem : Bool} {h0 h : Heap} {x : Option Nat} {ps : List (Option Nat)} (ho : Owns h0 h (x :: ps)) :
    ∃ r, certBuf mem h x = .ok r ∧ Owns h0 r.1 (r.2 :: x :: ps) := by
  cases x with
  | none => exact ⟨_, rfl, owns_none.2 ho⟩
  | some p =>
    obtain ⟨b, hb⟩ := owns_read ho (p := p) (by simp)
    simp only [certBuf, hb, bind'_ok]
    split
    · exact ⟨_, rfl, owns_alloc ho b⟩
    · exact ⟨_, rfl, owns_none.2 ho⟩

theorem judge_owns {O : Ossl} (hsm : Small O) {e : PledgeEnv} (hr : Ready e) (a : Answer) (ha : Sized e.blk a.body)
    (hb : base64str2array e.masaAl e.blk (cstr a.body) ≠ .ok (none, .dangling)) (sent : List Msg) {h0 h : Heap}
    (hw : h0.Wf) {ps : List (Option Nat)} (ho : Owns h0 h ps) :
    ∃ r, judge O e a sent h = .ok r ∧ Owns h0 r.heap (r.pinned :: ps) := by
  unfold judge
  simp only
  have ho1 := owns_peer ho a.cert
  generalize peerCert h a.cert = X at ho1
  by_cases hst : a.status ≥ 400
  · rw [if_pos hst]
    exact giveUp_owns hw [X.2] ps ho1 sent
  · rw [if_neg hst]
    obtain ⟨⟨bh, bp⟩, hc, ho2⟩ := certBuf_owns (mem := e.bufMem 1) ho1
    rw [hc, bind'_ok]
    cases bp with
    | none => exact giveUp_owns hw [X.2] ps (owns_none.1 ho2) sent
    | some p =>
      simp only at ho2 ⊢
      obtain ⟨h2, e2, ho3⟩ := owns_free hw (owns_perm (List.Perm.swap _ _ _) ho2)
      rw [e2, bind'_ok]
      have key : ∃ m : Body, decodeBody e.masaAl e.blk h2 a.body = .ok m ∧ Owns h0 m.heap (m.ptr :: some p :: ps) ∧
          ((∃ c, m.arr = .of c) ∨ m.arr = ⟨none, sizeMax⟩) := by
        rcases decodeBody_cases e.masaAl e.blk ha.1 h2 a.body ha.2 with ⟨c, -, g⟩ | ⟨-, g⟩ | ⟨g, -⟩
        · exact ⟨_, g, owns_alloc ho3 c, .inl ⟨c, rfl⟩⟩
        · exact ⟨_, g, owns_none.2 ho3, .inr rfl⟩
        · exact absurd g hb
      obtain ⟨m, hm, ho4, harr⟩ := key
      rw [hm, bind'_ok]
      obtain ⟨reg, hreg⟩ := owns_read ho4 (p := p) (by simp)
      rw [hreg, bind'_ok]
      obtain ⟨⟨vh, vp⟩, hv, ho5⟩ := verifyRequest_owns hsm hr m.arr harr reg hw ho4
      rw [hv, bind'_ok]
      cases vp with
      | none => exact giveUp_owns hw [m.ptr, some p] ps (owns_none.1 ho5) sent
      | some q =>
        simp only at ho5 ⊢
        obtain ⟨h6, e6, ho6⟩ := owns_release hw [m.ptr, some p] (some q :: ps) (owns_perm (perm_count fun a => by
          simp only [List.count_append, List.count_cons, List.count_nil]; omega) ho5)
        rw [e6, bind'_ok]
        exact ⟨_, rfl, ho6⟩

/-- The voucher exchange releases everything but the certificate it returns. -/
theorem postVoucher_owns {O : Ossl} (hsm : Small O) {e : PledgeEnv} (hr : Ready e) (net : Net)
    (hnet : ∀ t a, net.second t = some a → Sized e.blk a.body ∧
      base64str2array e.masaAl e.blk (cstr a.body) ≠ .ok (none, .dangling)) {h0 h : Heap}
    (hw : h0.Wf) {ps : List (Option Nat)} (ho : Owns h0 h ps) :
    ∃ r, postVoucher O e net h = .ok r ∧ Owns h0 r.heap (r.pinned :: ps) := by
  unfold postVoucher
  split
  · exact ⟨_, rfl, owns_none.2 ho⟩
  · cases h1 : net.first with
    | none => exact ⟨_, rfl, owns_none.2 ho⟩
    | some a1 =>
      simp only
      have ho1 := owns_peer ho a1.cert
      generalize peerCert h a1.cert = X at ho1
      obtain ⟨⟨bh, bp⟩, hc, ho2⟩ := certBuf_owns (mem := e.bufMem 0) ho1
      rw [hc, bind'_ok]
      cases bp with
      | none => exact giveUp_owns hw [X.2] ps (owns_none.1 ho2) _
      | some p =>
        simp only at ho2 ⊢
        obtain ⟨h2, e2, ho3⟩ := owns_free hw (owns_perm (List.Perm.swap _ _ _) ho2)
        rw [e2, bind'_ok]
        obtain ⟨reg, hreg⟩ := owns_read ho3 (p := p) (by simp)
        rw [hreg, bind'_ok]
        obtain ⟨⟨qh, qp⟩, hq, ho4⟩ := requestText_owns (O := O) hr reg hw ho3
        rw [hq, bind'_ok]
        obtain ⟨h5, e5, ho5⟩ := owns_free hw (owns_perm (List.Perm.swap _ _ _) ho4)
        simp only at e5 ⊢
        rw [e5, bind'_ok]
        cases qp with
        | none => exact ⟨_, rfl, ho5⟩
        | some t =>
          simp only at ho5 ⊢
          obtain ⟨text, htext⟩ := owns_read ho5 (p := t) (by simp)
          rw [htext, bind'_ok]
          obtain ⟨h6, e6, ho6⟩ := owns_free hw ho5
          rw [e6, bind'_ok]
          cases h2n : net.second (cstr text) with
          | none => exact ⟨_, rfl, owns_none.2 ho6⟩
          | some a2 =>
            obtain ⟨g1, g2⟩ := hnet _ a2 h2n
            exact judge_owns hsm hr a2 g1 g2 _ hw ho6

/-! ## Enrolment -/

theorem enrolFail_owns {h0 : Heap} (hw : h0.Wf) (ps qs : List (Option Nat)) {h : Heap} (ho : Owns h0 h (ps ++ qs))
    (sent : List Msg) : ∃ r, enrolFail h ps sent = .ok r ∧ r.out = none ∧ Owns h0 r.heap qs := by
  obtain ⟨h', e, o⟩ := owns_release hw ps qs ho
  exact ⟨⟨h', none, sent⟩, by rw [enrolFail, e, bind'_ok], rfl, o⟩

/-- What the caller of `post_sign_cert` has to release. -/
def outPtrs : Option (Nat × Nat) → List (Option Nat)
  | none => []
  | some (c, k) => [some c, some k]

theorem enrolAnswer_owns {g : Gen} {cert key pin : Nat} (sent : List Msg) {h0 h : Heap} (hw : h0.Wf)
    (ho : Owns h0 h [some cert, some key, some pin]) (a : Option (Nat × Bytes))
    (ha : ∀ s b, a = some (s, b) → Sized g.blk b ∧ base64str2array g.al g.blk (cstr b) ≠ .ok (none, .dangling)) :
    ∃ r, enrolAnswer g cert key pin sent h a = .ok r ∧ Owns h0 r.heap (outPtrs r.out) := by
  unfold enrolAnswer
  cases a with
  | none =>
    obtain ⟨r, e1, e2, o⟩ := enrolFail_owns hw [some cert, some key, some pin] [] ho sent
    exact ⟨r, e1, by rw [e2]; exact o⟩
  | some a =>
    obtain ⟨status, body⟩ := a
    simp only
    split
    · obtain ⟨r, e1, e2, o⟩ := enrolFail_owns hw [some cert, some key, some pin] [] ho sent
      exact ⟨r, e1, by rw [e2]; exact o⟩
    · obtain ⟨h1, e1, ho1⟩ := owns_free hw ho
      rw [e1, bind'_ok]
      obtain ⟨s1, s2⟩ := ha status body rfl
      rcases decodeBody_cases g.al g.blk s1.1 h1 body s1.2 with ⟨c, -, q⟩ | ⟨-, q⟩ | ⟨q, -⟩
      · rw [q, bind'_ok]
        simp only
        obtain ⟨h2, e2, ho2⟩ := owns_release hw [some pin] [some (h1.alloc c).2, some key] (owns_perm (perm_count fun a => by
          simp only [List.count_append, List.count_cons, List.count_nil]; omega) (owns_alloc ho1 c))
        rw [e2, bind'_ok]
        exact ⟨_, rfl, ho2⟩
      · rw [q, bind'_ok]
        simp only
        obtain ⟨r, e1, e2, o⟩ := enrolFail_owns hw [none, some key, some pin] [] (owns_none.2 ho1) sent
        exact ⟨r, e1, by rw [e2]; exact o⟩
      · exact absurd q s2

theorem enrol_owns {g : Gen} {net : Net} {cert key : Option Nat} {pin : Nat} (sent : List Msg) {h0 h : Heap} (hw : h0.Wf)
    (ho : Owns h0 h [cert, key, some pin])
    (hnet : ∀ ca t s b, net.enrol ca t = some (s, b) → Sized g.blk b ∧
      base64str2array g.al g.blk (cstr b) ≠ .ok (none, .dangling)) :
    ∃ r, enrol g net cert key pin sent h = .ok r ∧ Owns h0 r.heap (outPtrs r.out) := by
  have hfail : ∃ r, enrolFail h [cert, key, some pin] sent = .ok r ∧ Owns h0 r.heap (outPtrs r.out) := by
    obtain ⟨r, e1, e2, o⟩ := enrolFail_owns hw [cert, key, some pin] [] ho sent
    exact ⟨r, e1, by rw [e2]; exact o⟩
  unfold enrol
  obtain ⟨pinned, hp⟩ := owns_read ho (p := pin) (by simp)
  rw [hp, bind'_ok]
  obtain ⟨s, hs⟩ := C03_encode_safe g.caOut pinned
  rw [hs, bind'_ok]
  cases s with
  | none => exact hfail
  | some s =>
    obtain ⟨ca, m⟩ := s
    simp only
    cases cert with
    | none => exact hfail
    | some c =>
      cases key with
      | none => exact hfail
      | some k =>
        simp only
        obtain ⟨own, hown⟩ := owns_read ho (p := c) (by simp)
        rw [hown, bind'_ok]
        obtain ⟨s, hs⟩ := C03_encode_safe g.bodyOut own
        rw [hs, bind'_ok]
        cases s with
        | none => exact hfail
        | some s =>
          obtain ⟨body, m'⟩ := s
          exact enrolAnswer_owns _ hw ho _ (fun s b e => hnet _ _ s b e)

/-- The whole of `post_sign_cert` releases everything but the certificate and the key it returns. -/
theorem postSignCert_owns {O : Ossl} (hsm : Small O) {e : PledgeEnv} (hr : Ready e) (g : Gen) (net : Net)
    (hnet : ∀ t a, net.second t = some a → Sized e.blk a.body ∧
      base64str2array e.masaAl e.blk (cstr a.body) ≠ .ok (none, .dangling))
    (hen : ∀ ca t s b, net.enrol ca t = some (s, b) → Sized g.blk b ∧
      base64str2array g.al g.blk (cstr b) ≠ .ok (none, .dangling)) {h : Heap} (hw : h.Wf) :
    ∃ r, postSignCert O e g net h = .ok r ∧ Owns h r.heap (outPtrs r.out) := by
  unfold postSignCert
  split
  · simp only
    have ho1 := owns_peer (owns_nil hw) g.key
    generalize peerCert h g.key = K at ho1
    have ho2 := owns_peer ho1 (g.key.bind g.cert)
    generalize peerCert K.1 (g.key.bind g.cert) = C at ho2
    obtain ⟨⟨rh, rp, rs⟩, hp, ho3⟩ := postVoucher_owns hsm hr net hnet hw ho2
    rw [hp, bind'_ok]
    cases rp with
    | none =>
      obtain ⟨r, e1, e2, o⟩ := enrolFail_owns hw [C.2, K.2] [] (owns_none.1 ho3) rs
      exact ⟨r, e1, by rw [e2]; exact o⟩
    | some pin =>
      exact enrol_owns rs hw (owns_perm (perm_count fun a => by
        simp only [List.count_cons, List.count_nil]; omega) ho3) hen
  · exact ⟨_, rfl, owns_nil hw⟩

end Brski.Pledge
