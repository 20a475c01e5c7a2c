import Verif.PledgeOwns

/-!
# The client side of the pledge when nothing is missing
-/

namespace Brski.Pledge
open Outcome Brski.Voucher VoucherJson Crypto BoolTime Request Base64 Server Brski.Props Brski.Spec

theorem later_same {h h' : Heap} (l : Later h h') {p : Nat} {b : Bytes} (hp : p < h.next) (hb : h.blk p = some b)
    (hl : h'.blk p ≠ none) : h'.blk p = some b := by
  cases hx : h'.blk p with
  | none => exact absurd hx hl
  | some c => rw [l.keep p c hp hx] at hb; rw [hb]

theorem owns_live {h0 h : Heap} {ps : List (Option Nat)} (ho : Owns h0 h ps) {p : Nat} (hp : some p ∈ ps) :
    p < h.next ∧ h.blk p ≠ none := by
  have := ho.live p (by simpa using hp)
  exact ⟨this.2.1, this.2.2⟩

/-- Releasing other blocks keeps a block. -/
theorem release_keeps {h0 : Heap} (hw : h0.Wf) (ps qs : List (Option Nat)) {h : Heap} (ho : Owns h0 h (ps ++ qs)) {p : Nat}
    {b : Bytes} (hp : some p ∈ qs) (hb : h.blk p = some b) :
    ∃ h', freeAll h ps = .ok h' ∧ Owns h0 h' qs ∧ h'.blk p = some b ∧ Later h h' := by
  obtain ⟨h', e, o⟩ := owns_release hw ps qs ho
  have hl := owns_live ho (p := p) (by simp [hp])
  exact ⟨h', e, o, later_same (later_freeAll e) hl.1 hb (owns_live o hp).2, later_freeAll e⟩

/-- The configured nonce can be read at every place (`none`: none is configured). -/
def NonceSet (e : PledgeEnv) (nonce : Option Bytes) : Prop :=
  (e.nonce = none ∧ nonce = none) ∨
    ∃ s b, e.nonce = some s ∧ nonce = some b ∧ ∀ k, e.nonceMem k = true ∧ BodyDecodes (e.nonceAl k) e.blk s b

theorem nonce_full {e : PledgeEnv} {nonce : Option Bytes} (hn : NonceSet e nonce) (k : Nat) {h0 h : Heap}
    {ps : List (Option Nat)} (ho : Owns h0 h ps) :
    ∃ n, readNonce (e.nonceMem k) (e.nonceAl k) e.blk e.nonce h = .ok n ∧ Owns h0 n.heap (n.ptrs ++ ps) ∧ n.ok = true ∧
      n.arr = nonce.map .of ∧ Later h n.heap := by
  unfold readNonce
  rcases hn with ⟨h1, rfl⟩ | ⟨s, b, h1, rfl, h2⟩
  · rw [h1]
    exact ⟨_, rfl, ho, rfl, rfl, .refl h⟩
  · obtain ⟨h3, h4⟩ := h2 k
    rw [h1]
    simp only [h3, if_true]
    have : decodeBody (e.nonceAl k) e.blk (h.alloc []).1 s =
        .ok ⟨((h.alloc []).1.alloc b).1, some b.length, some ((h.alloc []).1.alloc b).2, b⟩ := by
      unfold decodeBody
      rw [h4, bind'_ok]
    rw [this, bind'_ok]
    exact ⟨_, rfl, owns_alloc (owns_alloc ho []) b, rfl, rfl, (later_alloc h []).trans (later_alloc _ b)⟩

/-- Nothing the request needs is missing. -/
structure CanAsk (O : Ossl) (e : PledgeEnv) (nonce : Option Bytes) (t : Tm) (reg cms : Bytes) : Prop where
  time : requestTime e = some t
  nonceSet : NonceSet e nonce
  cert : ∃ b, e.signCert = .der b
  key : ∃ b, e.signKey = .der b
  additional : e.additional ≠ .noMem ∧ e.additional ≠ .freed
  sign : signPledgeVoucherRequest O e.reqRt (some t) e.serial (nonce.map .of) (some (.of reg)) e.signCert.arr e.signKey.arr
    e.additional.certs = .ok (some cms)
  out : NoOom e.reqOut
  size : cms.length < sizeMax / 4

theorem loadList_full {l : Loaded} (hl : l ≠ .noMem ∧ l ≠ .freed) (h : Heap) : (loadList h l).2.2 = true := by
  cases l with
  | absent => rfl
  | list l => rfl
  | noMem => exact absurd rfl hl.1
  | freed => exact absurd rfl hl.2

theorem loadList_later {l : Loaded} (h : Heap) : Later h (loadList h l).1 := later_loadList h l

theorem requestArray_full {O : Ossl} {e : PledgeEnv} {nonce : Option Bytes} {t : Tm} {reg cms : Bytes}
    (hc : CanAsk O e nonce t reg cms) {h0 h : Heap} (hw : h0.Wf) {ps : List (Option Nat)} (ho : Owns h0 h ps) :
    ∃ h' p, requestArray O e reg h = .ok (h', some p) ∧ Owns h0 h' (some p :: ps) ∧ h'.blk p = some cms ∧ Later h h' := by
  obtain ⟨cb, hcb⟩ := hc.cert
  obtain ⟨kb, hkb⟩ := hc.key
  obtain ⟨n, hn, ho1, hok, harr, l1⟩ := nonce_full hc.nonceSet 0 ho
  have hs := hc.sign
  rw [hcb, hkb, ← harr] at hs
  unfold requestArray
  rw [hc.time]
  simp only [hn, bind'_ok, hok, if_true, hcb, hkb, readFile]
  have ho2 := owns_alloc ho1 cb
  have l2 := l1.trans (later_alloc n.heap cb)
  generalize n.heap.alloc cb = C at ho2 l2
  have ho3 := owns_alloc ho2 kb
  have l3 := l2.trans (later_alloc C.1 kb)
  generalize C.1.alloc kb = K at ho3 l3
  rw [if_pos (loadList_full hc.additional K.1)]
  have ho4 := owns_loadList ho3 e.additional hc.additional.2
  have l4 := l3.trans (loadList_later (l := e.additional) K.1)
  generalize loadList K.1 e.additional = L at ho4 l4
  rw [hs, bind'_ok]
  simp only
  obtain ⟨h', e', o', b', l'⟩ := release_keeps hw (n.ptrs ++ [some C.2, some K.2, L.2.1]) (some (L.1.alloc cms).2 :: ps)
    (owns_perm (perm_count fun a => by
      simp only [List.count_append, List.count_cons, List.count_nil]; omega) (owns_alloc ho4 cms))
    (p := (L.1.alloc cms).2) (b := cms) (by simp) (by simp [Heap.alloc])
  rw [e', bind'_ok]
  exact ⟨_, _, rfl, o', b', (l4.trans (later_alloc _ _)).trans l'⟩

theorem requestText_full {O : Ossl} {e : PledgeEnv} {nonce : Option Bytes} {t : Tm} {reg cms : Bytes}
    (hc : CanAsk O e nonce t reg cms) {h0 h : Heap} (hw : h0.Wf) {ps : List (Option Nat)} (ho : Owns h0 h ps) :
    ∃ h' p buf, requestText O e reg h = .ok (h', some p) ∧ Owns h0 h' (some p :: ps) ∧ h'.blk p = some buf ∧
      cstr buf = rfc4648 cms ∧ Later h h' := by
  obtain ⟨h1, p, e1, o1, b1, l1⟩ := requestArray_full hc hw ho
  unfold requestText
  obtain ⟨buf, m, e2, -⟩ := C02_encode_rfc4648 e.reqOut hc.out cms hc.size
  simp only [e1, bind'_ok, Heap.read, b1, e2]
  obtain ⟨h', e', o', b', l'⟩ := release_keeps hw [some p] (some (h1.alloc buf).2 :: ps)
    (owns_perm (List.Perm.swap _ _ _) (owns_alloc o1 buf)) (p := (h1.alloc buf).2) (b := buf) (by simp) (by simp [Heap.alloc])
  rw [e', bind'_ok]
  exact ⟨_, _, buf, rfl, o', b', cstr_encoded e2, (l1.trans (later_alloc _ _)).trans l'⟩

/-- Nothing the check of a voucher needs is missing. -/
structure CanCheck (O : Ossl) (e : PledgeEnv) (nonce : Option Bytes) (reg c pin : Bytes) : Prop where
  nonceSet : NonceSet e nonce
  lists : ∀ l ∈ [e.verifyCerts, e.verifyStore], l ≠ .noMem ∧ l ≠ .freed
  verify : verifyMasaPledgeVoucher O e.verRt (some (.of c)) e.serial (nonce.map .of) (some (.of reg)) none e.verifyCerts.certs
    e.verifyStore.certs false = .ok (some (.of pin))

theorem verifyRequest_full {O : Ossl} {e : PledgeEnv} {nonce : Option Bytes} {reg c pin : Bytes}
    (hc : CanCheck O e nonce reg c pin) {h0 h : Heap} (hw : h0.Wf) {ps : List (Option Nat)} (ho : Owns h0 h ps) :
    ∃ h' p, verifyRequest O e (.of c) reg h = .ok (h', some p) ∧ Owns h0 h' (some p :: ps) ∧ h'.blk p = some pin ∧
      Later h h' := by
  obtain ⟨n, hn, ho1, hok, harr, l1⟩ := nonce_full hc.nonceSet 1 ho
  have hv := hc.verify
  rw [← harr] at hv
  unfold verifyRequest
  simp only [hn, bind'_ok, hok, if_true]
  have ho2 := owns_loadLists [e.verifyCerts, e.verifyStore] (fun l hl => (hc.lists l hl).2) ho1
  rw [if_pos (loadLists_full hc.lists)]
  have l2 := l1.trans (later_loadLists [e.verifyCerts, e.verifyStore] n.heap)
  generalize loadLists n.heap [e.verifyCerts, e.verifyStore] = L at ho2 l2
  rw [hv, bind'_ok]
  simp only [BinArr.of, Option.getD_some, List.take_length]
  obtain ⟨h', e', o', b', l'⟩ := release_keeps hw (n.ptrs ++ L.2.1) (some (L.1.alloc pin).2 :: ps)
    (owns_perm (perm_count fun a => by
      simp only [List.count_append, List.count_cons]; omega) (owns_alloc ho2 pin))
    (p := (L.1.alloc pin).2) (b := pin) (by simp) (by simp [Heap.alloc])
  rw [e', bind'_ok]
  exact ⟨_, _, rfl, o', b', (l2.trans (later_alloc _ _)).trans l'⟩

/-- A buffer with the certificate of the peer, whose own copy is released. -/
theorem peer_full {h0 : Heap} (hw : h0.Wf) {h : Heap} {ps : List (Option Nat)} (ho : Owns h0 h ps) (reg : Bytes) :
    ∃ h1 h2 x p, peerCert h (some reg) = (h1, some x) ∧ certBuf true h1 (some x) = .ok (h2, some p) ∧
      ∃ h3, h2.freePtr (some x) = .ok h3 ∧ Owns h0 h3 (some p :: ps) ∧ h3.blk p = some reg ∧ Later h h3 := by
  have o1 := owns_alloc ho reg
  have o2 := owns_alloc o1 reg
  have hb : (h.alloc reg).1.blk (h.alloc reg).2 = some reg := by simp [Heap.alloc]
  obtain ⟨h3, e3, o3, b3, l3⟩ := release_keeps hw [some (h.alloc reg).2] (some ((h.alloc reg).1.alloc reg).2 :: ps)
    (owns_perm (List.Perm.swap _ _ _) o2) (p := ((h.alloc reg).1.alloc reg).2) (b := reg) (by simp) (by simp [Heap.alloc])
  refine ⟨_, ((h.alloc reg).1.alloc reg).1, _, _, rfl, by simp only [certBuf, Heap.read, hb, bind'_ok, if_true], h3, ?_, o3, b3,
    ((later_alloc _ _).trans (later_alloc _ _)).trans l3⟩
  simp only [freeAll] at e3
  cases hf : ((h.alloc reg).1.alloc reg).1.freePtr (some (h.alloc reg).2) with
  | ub => rw [hf] at e3; cases e3
  | ok y => rw [hf, bind'_ok] at e3; exact e3

theorem judge_full {O : Ossl} {e : PledgeEnv} {nonce : Option Bytes} {reg c pin : Bytes}
    (hc : CanCheck O e nonce reg c pin) (hm : e.bufMem 1 = true) (status : Nat) (hs : status < 400) (body : Bytes)
    (hd : BodyDecodes e.masaAl e.blk body c) (sent : List Msg) {h0 h : Heap} (hw : h0.Wf) {ps : List (Option Nat)}
    (ho : Owns h0 h ps) :
    ∃ h' p, judge O e ⟨status, some reg, body⟩ sent h = .ok ⟨h', some p, sent⟩ ∧ Owns h0 h' (some p :: ps) ∧
      h'.blk p = some pin ∧ Later h h' := by
  obtain ⟨h1, h2, x, p, e1, e2, h3, e3, o3, b3, l3⟩ := peer_full hw ho reg
  unfold judge
  simp only [e1, hm, if_neg (show ¬ status ≥ 400 by omega), e2, bind'_ok, e3]
  have hdec : decodeBody e.masaAl e.blk h3 body = .ok ⟨(h3.alloc c).1, some c.length, some (h3.alloc c).2, c⟩ := by
    unfold decodeBody
    rw [hd, bind'_ok]
  have o4 := owns_alloc o3 c
  have l4 := l3.trans (later_alloc h3 c)
  have hp := owns_live o3 (p := p) (by simp)
  have b4 : (h3.alloc c).1.blk p = some reg := by
    have : p ≠ h3.next := by omega
    simp only [Heap.alloc, this, if_false, b3]
  rw [hdec, bind'_ok]
  simp only [Heap.read, b4, bind'_ok]
  rw [show (⟨(h3.alloc c).1, some c.length, some (h3.alloc c).2, c⟩ : Body).arr = .of c from rfl]
  obtain ⟨h5, q, e5, o5, b5, l5⟩ := verifyRequest_full hc hw o4
  rw [e5, bind'_ok]
  simp only
  obtain ⟨h', e', o', b', l'⟩ := release_keeps hw [some (h3.alloc c).2, some p] (some q :: ps) (owns_perm (perm_count fun a => by
    simp only [List.count_append, List.count_cons, List.count_nil]; omega) o5) (p := q) (b := pin) (by simp) b5
  rw [e', bind'_ok]
  exact ⟨_, _, rfl, o', b', (l4.trans l5).trans l'⟩

/-- The voucher exchange when everything needed is there and the network answers the request with a voucher that the
pledge accepts. -/
theorem postVoucher_full {O : Ossl} {e : PledgeEnv} {nonce : Option Bytes} {t : Tm} {reg reg2 cms c pin body fbody : Bytes}
    {st1 st2 : Nat} (hset : e.address ≠ none ∧ e.keyPath ≠ none ∧ e.certPath ≠ none)
    (ha : CanAsk O e nonce t reg cms) (hc : CanCheck O e nonce reg2 c pin) (hm : ∀ k, e.bufMem k = true) (net : Net)
    (hf : net.first = some ⟨st1, some reg, fbody⟩) (hs : net.second (rfc4648 cms) = some ⟨st2, some reg2, body⟩)
    (hst : st2 < 400) (hd : BodyDecodes e.masaAl e.blk body c) {h0 h : Heap} (hw : h0.Wf) {ps : List (Option Nat)}
    (ho : Owns h0 h ps) :
    ∃ h' p, postVoucher O e net h = .ok ⟨h', some p, [.voucher [], .voucher (rfc4648 cms)]⟩ ∧ Owns h0 h' (some p :: ps) ∧
      h'.blk p = some pin ∧ Later h h' := by
  unfold postVoucher
  rw [if_neg (by simp [hset.1, hset.2.1, hset.2.2]), hf]
  simp only
  obtain ⟨h1, h2, x, p, e1, e2, h3, e3, o3, b3, l3⟩ := peer_full hw ho reg
  simp only [e1, hm, e2, bind'_ok, e3, Heap.read, b3]
  obtain ⟨h4, q, buf, e4, o4, b4, c4, l4⟩ := requestText_full ha hw o3
  rw [e4, bind'_ok]
  obtain ⟨h5, e5, o5, b5, l5⟩ := release_keeps hw [some p] (some q :: ps) (owns_perm (List.Perm.swap _ _ _) o4)
    (p := q) (b := buf) (by simp) b4
  have e5' : h4.freePtr (some p) = .ok h5 := by
    simp only [freeAll] at e5
    cases hf : h4.freePtr (some p) with
    | ub => rw [hf] at e5; cases e5
    | ok y => rw [hf, bind'_ok] at e5; exact e5
  rw [e5', bind'_ok]
  simp only [b5, bind'_ok]
  obtain ⟨h6, e6, o6⟩ := owns_free hw o5
  rw [e6, bind'_ok, c4, hs]
  simp only
  have l6 : Later h5 h6 := later_freeAll (ps := [some q]) (by simp only [freeAll, e6, bind'_ok])
  obtain ⟨h7, p7, e7, o7, b7, l7⟩ := judge_full hc (hm 1) st2 hst body hd [.voucher [], .voucher (rfc4648 cms)] hw o6
  exact ⟨h7, p7, e7, o7, b7, (((l3.trans l4).trans l5).trans l6).trans l7⟩

/-- The enrolment when everything needed is there and the network answers with a certificate. -/
theorem postSignCert_full {O : Ossl} {e : PledgeEnv} {g : Gen} {nonce : Option Bytes} {t : Tm}
    {reg reg2 cms c pin body fbody key cert crt ebody : Bytes} {st1 st2 st3 : Nat} (hp : g.prepared = true)
    (hk : g.key = some key) (hcert : g.cert key = some cert) (hca : NoOom g.caOut) (hbo : NoOom g.bodyOut)
    (hps : pin.length < sizeMax / 4) (hcs : cert.length < sizeMax / 4)
    (hset : e.address ≠ none ∧ e.keyPath ≠ none ∧ e.certPath ≠ none)
    (ha : CanAsk O e nonce t reg cms) (hc : CanCheck O e nonce reg2 c pin) (hm : ∀ k, e.bufMem k = true) (net : Net)
    (hf : net.first = some ⟨st1, some reg, fbody⟩) (hs : net.second (rfc4648 cms) = some ⟨st2, some reg2, body⟩)
    (hst : st2 < 400) (hd : BodyDecodes e.masaAl e.blk body c)
    (he : net.enrol (certString (rfc4648 pin)) (rfc4648 cert) = some (st3, ebody)) (hst3 : st3 < 400)
    (hd3 : BodyDecodes g.al g.blk ebody crt) {h : Heap} (hw : h.Wf) :
    ∃ h' p q, postSignCert O e g net h = .ok ⟨h', some (p, q), [.voucher [], .voucher (rfc4648 cms),
        .enrol (certString (rfc4648 pin)) (rfc4648 cert)]⟩ ∧ Owns h h' [some p, some q] ∧ h'.blk p = some crt ∧
      h'.blk q = some key := by
  unfold postSignCert
  simp only [hp, if_true, hk, Option.bind_some, hcert, peerCert]
  have o1 := owns_alloc (owns_nil hw) key
  have bk : (h.alloc key).1.blk (h.alloc key).2 = some key := by simp [Heap.alloc]
  generalize h.alloc key = K at o1 bk
  have o2 := owns_alloc o1 cert
  have hkl := (owns_live o1 (p := K.2) (by simp)).1
  have bk2 : (K.1.alloc cert).1.blk K.2 = some key := by
    have : K.2 ≠ K.1.next := by omega
    simp only [Heap.alloc, this, if_false, bk]
  have bc : (K.1.alloc cert).1.blk (K.1.alloc cert).2 = some cert := by simp [Heap.alloc]
  generalize K.1.alloc cert = C at o2 bk2 bc
  obtain ⟨h3, p3, e3, o3, b3, l3⟩ := postVoucher_full hset ha hc hm net hf hs hst hd hw o2
  rw [e3, bind'_ok]
  simp only
  have bk3 := later_same l3 (owns_live o2 (p := K.2) (by simp)).1 bk2 (owns_live o3 (p := K.2) (by simp)).2
  have bc3 := later_same l3 (owns_live o2 (p := C.2) (by simp)).1 bc (owns_live o3 (p := C.2) (by simp)).2
  unfold enrol
  obtain ⟨ca, m1, x1, -⟩ := C02_encode_rfc4648 g.caOut hca pin hps
  obtain ⟨bd, m2, x2, -⟩ := C02_encode_rfc4648 g.bodyOut hbo cert hcs
  simp only [Heap.read, b3, bind'_ok, x1, bc3, x2, cstr_encoded x1, cstr_encoded x2, he]
  unfold enrolAnswer
  simp only
  rw [if_neg (by omega)]
  obtain ⟨h4, e4, o4⟩ := owns_free hw (owns_perm (qs := some C.2 :: [some p3, some K.2]) (List.Perm.swap _ _ _) o3)
  have l4 : Later h3 h4 := later_freeAll (ps := [some C.2]) (by simp only [freeAll, e4, bind'_ok])
  have bk4 := later_same l4 (owns_live o3 (p := K.2) (by simp)).1 bk3 (owns_live o4 (p := K.2) (by simp)).2
  have hdec : decodeBody g.al g.blk h4 ebody = .ok ⟨(h4.alloc crt).1, some crt.length, some (h4.alloc crt).2, crt⟩ := by
    unfold decodeBody
    rw [hd3, bind'_ok]
  rw [e4, bind'_ok, hdec, bind'_ok]
  simp only
  have o5 := owns_alloc o4 crt
  have l5 := later_alloc h4 crt
  have bk5 := later_same l5 (owns_live o4 (p := K.2) (by simp)).1 bk4 (owns_live o5 (p := K.2) (by simp)).2
  have bc5 : (h4.alloc crt).1.blk (h4.alloc crt).2 = some crt := by simp [Heap.alloc]
  generalize h4.alloc crt = D at o5 bk5 bc5
  obtain ⟨h6, e6, o6, b6, l6⟩ := release_keeps hw [some p3] [some D.2, some K.2] (owns_perm (List.Perm.swap _ _ _) o5)
    (p := D.2) (b := crt) (by simp) bc5
  rw [e6, bind'_ok]
  refine ⟨h6, D.2, K.2, by simp, o6, b6, ?_⟩
  exact later_same l6 (owns_live o5 (p := K.2) (by simp)).1 bk5 (owns_live o6 (p := K.2) (by simp)).2

end Brski.Pledge
