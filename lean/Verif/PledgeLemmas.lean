import Verif.Pledge
import Verif.PropsServer
import Verif.PropsPledge

/-!
# Lemmas about the client side of the pledge
-/

namespace Brski.Pledge
open Outcome Brski.Voucher VoucherJson Crypto BoolTime Request Base64 Server Brski.Props Brski.Spec

/-! ## Blocks keep their content as long as they live -/

/-- `h'` is a later state of `h`: a block of `h` that still lives has its content, and addresses stay fresh. -/
structure Later (h h' : Heap) : Prop where
  next : h.next ≤ h'.next
  keep : ∀ p b, p < h.next → h'.blk p = some b → h.blk p = some b
  wf : h.Wf → h'.Wf

theorem Later.refl (h : Heap) : Later h h := ⟨Nat.le_refl _, fun _ _ _ h => h, id⟩

theorem Later.trans {a b c : Heap} (h1 : Later a b) (h2 : Later b c) : Later a c :=
  ⟨Nat.le_trans h1.next h2.next, fun p x hp hx =>
    h1.keep p x hp (h2.keep p x (Nat.lt_of_lt_of_le hp h1.next) hx), fun hw => h2.wf (h1.wf hw)⟩

theorem later_alloc (h : Heap) (b : Bytes) : Later h (h.alloc b).1 := by
  refine ⟨by simp only [Heap.alloc]; omega, fun p x hp hx => ?_, fun hw => Heap.alloc_wf hw b⟩
  rwa [Heap.alloc_blk, if_neg (by omega)] at hx

theorem later_burn (h : Heap) : Later h (burn h).1 := 
  ⟨by simp only [burn]; omega, fun _ _ _ h => h, fun hw p hp => by
    have := hw p hp
    simp only [burn]; omega⟩

theorem later_free {h h' : Heap} {p : Option Nat} (e : h.freePtr p = .ok h') : Later h h' := by
  cases p with
  | none => cases e; exact .refl h
  | some p =>
    have hwf := fun hw => Heap.free_wf (p := p) hw e
    obtain ⟨-, rfl⟩ := Heap.free_ok_inv e
    refine ⟨Nat.le_refl _, fun q x _ hx => ?_, hwf⟩
    simp only at hx
    split at hx
    · cases hx
    · exact hx

theorem later_freeAll {ps : List (Option Nat)} : ∀ {h h' : Heap}, freeAll h ps = .ok h' → Later h h' := by
  induction ps with
  | nil => intro h h' e; cases e; exact .refl h
  | cons p ps ih =>
    intro h h' e
    rw [freeAll] at e
    cases e1 : h.freePtr p with
    | ub => rw [e1] at e; cases e
    | ok h1 => rw [e1, bind'_ok] at e; exact (later_free e1).trans (ih e)

theorem later_stale {h h' : Heap} (hl : Later h h') {p : Nat} (hs : Stale h p) : Stale h' p := by
  refine ⟨?_, Nat.lt_of_lt_of_le hs.2 hl.next⟩
  cases hb : h'.blk p with
  | none => rfl
  | some b => have := hl.keep p b hs.2 hb; rw [hs.1] at this; cases this

theorem later_readFile {h : Heap} {f : FileRes} {r : Heap × Option Nat} (e : readFile h f = .ok r) : Later h r.1 := by
  cases f with
  | unset => cases e
  | bad => cases e; exact .refl h
  | der b => cases e; exact later_alloc h b

theorem later_loadList (h : Heap) (l : Loaded) : Later h (loadList h l).1 := by
  cases l with
  | absent => exact .refl h
  | list l => exact later_alloc h []
  | noMem => exact .refl h
  | freed => exact later_burn h

theorem later_loadLists (ls : List Loaded) : ∀ h : Heap, Later h (loadLists h ls).1 := by
  induction ls with
  | nil => intro h; exact .refl h
  | cons l ls ih =>
    intro h
    simp only [loadLists]
    split
    · exact (later_loadList h l).trans (ih _)
    · exact later_loadList h l

theorem later_decode {al : Allocator} {blk : Bytes} {h : Heap} {body : Bytes} {b : Body}
    (e : decodeBody al blk h body = .ok b) : Later h b.heap := by
  unfold decodeBody at e
  cases hb : base64str2array al blk (cstr body) with
  | ub => rw [hb] at e; cases e
  | ok r =>
    rw [hb, bind'_ok] at e
    split at e
    · cases e; exact later_alloc h _
    · cases e; exact .refl h
    · cases e; exact later_burn h
    · cases e

theorem later_nonce {mem : Bool} {al : Allocator} {blk : Bytes} {text : Option Bytes} {h : Heap} {n : NonceBuf}
    (e : readNonce mem al blk text h = .ok n) : Later h n.heap := by
  unfold readNonce at e
  cases text with
  | none => cases e; exact .refl h
  | some s =>
    simp only at e
    split at e
    · cases hd : decodeBody al blk (h.alloc []).1 s with
      | ub => rw [hd] at e; cases e
      | ok b => rw [hd, bind'_ok] at e; cases e; exact (later_alloc h []).trans (later_decode hd)
    · cases e; exact .refl h

theorem later_failed {h : Heap} {ps : List (Option Nat)} {r : Heap × Option Nat} (e : failed h ps = .ok r) :
    Later h r.1 ∧ r.2 = none := by
  unfold failed at e
  cases hf : freeAll h ps with
  | ub => rw [hf] at e; cases e
  | ok h' => rw [hf, bind'_ok] at e; cases e; exact ⟨later_freeAll hf, rfl⟩

/-! ## What a run that does something tells -/

/-- The nonce a function works with: none when none is configured, else what the configured text decodes to
(specification for /repo/src/brski/pledge/pledge_utils.c:48-65). -/
def NonceIs (e : PledgeEnv) (k : Nat) (n : Option BinArr) : Prop :=
  (e.nonce = none ∧ n = none) ∨
    ∃ s b, e.nonce = some s ∧ n = some (.of b) ∧ BodyDecodes (e.nonceAl k) e.blk s b

theorem NonceIs.wf {e : PledgeEnv} {k : Nat} {n : Option BinArr} (h : NonceIs e k n) : ArgWf n := by
  rcases h with ⟨-, rfl⟩ | ⟨s, b, -, rfl, -⟩
  · intro y hy; cases hy
  · intro y hy; cases hy; exact wf_of b

/-- Sizes that hold on every machine: the local array of the decoder has four bytes and no text is longer than the
address space. -/
def Sized (blk : Bytes) (text : Bytes) : Prop := blk.length = 4 ∧ (cstr text).length < 2 ^ 63

theorem nonce_inv {e : PledgeEnv} {k : Nat} (hs : ∀ s, e.nonce = some s → Sized e.blk s) {h : Heap} {n : NonceBuf}
    (he : readNonce (e.nonceMem k) (e.nonceAl k) e.blk e.nonce h = .ok n) (hok : n.ok = true) : NonceIs e k n.arr := by
  unfold readNonce at he
  cases hn : e.nonce with
  | none => rw [hn] at he; cases he; exact .inl ⟨hn, rfl⟩
  | some s =>
    rw [hn] at he
    simp only at he
    split at he
    · rcases decodeBody_cases (e.nonceAl k) e.blk (hs s hn).1 (h.alloc []).1 s (hs s hn).2 with
        ⟨c, h1, h2⟩ | ⟨h1, h2⟩ | ⟨h1, h2⟩
      · rw [h2, bind'_ok] at he
        cases he
        exact .inr ⟨s, c, hn, rfl, h1⟩
      · rw [h2, bind'_ok] at he; cases he; cases hok
      · rw [h2, bind'_ok] at he; cases he; cases hok
    · cases he; cases hok

/-- A request array was made. -/
theorem requestArray_inv {O : Ossl} {e : PledgeEnv} (hs : ∀ s, e.nonce = some s → Sized e.blk s) {reg : Bytes}
    {h : Heap} {r : Heap × Option Nat} (he : requestArray O e reg h = .ok r) :
    Later h r.1 ∧ ∀ p, r.2 = some p → ∃ t n cms, requestTime e = some t ∧ NonceIs e 0 n ∧
      signPledgeVoucherRequest O e.reqRt (some t) e.serial n (some (.of reg)) e.signCert.arr e.signKey.arr
        e.additional.certs = .ok (some cms) ∧ h.next ≤ p ∧ ∀ b, r.1.blk p = some b → b = cms := by
  unfold requestArray at he
  cases ht : requestTime e with
  | none => rw [ht] at he; cases he; exact ⟨.refl h, fun p hp => by cases hp⟩
  | some t =>
    rw [ht] at he
    simp only at he
    cases hn : readNonce (e.nonceMem 0) (e.nonceAl 0) e.blk e.nonce h with
    | ub => rw [hn] at he; cases he
    | ok n =>
      rw [hn, bind'_ok] at he
      have l1 := later_nonce hn
      by_cases hok : n.ok = true
      · rw [if_pos hok] at he
        cases hc : readFile n.heap e.signCert with
        | ub => rw [hc] at he; cases he
        | ok c =>
          rw [hc, bind'_ok] at he
          have l2 := l1.trans (later_readFile hc)
          obtain ⟨ch, cp⟩ := c
          cases cp with
          | none => obtain ⟨a, b⟩ := later_failed he; exact ⟨l2.trans a, fun p hp => by rw [b] at hp; cases hp⟩
          | some cp =>
            simp only at he
            cases hk : readFile ch e.signKey with
            | ub => rw [hk] at he; cases he
            | ok k =>
              rw [hk, bind'_ok] at he
              have l3 := l2.trans (later_readFile hk)
              obtain ⟨kh, kp⟩ := k
              cases kp with
              | none => obtain ⟨a, b⟩ := later_failed he; exact ⟨l3.trans a, fun p hp => by rw [b] at hp; cases hp⟩
              | some kp =>
                simp only at he
                have l4 := l3.trans (later_loadList kh e.additional)
                by_cases hl : (loadList kh e.additional).2.2 = true
                · rw [if_pos hl] at he
                  cases hr : signPledgeVoucherRequest O e.reqRt (some t) e.serial n.arr (some (.of reg)) e.signCert.arr
                      e.signKey.arr e.additional.certs with
                  | ub => rw [hr] at he; cases he
                  | ok q =>
                    rw [hr, bind'_ok] at he
                    cases q with
                    | none =>
                      obtain ⟨a, b⟩ := later_failed he
                      exact ⟨l4.trans a, fun p hp => by rw [b] at hp; cases hp⟩
                    | some cms =>
                      simp only at he
                      cases hf : freeAll ((loadList kh e.additional).1.alloc cms).1
                          (n.ptrs ++ [some cp, some kp, (loadList kh e.additional).2.1]) with
                      | ub => rw [hf] at he; cases he
                      | ok h' =>
                        rw [hf, bind'_ok] at he
                        cases he
                        have l5 := later_freeAll hf
                        refine ⟨l4.trans ((later_alloc _ cms).trans l5), fun p hp => ?_⟩
                        cases hp
                        refine ⟨t, n.arr, cms, rfl, nonce_inv hs hn hok, hr, l4.next, fun b hb => ?_⟩
                        have := l5.keep _ b (by simp only [Heap.alloc]; omega) hb
                        simp only [Heap.alloc, if_true, Option.some.injEq] at this
                        exact this.symm
                · rw [if_neg hl] at he
                  obtain ⟨a, b⟩ := later_failed he
                  exact ⟨l4.trans a, fun p hp => by rw [b] at hp; cases hp⟩
      · rw [if_neg hok] at he
        obtain ⟨a, b⟩ := later_failed he
        exact ⟨l1.trans a, fun p hp => by rw [b] at hp; cases hp⟩

/-- A request text was made. -/
theorem requestText_inv {O : Ossl} {e : PledgeEnv} (hs : ∀ s, e.nonce = some s → Sized e.blk s) {reg : Bytes}
    {h : Heap} {r : Heap × Option Nat} (he : requestText O e reg h = .ok r) :
    Later h r.1 ∧ ∀ p, r.2 = some p → ∃ t n cms, requestTime e = some t ∧ NonceIs e 0 n ∧
      signPledgeVoucherRequest O e.reqRt (some t) e.serial n (some (.of reg)) e.signCert.arr e.signKey.arr
        e.additional.certs = .ok (some cms) ∧ p < r.1.next ∧ ∀ b, r.1.blk p = some b → cstr b = rfc4648 cms := by
  unfold requestText at he
  cases ha : requestArray O e reg h with
  | ub => rw [ha] at he; cases he
  | ok a =>
    rw [ha, bind'_ok] at he
    obtain ⟨l1, h1⟩ := requestArray_inv hs ha
    obtain ⟨ah, ap⟩ := a
    cases ap with
    | none => cases he; exact ⟨l1, fun p hp => by cases hp⟩
    | some p =>
      obtain ⟨t, n, cms, e1, e2, e3, -, e4⟩ := h1 p rfl
      simp only at he
      cases hb : ah.blk p with
      | none => simp only [Heap.read, hb] at he; cases he
      | some b =>
        have := e4 b hb
        subst this
        simp only [Heap.read, hb, bind'_ok] at he
        cases hx : array2base64str e.reqOut b with
        | ub => rw [hx] at he; cases he
        | ok s =>
          rw [hx, bind'_ok] at he
          cases s with
          | none =>
            obtain ⟨a, c⟩ := later_failed he
            exact ⟨l1.trans a, fun p hp => by rw [c] at hp; cases hp⟩
          | some s =>
            obtain ⟨buf, m⟩ := s
            simp only at he
            cases hf : freeAll (ah.alloc buf).1 [some p] with
            | ub => rw [hf] at he; cases he
            | ok h' =>
              rw [hf, bind'_ok] at he
              cases he
              have l2 := later_freeAll hf
              refine ⟨l1.trans ((later_alloc ah buf).trans l2), fun q hq => ?_⟩
              cases hq
              refine ⟨t, n, b, e1, e2, e3, ?_, fun x hxb => ?_⟩
              · have := l2.next
                simp only [Heap.alloc] at this ⊢
                omega
              · have := l2.keep _ x (by simp only [Heap.alloc]; omega) hxb
                simp only [Heap.alloc, if_true, Option.some.injEq] at this
                rw [← this]
                exact cstr_encoded hx

/-- The verification accepted. -/
theorem verifyRequest_inv {O : Ossl} {e : PledgeEnv} (hs : ∀ s, e.nonce = some s → Sized e.blk s) {cms : BinArr}
    {reg : Bytes} {h : Heap} {r : Heap × Option Nat} (he : verifyRequest O e cms reg h = .ok r) :
    Later h r.1 ∧ ∀ p, r.2 = some p → ∃ n pin, NonceIs e 1 n ∧
      verifyMasaPledgeVoucher O e.verRt (some cms) e.serial n (some (.of reg)) none e.verifyCerts.certs
        e.verifyStore.certs false = .ok (some pin) ∧ p < r.1.next ∧
      ∀ b, r.1.blk p = some b → b = (pin.array.getD []).take pin.length := by
  unfold verifyRequest at he
  cases hn : readNonce (e.nonceMem 1) (e.nonceAl 1) e.blk e.nonce h with
  | ub => rw [hn] at he; cases he
  | ok n =>
    rw [hn, bind'_ok] at he
    have l1 := later_nonce hn
    by_cases hok : n.ok = true
    · rw [if_pos hok] at he
      simp only at he
      have l2 := l1.trans (later_loadLists [e.verifyCerts, e.verifyStore] n.heap)
      generalize hL : loadLists n.heap [e.verifyCerts, e.verifyStore] = L at he l2
      by_cases hl : L.2.2 = true
      · rw [if_pos hl] at he
        cases hr : verifyMasaPledgeVoucher O e.verRt (some cms) e.serial n.arr (some (.of reg)) none e.verifyCerts.certs
            e.verifyStore.certs false with
        | ub => rw [hr] at he; cases he
        | ok q =>
          rw [hr, bind'_ok] at he
          cases q with
          | none =>
            obtain ⟨a, b⟩ := later_failed he
            exact ⟨l2.trans a, fun p hp => by rw [b] at hp; cases hp⟩
          | some pin =>
            simp only at he
            cases hf : freeAll (L.1.alloc ((pin.array.getD []).take pin.length)).1 (n.ptrs ++ L.2.1) with
            | ub => rw [hf] at he; cases he
            | ok h' =>
              rw [hf, bind'_ok] at he
              cases he
              have l3 := later_freeAll hf
              refine ⟨l2.trans ((later_alloc _ _).trans l3), fun p hp => ?_⟩
              cases hp
              refine ⟨n.arr, pin, nonce_inv hs hn hok, hr, ?_, fun b hb => ?_⟩
              · have := l3.next
                simp only [Heap.alloc] at this ⊢
                omega
              · have := l3.keep _ b (by simp only [Heap.alloc]; omega) hb
                simp only [Heap.alloc, if_true, Option.some.injEq] at this
                exact this.symm
      · rw [if_neg hl] at he
        obtain ⟨a, b⟩ := later_failed he
        exact ⟨l2.trans a, fun p hp => by rw [b] at hp; cases hp⟩
    · rw [if_neg hok] at he
      obtain ⟨a, b⟩ := later_failed he
      exact ⟨l1.trans a, fun p hp => by rw [b] at hp; cases hp⟩

theorem giveUp_inv {h : Heap} {ps : List (Option Nat)} {sent : List Msg} {r : Ran} (e : giveUp h ps sent = .ok r) :
    Later h r.heap ∧ r.pinned = none ∧ r.sent = sent := by
  unfold giveUp at e
  cases hf : freeAll h ps with
  | ub => rw [hf] at e; cases e
  | ok h' => rw [hf, bind'_ok] at e; cases e; exact ⟨later_freeAll hf, rfl, rfl⟩

theorem later_peer (h : Heap) (c : Option Bytes) : Later h (peerCert h c).1 := by
  cases c with
  | none => exact .refl h
  | some b => exact later_alloc h b

/-- A buffer of the peer certificate was made. -/
theorem certBuf_inv {mem : Bool} {h : Heap} {c : Option Bytes} {r : Heap × Option Nat}
    (e : certBuf mem (peerCert h c).1 (peerCert h c).2 = .ok r) :
    Later h r.1 ∧ ∀ p, r.2 = some p → ∃ b, c = some b ∧ p < r.1.next ∧ ∀ x, r.1.blk p = some x → x = b := by
  cases c with
  | none => cases e; exact ⟨.refl h, fun p hp => by cases hp⟩
  | some b =>
    have hb : (h.alloc b).1.blk (h.alloc b).2 = some b := by simp [Heap.alloc]
    simp only [peerCert, certBuf, Heap.read, hb, bind'_ok] at e
    split at e
    · cases e
      refine ⟨(later_alloc h b).trans (later_alloc _ b), fun p hp => ?_⟩
      cases hp
      refine ⟨b, rfl, by simp [Heap.alloc], fun x hx => ?_⟩
      simp only [Heap.alloc, if_true, Option.some.injEq] at hx
      exact hx.symm
    · cases e
      exact ⟨later_alloc h b, fun p hp => by cases hp⟩

/-- A text that was not decoded is refused. -/
theorem verify_failed (O : Ossl) (rt : Rt) (serial : Option Bytes) (nonce reg : Option BinArr)
    (dom certs store : Option CertList) :
    verifyMasaPledgeVoucher O rt (some ⟨none, sizeMax⟩) serial nonce reg dom certs store false = .ok none := by
  unfold verifyMasaPledgeVoucher
  cases serial with
  | none => rfl
  | some s =>
    have : verifyCmsVoucher O (rt.json 0) (rt.ok 0) (some ⟨none, sizeMax⟩) certs store false = .ok none := by
      unfold verifyCmsVoucher verifyCms
      simp [sizeMax]
    simp only [this, bind'_ok]

/-- What the pledge checked on the answer `a` before it accepted: the answer is no error, presents the certificate
`r`, its text decodes to `c`, and `c` is an acceptable voucher for the pledge's serial number and nonce that pins `pin`
(specification for /repo/src/brski/pledge/pledge_request.cpp:160-196; RFC 8995 section 5.6.1). -/
def Checked (O : Ossl) (e : PledgeEnv) (a : Answer) (r pin : Bytes) : Prop :=
  a.status < 400 ∧ a.cert = some r ∧ ∃ c s n v, BodyDecodes e.masaAl e.blk a.body c ∧ e.serial = some s ∧
    NonceIs e 1 n ∧ Acceptable O e.verRt c e.verifyCerts.certs e.verifyStore.certs s n v pin ∧ ChainBuilt O r pin none

theorem judge_inv {O : Ossl} (hsm : Small O) {e : PledgeEnv} (hs : ∀ s, e.nonce = some s → Sized e.blk s) {a : Answer}
    (ha : Sized e.blk a.body) {sent : List Msg} {h : Heap} {r : Ran} (he : judge O e a sent h = .ok r) :
    Later h r.heap ∧ r.sent = sent ∧ ∀ p, r.pinned = some p → p < r.heap.next ∧ ∃ c pin, Checked O e a c pin ∧
      ∀ b, r.heap.blk p = some b → b = pin := by
  unfold judge at he
  simp only at he
  have l0 := later_peer h a.cert
  by_cases hst : a.status ≥ 400
  · rw [if_pos hst] at he
    obtain ⟨x, y, z⟩ := giveUp_inv he
    exact ⟨l0.trans x, z, fun p hp => by rw [y] at hp; cases hp⟩
  · rw [if_neg hst] at he
    cases hc : certBuf (e.bufMem 1) (peerCert h a.cert).1 (peerCert h a.cert).2 with
    | ub => rw [hc] at he; cases he
    | ok b =>
      rw [hc, bind'_ok] at he
      obtain ⟨l1, h1⟩ := certBuf_inv hc
      obtain ⟨bh, bp⟩ := b
      cases bp with
      | none =>
        obtain ⟨x, y, z⟩ := giveUp_inv he
        exact ⟨l1.trans x, z, fun p hp => by rw [y] at hp; cases hp⟩
      | some p =>
        obtain ⟨c, hcert, hp1, hp2⟩ := h1 p rfl
        simp only at he
        cases hf : bh.freePtr (peerCert h a.cert).2 with
        | ub => rw [hf] at he; cases he
        | ok h2 =>
          rw [hf, bind'_ok] at he
          have l2 := later_free hf
          cases hd : decodeBody e.masaAl e.blk h2 a.body with
          | ub => rw [hd] at he; cases he
          | ok m =>
            rw [hd, bind'_ok] at he
            have l3 := later_decode hd
            cases hb : m.heap.blk p with
            | none => simp only [Heap.read, hb] at he; cases he
            | some reg =>
              have hreg : reg = c := hp2 reg ((l2.trans l3).keep p reg hp1 hb)
              subst hreg
              simp only [Heap.read, hb, bind'_ok] at he
              cases hv : verifyRequest O e m.arr reg m.heap with
              | ub => rw [hv] at he; cases he
              | ok v =>
                rw [hv, bind'_ok] at he
                obtain ⟨l4, h4⟩ := verifyRequest_inv hs hv
                obtain ⟨vh, vp⟩ := v
                have l14 := l1.trans (l2.trans (l3.trans l4))
                cases vp with
                | none =>
                  obtain ⟨x, y, z⟩ := giveUp_inv he
                  exact ⟨l14.trans x, z, fun p hp => by rw [y] at hp; cases hp⟩
                | some q =>
                  simp only at he
                  cases hf2 : freeAll vh [m.ptr, some p] with
                  | ub => rw [hf2] at he; cases he
                  | ok h5 =>
                    rw [hf2, bind'_ok] at he
                    cases he
                    have l5 := later_freeAll hf2
                    refine ⟨l14.trans l5, rfl, fun q' hq => ?_⟩
                    cases hq
                    obtain ⟨n, pin, hn, hacc, hq1, hq2⟩ := h4 q rfl
                    refine ⟨Nat.lt_of_lt_of_le hq1 l5.next, ?_⟩
                    rcases decodeBody_cases e.masaAl e.blk ha.1 h2 a.body ha.2 with
                      ⟨c', g1, g2⟩ | ⟨g1, g2⟩ | ⟨g1, g2⟩
                    · rw [g2] at hd
                      cases hd
                      have harr : Body.arr ⟨(h2.alloc c').1, some c'.length, some (h2.alloc c').2, c'⟩ = .of c' := rfl
                      rw [harr] at hacc
                      obtain ⟨x, s, v, pb, rr, e1, e2, e3, e4, e5, rfl⟩ := C32_acceptance O hsm e.verRt _ _ _ _ _ _ _ _
                        (fun y hy => by cases hy; exact wf_of c') hn.wf (wf_of reg) _ hacc
                      cases e1
                      have hrr : reg = rr := by simpa [BinArr.of] using congrArg BinArr.array e3
                      subst hrr
                      refine ⟨reg, pb, ⟨by omega, hcert, c', s, n, v, g1, e2, hn, ?_, e5⟩, fun b hb' => ?_⟩
                      · simpa [Props.content, BinArr.of] using e4
                      · have := hq2 b (l5.keep q b hq1 hb')
                        simpa [BinArr.of] using this
                    · rw [g2] at hd
                      cases hd
                      have : Body.arr ⟨h2, none, none, []⟩ = ⟨none, sizeMax⟩ := rfl
                      rw [this, verify_failed] at hacc
                      cases hacc
                    · rw [g2] at hd
                      cases hd
                      have : Body.arr ⟨(burn h2).1, none, some (burn h2).2, []⟩ = ⟨none, sizeMax⟩ := rfl
                      rw [this, verify_failed] at hacc
                      cases hacc

/-- What the pledge asked for: the request `cms` was made for the certificate `r` of the first connection
(specification for /repo/src/brski/pledge/pledge_utils.c:22-111). -/
def Asked (O : Ossl) (e : PledgeEnv) (r cms : Bytes) : Prop :=
  ∃ t n, requestTime e = some t ∧ NonceIs e 0 n ∧
    signPledgeVoucherRequest O e.reqRt (some t) e.serial n (some (.of r)) e.signCert.arr e.signKey.arr
      e.additional.certs = .ok (some cms)

/-- A run of `post_voucher_pledge_request`: either nothing but the empty message was sent, or the request made for the
certificate of the first connection was sent and the answer judged. -/
theorem postVoucher_inv {O : Ossl} (hsm : Small O) {e : PledgeEnv} (hs : ∀ s, e.nonce = some s → Sized e.blk s)
    {net : Net} (hnet : ∀ t a, net.second t = some a → Sized e.blk a.body) {h : Heap} {r : Ran}
    (he : postVoucher O e net h = .ok r) :
    Later h r.heap ∧
    ((r.pinned = none ∧ (r.sent = [] ∨ r.sent = [.voucher []])) ∨
     ∃ a1 r1 cms, net.first = some a1 ∧ a1.cert = some r1 ∧ Asked O e r1 cms ∧
      r.sent = [.voucher [], .voucher (rfc4648 cms)] ∧
      ∀ p, r.pinned = some p → p < r.heap.next ∧ ∃ a2 r2 pin, net.second (rfc4648 cms) = some a2 ∧
        Checked O e a2 r2 pin ∧ ∀ b, r.heap.blk p = some b → b = pin) := by
  unfold postVoucher at he
  split at he
  · cases he; exact ⟨.refl h, .inl ⟨rfl, .inl rfl⟩⟩
  · cases h1 : net.first with
    | none => rw [h1] at he; cases he; exact ⟨.refl h, .inl ⟨rfl, .inr rfl⟩⟩
    | some a1 =>
      rw [h1] at he
      simp only at he
      cases hc : certBuf (e.bufMem 0) (peerCert h a1.cert).1 (peerCert h a1.cert).2 with
      | ub => rw [hc] at he; cases he
      | ok b =>
        rw [hc, bind'_ok] at he
        obtain ⟨l1, g1⟩ := certBuf_inv hc
        obtain ⟨bh, bp⟩ := b
        cases bp with
        | none =>
          obtain ⟨x, y, z⟩ := giveUp_inv he
          exact ⟨l1.trans x, .inl ⟨y, .inr z⟩⟩
        | some p =>
          obtain ⟨c, hcert, hp1, hp2⟩ := g1 p rfl
          simp only at he
          cases hf : bh.freePtr (peerCert h a1.cert).2 with
          | ub => rw [hf] at he; cases he
          | ok h2 =>
            rw [hf, bind'_ok] at he
            have l2 := later_free hf
            cases hb : h2.blk p with
            | none => simp only [Heap.read, hb] at he; cases he
            | some reg =>
              have hreg : reg = c := hp2 reg (l2.keep p reg hp1 hb)
              subst hreg
              simp only [Heap.read, hb, bind'_ok] at he
              cases hq : requestText O e reg h2 with
              | ub => rw [hq] at he; cases he
              | ok q =>
                rw [hq, bind'_ok] at he
                obtain ⟨l3, g3⟩ := requestText_inv hs hq
                obtain ⟨qh, qp⟩ := q
                simp only at he
                cases hf3 : qh.freePtr (some p) with
                | ub => rw [hf3] at he; cases he
                | ok h3 =>
                  rw [hf3, bind'_ok] at he
                  have l4 := later_free hf3
                  have l14 := l1.trans (l2.trans (l3.trans l4))
                  cases qp with
                  | none => cases he; exact ⟨l14, .inl ⟨rfl, .inr rfl⟩⟩
                  | some t =>
                    obtain ⟨tm, n, cms, e1, e2, e3, ht1, ht2⟩ := g3 t rfl
                    simp only at he
                    cases hb3 : h3.blk t with
                    | none => rw [hb3] at he; cases he
                    | some text =>
                      have htext := ht2 text (l4.keep t text ht1 hb3)
                      rw [hb3] at he
                      simp only [bind'_ok] at he
                      cases hf4 : h3.freePtr (some t) with
                      | ub => rw [hf4] at he; cases he
                      | ok h4 =>
                        rw [hf4, bind'_ok, htext] at he
                        have l5 := l14.trans (later_free hf4)
                        cases h2n : net.second (rfc4648 cms) with
                        | none =>
                          rw [h2n] at he
                          cases he
                          exact ⟨l5, .inr ⟨a1, reg, cms, rfl, hcert, ⟨tm, n, e1, e2, e3⟩, rfl, fun p hp => by cases hp⟩⟩
                        | some a2 =>
                          rw [h2n] at he
                          simp only at he
                          obtain ⟨x, y, z⟩ := judge_inv hsm hs (hnet _ a2 h2n) he
                          refine ⟨l5.trans x, .inr ⟨a1, reg, cms, rfl, hcert, ⟨tm, n, e1, e2, e3⟩, y, fun p hp => ?_⟩⟩
                          obtain ⟨z1, c2, pin, z2, z3⟩ := z p hp
                          exact ⟨z1, a2, c2, pin, h2n, z2, z3⟩

end Brski.Pledge
