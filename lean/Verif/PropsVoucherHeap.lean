import Verif.VoucherHeap

/-!
# Properties of voucher memory (C12, C13)
-/

namespace Brski.Props

open Brski.VoucherHeap Outcome
open Brski.Voucher (Attr BinArr)

/-- Ownership invariant: the voucher's blocks are live, pairwise distinct, not the caller's,
and everything that existed before the voucher is untouched. -/
structure HInv (h0 : Heap) (st : St) : Prop where
  wf : st.heap.Wf
  slot : ∀ s p, st.ptr s = some p →
    st.heap.Live p ∧ p ∉ st.caller ∧ p ≠ st.self ∧ h0.next ≤ p
  inj : ∀ s t p, st.ptr s = some p → st.ptr t = some p → s = t
  self_live : st.heap.Live st.self
  self_caller : st.self ∉ st.caller
  self_new : h0.next ≤ st.self
  caller_live : ∀ p, p ∈ st.caller → st.heap.Live p ∧ h0.next ≤ p
  old : ∀ p, p < h0.next → st.heap.blk p = h0.blk p
  next_le : h0.next ≤ st.heap.next

/-- No block is lost: every live block is older than the voucher, the caller's, the voucher
structure, or held by a slot. -/
def Tight (h0 : Heap) (st : St) : Prop :=
  ∀ p, st.heap.Live p → p < h0.next ∨ p ∈ st.caller ∨ p = st.self ∨ ∃ s, st.ptr s = some p

theorem hinv_init {h0 : Heap} (hw : h0.Wf) : HInv h0 (initVoucher h0 []) where
  wf := Heap.alloc_wf hw []
  slot := by intro s p h; simp [initVoucher] at h
  inj := by intro s t p h; simp [initVoucher] at h
  self_live := by simp [initVoucher, Heap.Live, Heap.alloc]
  self_caller := by simp [initVoucher]
  self_new := by simp [initVoucher, Heap.alloc]
  caller_live := by intro p h; simp [initVoucher] at h
  old := by
    intro p h
    simp only [initVoucher, Heap.alloc_blk]
    rw [if_neg (by omega)]
  next_le := by simp [initVoucher, Heap.alloc]

theorem tight_init {h0 : Heap} (hw : h0.Wf) : Tight h0 (initVoucher h0 []) := by
  intro p hp
  simp only [initVoucher, Heap.Live, Heap.alloc_blk] at hp
  split at hp
  · right; right; left; assumption
  · exact Or.inl (hw p hp)

theorem hinv_put_null {h0 : Heap} {st : St} (h : HInv h0 st) (s : Slot) :
    HInv h0 (st.put s none 0) := by
  refine { wf := h.wf, slot := ?_, inj := ?_, self_live := h.self_live,
           self_caller := h.self_caller, self_new := h.self_new, caller_live := h.caller_live,
           old := h.old, next_le := h.next_le }
  · intro t p e
    simp only [St.put] at e
    split at e
    · cases e
    · exact h.slot t p e
  · intro t u p e1 e2
    simp only [St.put] at e1 e2
    split at e1
    · cases e1
    · split at e2
      · cases e2
      · exact h.inj t u p e1 e2

theorem hinv_alloc_put {h0 : Heap} {st : St} (h : HInv h0 st) (s : Slot) (b : Bytes) (n : Nat) :
    HInv h0 (St.put { st with heap := (st.heap.alloc b).1 } s (some (st.heap.alloc b).2) n) := by
  have hfresh := Heap.alloc_fresh h.wf
  have lt : ∀ p, st.heap.Live p → p < st.heap.next := h.wf
  refine { wf := Heap.alloc_wf h.wf b, slot := ?_, inj := ?_, self_live := ?_,
           self_caller := h.self_caller, self_new := h.self_new, caller_live := ?_,
           old := ?_, next_le := ?_ }
  · intro t p e
    simp only [St.put, Heap.alloc] at e ⊢
    split at e
    · cases e
      refine ⟨by simp [Heap.Live], fun hc => ?_, fun hs => ?_, h.next_le⟩
      · exact absurd (lt _ (h.caller_live _ hc).1) (by omega)
      · exact absurd (lt _ h.self_live) (by omega)
    · obtain ⟨h1, h2, h3, h4⟩ := h.slot t p e
      refine ⟨?_, h2, h3, h4⟩
      have := lt p h1
      simp only [Heap.Live]
      rw [if_neg (by omega)]
      exact h1
  · intro t u p e1 e2
    simp only [St.put, Heap.alloc] at e1 e2
    split at e1
    · split at e2
      · rename_i a b; rw [a, b]
      · cases e1
        exact absurd (lt _ (h.slot u _ e2).1) (by omega)
    · split at e2
      · cases e2
        exact absurd (lt _ (h.slot t _ e1).1) (by omega)
      · exact h.inj t u p e1 e2
  · have := lt _ h.self_live
    simp only [St.put, Heap.alloc, Heap.Live]
    rw [if_neg (by omega)]
    exact h.self_live
  · intro p hp
    obtain ⟨h1, h2⟩ := h.caller_live p hp
    have := lt _ h1
    refine ⟨?_, h2⟩
    simp only [St.put, Heap.alloc, Heap.Live]
    rw [if_neg (by omega)]
    exact h1
  · intro p hp
    have := h.next_le
    simp only [St.put, Heap.alloc]
    rw [if_neg (by omega)]
    exact h.old p hp
  · have := h.next_le
    simp only [St.put, Heap.alloc]; omega

theorem tight_alloc_put {h0 : Heap} {st : St} (ht : Tight h0 st) (s : Slot)
    (hs : st.ptr s = none) (b : Bytes) (n : Nat) :
    Tight h0 (St.put { st with heap := (st.heap.alloc b).1 } s (some (st.heap.alloc b).2) n) := by
  intro p hp
  simp only [St.put, Heap.alloc, Heap.Live] at hp ⊢
  split at hp
  · right; right; right; exact ⟨s, by simp_all⟩
  · rcases ht p hp with h1 | h1 | h1 | ⟨t, h1⟩
    · exact Or.inl h1
    · exact Or.inr (Or.inl h1)
    · exact Or.inr (Or.inr (Or.inl h1))
    · refine Or.inr (Or.inr (Or.inr ⟨t, ?_⟩))
      rw [if_neg (by rintro rfl; rw [hs] at h1; cases h1)]
      exact h1

theorem tight_put_null {h0 : Heap} {st : St} (ht : Tight h0 st) (s : Slot)
    (hs : st.ptr s = none) : Tight h0 (st.put s none 0) := by
  intro p hp
  rcases ht p hp with h1 | h1 | h1 | ⟨t, h1⟩
  · exact Or.inl h1
  · exact Or.inr (Or.inl h1)
  · exact Or.inr (Or.inr (Or.inl h1))
  · refine Or.inr (Or.inr (Or.inr ⟨t, ?_⟩))
    simp only [St.put]
    rw [if_neg (by rintro rfl; rw [hs] at h1; cases h1)]
    exact h1

/-- Releasing a slot always works and keeps the invariant. -/
theorem freeSlot_ok {h0 : Heap} {st : St} (h : HInv h0 st) (s : Slot) :
    ∃ st', freeSlot st s = .ok st' ∧ HInv h0 st' ∧ (Tight h0 st → Tight h0 st') ∧
      st'.caller = st.caller ∧ st'.self = st.self ∧ st'.ptr s = none ∧
      (∀ t, st.ptr t = none → st'.ptr t = none) ∧
      (∀ p, st'.heap.Live p → st.heap.Live p) ∧
      (∀ p, p ∈ st.caller → st'.heap.blk p = st.heap.blk p) ∧
      (∀ t, t ≠ s → contents st' t = contents st t) := by
  unfold freeSlot
  cases hp : st.ptr s with
  | none =>
    refine ⟨_, rfl, hinv_put_null h s, fun ht => tight_put_null ht s hp, rfl, rfl, ?_, ?_, ?_, ?_, ?_⟩
    · simp [St.put]
    · intro t e; simp only [St.put]; split <;> first | rfl | exact e
    · intro p hp; exact hp
    · intro p hp; rfl
    · intro t ht; simp [contents, St.put, ht]
  | some q =>
    obtain ⟨hl, hc, hself, hnew⟩ := h.slot s q hp
    simp only [Heap.free_live hl, bind'_ok]
    have base : ∀ p, p ≠ q → (if p = q then none else st.heap.blk p) = st.heap.blk p :=
      fun p hpq => if_neg hpq
    refine ⟨_, rfl, ?_, ?_, rfl, rfl, ?_, ?_, ?_, ?_, ?_⟩
    · refine { wf := ?_, slot := ?_, inj := ?_, self_live := ?_,
               self_caller := h.self_caller, self_new := h.self_new, caller_live := ?_,
               old := ?_, next_le := h.next_le }
      · intro p hp
        simp only [St.put, Heap.Live] at hp
        split at hp
        · exact absurd rfl hp
        · exact h.wf p hp
      · intro t p e
        simp only [St.put] at e
        split at e
        · cases e
        · rename_i hts
          obtain ⟨h1, h2, h3, h4⟩ := h.slot t p e
          have : p ≠ q := by rintro rfl; exact hts (h.inj t s p e hp)
          refine ⟨?_, h2, h3, h4⟩
          simp only [St.put, Heap.Live, base p this]
          exact h1
      · intro t u p e1 e2
        simp only [St.put] at e1 e2
        split at e1
        · cases e1
        · split at e2
          · cases e2
          · exact h.inj t u p e1 e2
      · simp only [St.put, Heap.Live, base _ (Ne.symm hself)]
        exact h.self_live
      · intro p hpc
        obtain ⟨h1, h2⟩ := h.caller_live p hpc
        have : p ≠ q := by rintro rfl; exact hc hpc
        refine ⟨?_, h2⟩
        simp only [St.put, Heap.Live, base p this]
        exact h1
      · intro p hp
        simp only [St.put]
        rw [base p (by omega)]
        exact h.old p hp
    · intro ht p hpl
      simp only [St.put, Heap.Live] at hpl
      split at hpl
      · exact absurd rfl hpl
      · rename_i hpq
        rcases ht p hpl with h1 | h1 | h1 | ⟨t, h1⟩
        · exact Or.inl h1
        · exact Or.inr (Or.inl h1)
        · exact Or.inr (Or.inr (Or.inl h1))
        · refine Or.inr (Or.inr (Or.inr ⟨t, ?_⟩))
          simp only [St.put]
          rw [if_neg (by rintro rfl; rw [hp] at h1; cases h1; exact hpq rfl)]
          exact h1
    · simp [St.put]
    · intro t e; simp only [St.put]; split <;> first | rfl | exact e
    · intro p hpl
      simp only [St.put, Heap.Live] at hpl
      split at hpl
      · exact absurd rfl hpl
      · exact hpl
    · intro p hpc
      simp only [St.put]
      exact base p (by rintro rfl; exact hc hpc)
    · intro t hts
      simp only [contents, St.put, if_neg hts]
      cases e : st.ptr t with
      | none => rfl
      | some p =>
        simp only [Option.bind_some]
        rw [base p (by rintro rfl; exact hts (h.inj t s p e hp))]

/-- One operation within the contract is defined and keeps the invariant. -/
theorem step_ok {h0 : Heap} {st : St} (h : HInv h0 st) (op : Op) (hpre : Pre st op) :
    ∃ st' ret, step st op = .ok (st', ret) ∧ HInv h0 st' := by
  have set : ∀ s src n mem,
      (∀ p, src = some p → p ∈ st.caller ∧ ∃ b, st.heap.blk p = some b ∧ n ≤ b.length) →
      ∃ st' ret, setSlot st s src n mem = .ok (st', ret) ∧ HInv h0 st' := by
    intro s src n mem hp
    unfold setSlot
    cases src with
    | none => exact ⟨_, _, rfl, hinv_put_null h s⟩
    | some p =>
      cases mem with
      | false => exact ⟨_, _, rfl, hinv_put_null h s⟩
      | true =>
        obtain ⟨-, b, e, hn⟩ := hp p rfl
        simp only [if_true, Heap.read, e, bind'_ok, if_pos hn]
        exact ⟨_, _, rfl, hinv_alloc_put h s (b.take n) n⟩
  cases op with
  | setStr src n mem =>
    cases src with
    | none => exact ⟨_, _, rfl, h⟩
    | some p =>
      simp only [step]
      split
      · exact set .serial (some p) n mem hpre
      · exact ⟨_, _, rfl, h⟩
  | setArray a src n mem =>
    simp only [step]
    split
    · exact ⟨_, _, rfl, h⟩
    · split
      · exact ⟨_, _, rfl, h⟩
      · exact ⟨_, _, rfl, h⟩
      · exact set _ src n mem hpre
  | clear a =>
    simp only [step]
    split
    · exact ⟨_, _, rfl, h⟩
    · rename_i s _
      obtain ⟨st', e, hi, -⟩ := freeSlot_ok h s
      rw [e]
      exact ⟨_, _, rfl, hi⟩
  | callerAlloc b =>
    have lt : ∀ p, st.heap.Live p → p < st.heap.next := h.wf
    have ne : ∀ p, st.heap.Live p → (if p = st.heap.next then some b else st.heap.blk p) = st.heap.blk p :=
      fun p hp => if_neg (by have := lt p hp; omega)
    refine ⟨_, _, rfl, ?_⟩
    refine { wf := Heap.alloc_wf h.wf b, slot := ?_, inj := h.inj, self_live := ?_,
             self_caller := ?_, self_new := h.self_new, caller_live := ?_,
             old := ?_, next_le := ?_ }
    · intro s p e
      obtain ⟨h1, h2, h3, h4⟩ := h.slot s p e
      refine ⟨?_, ?_, h3, h4⟩
      · simp only [Heap.Live, Heap.alloc, ne p h1]; exact h1
      · simp only [List.mem_cons, not_or]
        have := lt p h1
        exact ⟨by simp only [Heap.alloc]; omega, h2⟩
    · simp only [Heap.Live, Heap.alloc, ne _ h.self_live]; exact h.self_live
    · simp only [List.mem_cons, not_or]
      have := lt _ h.self_live
      exact ⟨by simp only [Heap.alloc]; omega, h.self_caller⟩
    · intro p hp
      simp only [List.mem_cons] at hp
      rcases hp with rfl | hp
      · exact ⟨by simp [Heap.Live, Heap.alloc], h.next_le⟩
      · obtain ⟨h1, h2⟩ := h.caller_live p hp
        exact ⟨by simp only [Heap.Live, Heap.alloc, ne p h1]; exact h1, h2⟩
    · intro p hp
      have := h.next_le
      simp only [Heap.alloc]
      rw [if_neg (by omega)]
      exact h.old p hp
    · have := h.next_le
      simp only [Heap.alloc]; omega
  | callerWrite p b =>
    simp only [Pre] at hpre
    obtain ⟨c, e⟩ := (h.caller_live p hpre).1.some
    simp only [step, Heap.write, e, bind'_ok]
    have live : ∀ q, (if q = p then some b else st.heap.blk q) ≠ none ↔ st.heap.Live q := by
      intro q
      by_cases hq : q = p
      · subst hq; simp [Heap.Live, e]
      · simp [Heap.Live, hq]
    refine ⟨_, _, rfl, ?_⟩
    refine { wf := ?_, slot := ?_, inj := h.inj, self_live := ?_,
             self_caller := h.self_caller, self_new := h.self_new, caller_live := ?_,
             old := ?_, next_le := h.next_le }
    · intro q hq; exact h.wf q ((live q).1 hq)
    · intro s q eq
      obtain ⟨h1, h2, h3, h4⟩ := h.slot s q eq
      exact ⟨(live q).2 h1, h2, h3, h4⟩
    · exact (live _).2 h.self_live
    · intro q hq
      exact ⟨(live q).2 (h.caller_live q hq).1, (h.caller_live q hq).2⟩
    · intro q hq
      have := (h.caller_live p hpre).2
      simp only
      rw [if_neg (by omega)]
      exact h.old q hq
  | callerFree p =>
    simp only [Pre] at hpre
    have hl := (h.caller_live p hpre).1
    simp only [step, Heap.free_live hl, bind'_ok]
    refine ⟨_, _, rfl, ?_⟩
    refine { wf := ?_, slot := ?_, inj := h.inj, self_live := ?_,
             self_caller := ?_, self_new := h.self_new, caller_live := ?_,
             old := ?_, next_le := h.next_le }
    · intro q hq
      simp only [Heap.Live] at hq
      split at hq
      · exact absurd rfl hq
      · exact h.wf q hq
    · intro s q eq
      obtain ⟨h1, h2, h3, h4⟩ := h.slot s q eq
      have : q ≠ p := by rintro rfl; exact h2 hpre
      refine ⟨?_, ?_, h3, h4⟩
      · simp only [Heap.Live, if_neg this]; exact h1
      · intro hc; exact h2 ((List.mem_filter.1 hc).1)
    · have : st.self ≠ p := by rintro rfl; exact h.self_caller hpre
      simp only [Heap.Live, if_neg this]; exact h.self_live
    · intro hc; exact h.self_caller ((List.mem_filter.1 hc).1)
    · intro q hq
      rw [List.mem_filter] at hq
      have : q ≠ p := by simpa using hq.2
      obtain ⟨h1, h2⟩ := h.caller_live q hq.1
      exact ⟨by simp only [Heap.Live, if_neg this]; exact h1, h2⟩
    · intro q hq
      have := (h.caller_live p hpre).2
      simp only
      rw [if_neg (by omega)]
      exact h.old q hq

theorem reach_inv {h0 : Heap} (hw : h0.Wf) {st : St} (hr : Reach h0 st) : HInv h0 st := by
  induction hr with
  | init => exact hinv_init hw
  | step _ hpre e ih =>
    obtain ⟨st', ret, e', hi⟩ := step_ok ih _ hpre
    rw [e] at e'
    cases e'
    exact hi

/-- `free_voucher` in a state satisfying the invariant. -/
theorem freeVoucher_ok {h0 : Heap} {st : St} (h : HInv h0 st) :
    ∃ h', freeVoucher st = .ok h' ∧
      (∀ p, p < h0.next → h'.blk p = h0.blk p) ∧
      (∀ p, p ∈ st.caller → h'.blk p = st.heap.blk p) ∧
      (∀ s p, st.ptr s = some p → h'.blk p = none) ∧ h'.blk st.self = none ∧
      (Tight h0 st → ∀ p, h'.Live p → p < h0.next ∨ p ∈ st.caller) := by
  obtain ⟨s1, e1, i1, t1, c1, f1, n1, k1, l1, b1, -⟩ := freeSlot_ok h .serial
  obtain ⟨s2, e2, i2, t2, c2, f2, n2, k2, l2, b2, -⟩ := freeSlot_ok i1 .idevid
  obtain ⟨s3, e3, i3, t3, c3, f3, n3, k3, l3, b3, -⟩ := freeSlot_ok i2 .pinned
  obtain ⟨s4, e4, i4, t4, c4, f4, n4, k4, l4, b4, -⟩ := freeSlot_ok i3 .nonce
  obtain ⟨s5, e5, i5, t5, c5, f5, n5, k5, l5, b5, -⟩ := freeSlot_ok i4 .prior
  obtain ⟨s6, e6, i6, t6, c6, f6, n6, k6, l6, b6, -⟩ := freeSlot_ok i5 .proximity
  have cc : s6.caller = st.caller := by rw [c6, c5, c4, c3, c2, c1]
  have ff : s6.self = st.self := by rw [f6, f5, f4, f3, f2, f1]
  have nulls : ∀ s, s6.ptr s = none := by
    intro s
    cases s
    · exact k6 _ (k5 _ (k4 _ (k3 _ (k2 _ n1))))
    · exact k6 _ (k5 _ (k4 _ (k3 _ n2)))
    · exact k6 _ (k5 _ (k4 _ n3))
    · exact k6 _ (k5 _ n4)
    · exact k6 _ n5
    · exact n6
  have eq : freeVoucher st = s6.heap.free s6.self := by
    simp only [freeVoucher, e1, e2, e3, e4, e5, e6, bind'_ok]
  refine ⟨_, eq.trans (Heap.free_live i6.self_live), ?_, ?_, ?_, ?_, ?_⟩
  · intro p hp
    have := i6.self_new
    simp only
    rw [if_neg (by omega)]
    exact i6.old p hp
  · intro p hp
    have hne : p ≠ s6.self := by rintro rfl; rw [ff] at hp; exact h.self_caller hp
    simp only
    rw [if_neg hne, b6 p (by rw [c5, c4, c3, c2, c1]; exact hp), b5 p (by rw [c4, c3, c2, c1]; exact hp),
      b4 p (by rw [c3, c2, c1]; exact hp), b3 p (by rw [c2, c1]; exact hp),
      b2 p (by rw [c1]; exact hp), b1 p hp]
  · intro s p hs
    simp only
    split
    · rfl
    · -- follow the slot to the state in which it is freed
      have key : ∀ (a : St), HInv h0 a → a.ptr s = some p → ∀ a', freeSlot a s = .ok a' →
          a'.heap.blk p = none := by
        intro a ha hp a' e
        have hl := (ha.slot s p hp).1
        simp only [freeSlot, hp, Heap.free_live hl, bind'_ok, ok.injEq] at e
        subst e
        simp [St.put]
      have dead : ∀ (a b : St), (∀ p, b.heap.Live p → a.heap.Live p) → a.heap.blk p = none →
          b.heap.blk p = none := by
        intro a b hl hd
        cases hb : b.heap.blk p with
        | none => rfl
        | some x => exact absurd hd (hl p (by simp [Heap.Live, hb]))
      have stay : ∀ (a b : St) (t : Slot), freeSlot a t = .ok b → t ≠ s → a.ptr s = some p →
          b.ptr s = some p := by
        intro a b t e hts hp
        unfold freeSlot at e
        cases hq : a.ptr t with
        | none => simp only [hq, ok.injEq] at e; subst e; simp [St.put, Ne.symm hts, hp]
        | some q =>
          simp only [hq] at e
          cases hf : a.heap.free q with
          | ub => simp [hf] at e
          | ok hh => simp only [hf, bind'_ok, ok.injEq] at e; subst e; simp [St.put, Ne.symm hts, hp]
      cases s
      · exact dead s5 s6 l6 (dead s4 s5 l5 (dead s3 s4 l4 (dead s2 s3 l3 (dead s1 s2 l2 (key st h hs s1 e1)))))
      · have h1 := stay st s1 _ e1 (by decide) hs
        exact dead s5 s6 l6 (dead s4 s5 l5 (dead s3 s4 l4 (dead s2 s3 l3 (key s1 i1 h1 s2 e2))))
      · have h1 := stay s1 s2 _ e2 (by decide) (stay st s1 _ e1 (by decide) hs)
        exact dead s5 s6 l6 (dead s4 s5 l5 (dead s3 s4 l4 (key s2 i2 h1 s3 e3)))
      · have h1 := stay s2 s3 _ e3 (by decide) (stay s1 s2 _ e2 (by decide) (stay st s1 _ e1 (by decide) hs))
        exact dead s5 s6 l6 (dead s4 s5 l5 (key s3 i3 h1 s4 e4))
      · have h1 := stay s3 s4 _ e4 (by decide) (stay s2 s3 _ e3 (by decide)
          (stay s1 s2 _ e2 (by decide) (stay st s1 _ e1 (by decide) hs)))
        exact dead s5 s6 l6 (key s4 i4 h1 s5 e5)
      · have h1 := stay s4 s5 _ e5 (by decide) (stay s3 s4 _ e4 (by decide) (stay s2 s3 _ e3 (by decide)
          (stay s1 s2 _ e2 (by decide) (stay st s1 _ e1 (by decide) hs))))
        exact key s5 i5 h1 s6 e6
  · simp [ff]
  · intro ht p hp
    have ht6 := t6 (t5 (t4 (t3 (t2 (t1 ht)))))
    simp only [Heap.Live] at hp
    split at hp
    · exact absurd rfl hp
    · rename_i hne
      rcases ht6 p hp with h1 | h1 | h1 | ⟨s, h1⟩
      · exact Or.inl h1
      · rw [cc] at h1; exact Or.inr h1
      · exact absurd h1 hne
      · rw [nulls s] at h1; cases h1

/-! ## C12 -/

/-- **C12**, full statement: after any history of calls within the contract, `free_voucher`
has defined behaviour (no double free) and afterwards every block allocated for the voucher
has been released. -/
def C12_statement : Prop :=
  ∀ (h0 : Heap) (st : St), h0.Wf → Reach h0 st →
    ∃ h', freeVoucher st = .ok h' ∧ ∀ p, h'.Live p → p < h0.next ∨ p ∈ st.caller

/-- A history that sets the nonce twice. -/
def leakOps : List Op :=
  [.callerAlloc [1, 2, 3], .setArray .nonce (some 1) 3 true, .setArray .nonce (some 1) 3 true]

/-- Run a list of operations (/repo/src/voucher/voucher.c:175-267,379-427). -/
def runOps (st : St) : List Op → Outcome St
  | [] => .ok st
  | op :: ops => (step st op).bind fun r => runOps r.1 ops

/-- **C12 is violated**: setting an array attribute a second time without clearing it loses
the first block (`copy_binary_array` overwrites the pointer). -/
theorem C12_violated : ¬ C12_statement := by
  intro h
  have reach1 := Reach.step (h := Heap.empty) Reach.init (op := .callerAlloc [1, 2, 3]) trivial rfl
  have reach2 := Reach.step reach1 (op := .setArray .nonce (some 1) 3 true)
    (by intro p h; cases h; exact ⟨by decide, [1, 2, 3], rfl, by decide⟩) rfl
  have reach3 := Reach.step reach2 (op := .setArray .nonce (some 1) 3 true)
    (by intro p h; cases h; exact ⟨by decide, [1, 2, 3], rfl, by decide⟩) rfl
  obtain ⟨h', e, hh⟩ := h _ _ Heap.wf_empty reach3
  cases e
  have := hh 2 (by unfold Heap.Live; decide)
  revert this
  decide

/-- **C12**, first half: for every history (also with overwritten attributes and memory
exhaustion) `free_voucher` is defined - no block is freed twice -, releases every block the
voucher still refers to and the structure itself, and touches nothing else. -/
theorem C12_partial_no_double_free (h0 : Heap) (hw : h0.Wf) (st : St) (hr : Reach h0 st) :
    ∃ h', freeVoucher st = .ok h' ∧
      (∀ p, p < h0.next → h'.blk p = h0.blk p) ∧
      (∀ p, p ∈ st.caller → h'.blk p = st.heap.blk p) ∧
      (∀ s p, st.ptr s = some p → h'.blk p = none) ∧ h'.blk st.self = none := by
  obtain ⟨h', e, a, b, c, d, -⟩ := freeVoucher_ok (reach_inv hw hr)
  exact ⟨h', e, a, b, c, d⟩

/-- **C12**, first half for the individual calls: every call within the contract is defined
in every reachable state (in particular `clear_attr_voucher` never frees twice). -/
theorem C12_partial_calls_defined (h0 : Heap) (hw : h0.Wf) (st : St) (hr : Reach h0 st) (op : Op)
    (hp : Pre st op) : (step st op).Defined := by
  obtain ⟨st', ret, e, -⟩ := step_ok (reach_inv hw hr) op hp
  exact ⟨_, e⟩

/-- Histories in which an attribute is only set while it is empty (new voucher or after
`clear_attr_voucher`). -/
inductive ReachClean (h0 : Heap) : St → Prop
  | init : ReachClean h0 (initVoucher h0 [])
  | step {st st' : St} {op : Op} {ret : Bool} : ReachClean h0 st → Pre st op →
      (∀ src n mem, op = .setStr src n mem → st.ptr .serial = none) →
      (∀ a src n mem s, op = .setArray a src n mem → Slot.ofAttr a = some s → st.ptr s = none) →
      VoucherHeap.step st op = .ok (st', ret) → ReachClean h0 st'

theorem reachClean_reach {h0 : Heap} {st : St} (h : ReachClean h0 st) : Reach h0 st := by
  induction h with
  | init => exact .init
  | step _ hp _ _ e ih => exact .step ih hp e

theorem setSlot_tight {h0 : Heap} {st st' : St} {s : Slot} {src : Option Nat} {n : Nat} {mem ret : Bool}
    (ht : Tight h0 st) (hs : st.ptr s = none) (e : setSlot st s src n mem = .ok (st', ret)) :
    Tight h0 st' := by
  unfold setSlot at e
  cases src with
  | none => cases e; exact tight_put_null ht s hs
  | some p =>
    cases mem with
    | false => cases e; exact tight_put_null ht s hs
    | true =>
      simp only [if_true] at e
      cases hr : st.heap.read p with
      | ub => simp [hr] at e
      | ok b =>
        simp only [hr, bind'_ok] at e
        split at e
        · cases e; exact tight_alloc_put ht s hs _ n
        · cases e

theorem reachClean_tight {h0 : Heap} (hw : h0.Wf) {st : St} (h : ReachClean h0 st) :
    Tight h0 st := by
  induction h with
  | init => exact tight_init hw
  | @step st st' op ret hc hp h1 h2 e ih =>
    have hinv := reach_inv hw (reachClean_reach hc)
    cases op with
    | setStr src n mem =>
      cases src with
      | none => cases e; exact ih
      | some p =>
        simp only [VoucherHeap.step] at e
        split at e
        · exact setSlot_tight ih (h1 _ _ _ rfl) e
        · cases e; exact ih
    | setArray a src n mem =>
      simp only [VoucherHeap.step] at e
      split at e
      · cases e; exact ih
      · split at e
        · cases e; exact ih
        · cases e; exact ih
        · rename_i s hs
          exact setSlot_tight ih (h2 a src n mem _ rfl hs) e
    | clear a =>
      simp only [VoucherHeap.step] at e
      split at e
      · cases e; exact ih
      · rename_i s _
        obtain ⟨st1, e1, -, ht, -⟩ := freeSlot_ok hinv s
        rw [e1] at e
        cases e
        exact ht ih
    | callerAlloc b =>
      cases e
      intro p hpl
      simp only [Heap.Live, Heap.alloc] at hpl
      split at hpl
      · right; left; simp [Heap.alloc]; left; assumption
      · rcases ih p hpl with a | a | a
        · exact Or.inl a
        · exact Or.inr (Or.inl (by simp [a]))
        · exact Or.inr (Or.inr a)
    | callerWrite p b =>
      simp only [VoucherHeap.step] at e
      cases hwr : st.heap.write p b with
      | ub => simp [hwr] at e
      | ok hh =>
        simp only [hwr, bind'_ok] at e
        cases e
        obtain ⟨hl, rfl⟩ := Heap.write_ok_inv hwr
        intro q hq
        simp only [Heap.Live] at hq
        split at hq
        · rename_i heq; subst heq; exact ih _ hl
        · exact ih _ hq
    | callerFree p =>
      simp only [VoucherHeap.step] at e
      cases hwr : st.heap.free p with
      | ub => simp [hwr] at e
      | ok hh =>
        simp only [hwr, bind'_ok] at e
        cases e
        obtain ⟨hl, rfl⟩ := Heap.free_ok_inv hwr
        intro q hq
        simp only [Heap.Live] at hq
        split at hq
        · exact absurd rfl hq
        · rename_i hne
          rcases ih q hq with a | a | a
          · exact Or.inl a
          · exact Or.inr (Or.inl (by rw [List.mem_filter]; exact ⟨a, by simpa using hne⟩))
          · exact Or.inr (Or.inr a)

/-- **C12**, second half: when attributes are only set while empty, `free_voucher` releases
every block allocated for the voucher. -/
theorem C12_partial_no_leak (h0 : Heap) (hw : h0.Wf) (st : St) (hr : ReachClean h0 st) :
    ∃ h', freeVoucher st = .ok h' ∧ ∀ p, h'.Live p → p < h0.next ∨ p ∈ st.caller := by
  obtain ⟨h', e, -, -, -, -, f⟩ := freeVoucher_ok (reach_inv hw (reachClean_reach hr))
  exact ⟨h', e, f (reachClean_tight hw hr)⟩

/-- non-vacuity of C12: a history with a set, a clear and a set of the same attribute is
clean, and leaves a non-empty slot. -/
example : ∃ st, ReachClean Heap.empty st ∧ contents st .nonce = (some [1, 2], 2) := by
  have r1 := ReachClean.step (h0 := Heap.empty) .init (op := .callerAlloc [1, 2, 3]) trivial
    (by simp) (by simp) rfl
  have r2 := ReachClean.step r1 (op := .setArray .nonce (some 1) 3 true)
    (by intro p h; cases h; exact ⟨by decide, [1, 2, 3], rfl, by decide⟩) (by simp)
    (by rintro a src n mem s h1 h2; cases h1; cases h2; rfl) rfl
  have r3 := ReachClean.step r2 (op := .clear .nonce) trivial (by simp) (by simp) rfl
  have r4 := ReachClean.step r3 (op := .setArray .nonce (some 1) 2 true)
    (by intro p h; cases h; exact ⟨by decide, [1, 2, 3], rfl, by decide⟩) (by simp)
    (by rintro a src n mem s h1 h2; cases h1; cases h2; rfl) rfl
  exact ⟨_, r4, rfl⟩

/-! ## C13 -/

/-- An operation of the caller on its own memory. -/
def isCallerOp : Op → Prop
  | .callerAlloc _ => True
  | .callerWrite _ _ => True
  | .callerFree _ => True
  | _ => False

/-- A sequence of caller operations, each within the contract, leading from one state to
another. -/
inductive CallerRun : St → St → Prop
  | refl {st : St} : CallerRun st st
  | step {st st1 st2 : St} {op : Op} {ret : Bool} : isCallerOp op → Pre st op →
      VoucherHeap.step st op = .ok (st1, ret) → CallerRun st1 st2 → CallerRun st st2

theorem caller_contents {h0 : Heap} {st st' : St} (h : HInv h0 st) {op : Op} {ret : Bool}
    (hop : isCallerOp op) (hp : Pre st op) (e : VoucherHeap.step st op = .ok (st', ret)) (s : Slot) :
    contents st' s = contents st s := by
  cases op with
  | setStr => exact hop.elim
  | setArray => exact hop.elim
  | clear => exact hop.elim
  | callerAlloc b =>
    cases e
    simp only [contents]
    cases hq : st.ptr s with
    | none => rfl
    | some q =>
      have := h.wf q (h.slot s q hq).1
      simp only [Option.bind_some, Heap.alloc]
      rw [if_neg (by omega)]
  | callerWrite p b =>
    simp only [VoucherHeap.step] at e
    cases hwr : st.heap.write p b with
    | ub => simp [hwr] at e
    | ok hh =>
      simp only [hwr, bind'_ok] at e
      cases e
      obtain ⟨hl, rfl⟩ := Heap.write_ok_inv hwr
      simp only [contents]
      cases hq : st.ptr s with
      | none => rfl
      | some q =>
        have : q ≠ p := by rintro rfl; exact (h.slot s q hq).2.1 hp
        simp only [Option.bind_some, if_neg this]
  | callerFree p =>
    simp only [VoucherHeap.step] at e
    cases hwr : st.heap.free p with
    | ub => simp [hwr] at e
    | ok hh =>
      simp only [hwr, bind'_ok] at e
      cases e
      obtain ⟨hl, rfl⟩ := Heap.free_ok_inv hwr
      simp only [contents]
      cases hq : st.ptr s with
      | none => rfl
      | some q =>
        have : q ≠ p := by rintro rfl; exact (h.slot s q hq).2.1 hp
        simp only [Option.bind_some, if_neg this]

/-- **C13**, general form: whatever the caller does with its own memory, in any reachable
state, no attribute of the voucher changes. -/
theorem C13_caller_cannot_change (h0 : Heap) (hw : h0.Wf) (st st' : St) (hr : Reach h0 st)
    (hrun : CallerRun st st') (s : Slot) : contents st' s = contents st s := by
  induction hrun with
  | refl => rfl
  | step hop hp e _ ih =>
    rw [ih (.step hr hp e)]
    exact caller_contents (reach_inv hw hr) hop hp e s

theorem set_contents {h0 : Heap} {st st' : St} (h : HInv h0 st) {a : Attr} {s : Slot} {p n : Nat}
    {b : Bytes} (hs : Slot.ofAttr a = some s) (hb : st.heap.blk p = some b) (hn : n ≤ b.length)
    (e : VoucherHeap.step st (.setArray a (some p) n true) = .ok (st', true)) :
    contents st' s = (some (b.take n), n) := by
  have hput : setSlot st s (some p) n true = .ok (st', true) →
      contents st' s = (some (b.take n), n) := by
    intro e
    simp only [setSlot, if_true, Heap.read, hb, bind'_ok, if_pos hn] at e
    cases e
    simp [contents, St.put, Heap.alloc]
  simp only [VoucherHeap.step, Option.isNone_some, Bool.false_eq_true, false_and, if_false] at e
  cases a <;> simp only [Slot.ofAttr, Option.some.injEq, reduceCtorEq] at hs e <;> subst hs <;>
    first | exact hput e | simp at e

/-- **C13**.  After a successful set of an array attribute from the caller's block, the
voucher holds exactly the first `n` bytes the block had at the time of the call, whatever the
caller writes to or frees afterwards (the caller's own block included). -/
theorem C13_own_copy (h0 : Heap) (hw : h0.Wf) (st st1 st2 : St) (hr : Reach h0 st)
    (a : Attr) (s : Slot) (p n : Nat) (b : Bytes) (hs : Slot.ofAttr a = some s)
    (hp : p ∈ st.caller) (hb : st.heap.blk p = some b) (hn : n ≤ b.length)
    (e : VoucherHeap.step st (.setArray a (some p) n true) = .ok (st1, true))
    (hrun : CallerRun st1 st2) :
    contents st2 s = (some (b.take n), n) := by
  have hpre : Pre st (.setArray a (some p) n true) := by
    rintro q h; cases h; exact ⟨hp, b, hb, hn⟩
  rw [C13_caller_cannot_change h0 hw st1 st2 (.step hr hpre e) hrun s]
  exact set_contents (reach_inv hw hr) hs hb hn e

/-- State after an operation of a demonstration history
(/repo/src/voucher/voucher.c:175-267). -/
def after (st : St) (op : Op) : St :=
  match VoucherHeap.step st op with
  | .ok r => r.1
  | .ub => st

/-- non-vacuity of C13: the caller overwrites and then frees the block it passed. -/
example : ∃ st st1 st2, Reach Heap.empty st ∧ 1 ∈ st.caller ∧ st.heap.blk 1 = some [1, 2, 3] ∧
    VoucherHeap.step st (.setArray .nonce (some 1) 3 true) = .ok (st1, true) ∧
    CallerRun st1 st2 ∧ st2.heap.blk 1 = none ∧ contents st2 .nonce = (some [1, 2, 3], 3) := by
  let s0 := after (initVoucher Heap.empty []) (.callerAlloc [1, 2, 3])
  let s1 := after s0 (.setArray .nonce (some 1) 3 true)
  let s2 := after s1 (.callerWrite 1 [9])
  let s3 := after s2 (.callerFree 1)
  refine ⟨s0, s1, s3, .step .init (op := .callerAlloc [1, 2, 3]) trivial rfl, ?_, rfl, rfl, ?_, rfl, rfl⟩
  · exact List.mem_cons_self
  · exact .step (op := .callerWrite 1 [9]) trivial List.mem_cons_self (st1 := s2) rfl
      (.step (op := .callerFree 1) trivial List.mem_cons_self (st1 := s3) rfl .refl)

end Brski.Props
