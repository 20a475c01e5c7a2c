import Verif.PropsVoucherHeap

/-!
# C12: exactly which blocks are lost
-/

namespace Brski.Props
open Brski.VoucherHeap Outcome
open Brski.Voucher (Attr BinArr)

/-- The pointers the voucher had before a call and has no more afterwards, unless the call is the one that releases them. -/
def overwritten (st : St) (op : Op) (st' : St) : List Nat :=
  match op with
  | .clear _ => []
  | _ => [Slot.serial, .idevid, .pinned, .nonce, .prior, .proximity].filterMap fun s => if st'.ptr s = st.ptr s then none else st.ptr s

/-- Histories together with the blocks whose pointers were overwritten on the way. -/
inductive ReachLost (h0 : Heap) : St → List Nat → Prop
  | init : ReachLost h0 (initVoucher h0 []) []
  | step {st st' : St} {lost : List Nat} {op : Op} {ret : Bool} : ReachLost h0 st lost → Pre st op →
      VoucherHeap.step st op = .ok (st', ret) → ReachLost h0 st' (overwritten st op st' ++ lost)

/-- The state as if the lost blocks were the caller's. -/
def ghost (st : St) (lost : List Nat) : St := { st with caller := lost ++ st.caller }

theorem hinv_caller {h0 : Heap} {st : St} (h : HInv h0 st) {c : List Nat} (hc : ∀ p, p ∈ c ↔ p ∈ st.caller) :
    HInv h0 { st with caller := c } where
  wf := h.wf
  slot := fun s p e => ⟨(h.slot s p e).1, fun hm => (h.slot s p e).2.1 ((hc p).1 hm), (h.slot s p e).2.2⟩
  inj := h.inj
  self_live := h.self_live
  self_caller := fun hm => h.self_caller ((hc _).1 hm)
  self_new := h.self_new
  caller_live := fun p hp => h.caller_live p ((hc p).1 hp)
  old := h.old
  next_le := h.next_le

theorem tight_caller {h0 : Heap} {st : St} (h : Tight h0 st) {c : List Nat} (hc : ∀ p, p ∈ c ↔ p ∈ st.caller) :
    Tight h0 { st with caller := c } := by
  intro p hp
  rcases h p hp with a | a | a | a
  · exact .inl a
  · exact .inr (.inl ((hc p).2 a))
  · exact .inr (.inr (.inl a))
  · exact .inr (.inr (.inr a))

theorem hinv_add {h0 : Heap} {st : St} (h : HInv h0 st) {q : Nat} (hl : st.heap.Live q) (hs : ∀ s, st.ptr s ≠ some q)
    (hq : q ≠ st.self) (hn : h0.next ≤ q) : HInv h0 { st with caller := q :: st.caller } where
  wf := h.wf
  slot := fun s p e => ⟨(h.slot s p e).1, fun hm => by
    rcases List.mem_cons.1 hm with rfl | hm
    · exact hs s e
    · exact (h.slot s p e).2.1 hm, (h.slot s p e).2.2⟩
  inj := h.inj
  self_live := h.self_live
  self_caller := fun hm => by
    rcases List.mem_cons.1 hm with e | hm
    · exact hq e.symm
    · exact h.self_caller hm
  self_new := h.self_new
  caller_live := fun p hp => by
    rcases List.mem_cons.1 hp with rfl | hp
    · exact ⟨hl, hn⟩
    · exact h.caller_live p hp
  old := h.old
  next_le := h.next_le

theorem overwritten_one {st st' : St} {op : Op} {s : Slot} (hop : ∀ a, op ≠ .clear a) (hs : st'.ptr s = none ∨ st'.ptr s ≠ st.ptr s)
    (ho : ∀ t, t ≠ s → st'.ptr t = st.ptr t) : overwritten st op st' = (st.ptr s).toList := by
  have e : overwritten st op st' =
      [Slot.serial, .idevid, .pinned, .nonce, .prior, .proximity].filterMap fun s => if st'.ptr s = st.ptr s then none else st.ptr s := by
    cases op <;> first | rfl | exact absurd rfl (hop _)
  rw [e]
  have self : (if st'.ptr s = st.ptr s then none else st.ptr s) = st.ptr s := by
    split
    · rename_i h
      rcases hs with h' | h'
      · rw [← h, h']
      · exact absurd h h'
    · rfl
  have other : ∀ t, t ≠ s → (if st'.ptr t = st.ptr t then none else st.ptr t) = none := fun t ht => if_pos (ho t ht)
  cases s <;> simp only [List.filterMap_cons, List.filterMap_nil, self] <;>
    simp only [other .serial, other .idevid, other .pinned, other .nonce, other .prior, other .proximity, ne_eq, reduceCtorEq,
      not_false_eq_true] <;>
    cases st.ptr _ <;> rfl

theorem overwritten_same {st st' : St} {op : Op} (ho : ∀ t, st'.ptr t = st.ptr t) : overwritten st op st' = [] := by
  cases op <;> simp [overwritten, ho]

/-- What is kept up by every call. -/
def Accounted (h0 : Heap) (st : St) (lost : List Nat) : Prop :=
  HInv h0 (ghost st lost) ∧ Tight h0 (ghost st lost) ∧ lost.Nodup ∧ ∀ p ∈ lost, p ∉ st.caller

/-- A slot gets a new pointer (or none). -/
theorem accounted_set {h0 : Heap} {st : St} {lost : List Nat} (h : Accounted h0 st lost) {s : Slot} {src : Option Nat} {n : Nat}
    {mem ret : Bool} {st' : St} (e : setSlot st s src n mem = .ok (st', ret)) :
    Accounted h0 st' ((st.ptr s).toList ++ lost) ∧ (st'.ptr s = none ∨ st'.ptr s ≠ st.ptr s) ∧ ∀ t, t ≠ s → st'.ptr t = st.ptr t := by
  obtain ⟨h1, h2, h3, h4⟩ := h
  have lt : ∀ p, st.heap.Live p → p < st.heap.next := h1.wf
  -- the state without the old pointer among the lost ones
  have base : HInv h0 (ghost st' lost) ∧ st'.caller = st.caller ∧ (st'.ptr s = none ∨ st'.ptr s ≠ st.ptr s) ∧
      (∀ t, t ≠ s → st'.ptr t = st.ptr t) ∧ st'.self = st.self ∧ (∀ q, st.heap.Live q → st'.heap.Live q) ∧
      (∀ q, st'.heap.Live q → st.heap.Live q ∨ st'.ptr s = some q) ∧ ∀ q, st.ptr s = some q → st'.ptr s ≠ some q := by
    by_cases null : st' = st.put s none 0
    · subst null
      exact ⟨hinv_put_null h1 s, rfl, .inl (by simp [St.put]), fun t ht => by simp [St.put, ht], rfl, fun q hq => hq,
        fun q hq => .inl hq, fun q _ => by simp [St.put]⟩
    unfold setSlot at e
    cases src with
    | none => cases e; exact absurd rfl null
    | some p =>
      cases mem with
      | false => cases e; exact absurd rfl null
      | true =>
        simp only [if_true] at e
        cases hr : st.heap.read p with
        | ub => simp [hr] at e
        | ok b =>
          simp only [hr, bind'_ok] at e
          split at e
          · cases e
            have fresh : ∀ q, st.ptr s = some q → q ≠ st.heap.next := fun q hq => Nat.ne_of_lt (lt q (h1.slot s q hq).1)
            refine ⟨hinv_alloc_put h1 s _ n, rfl, .inr ?_, fun t ht => by simp [St.put, ht], rfl, ?_, ?_, ?_⟩
            · simp only [St.put, if_true, Heap.alloc]
              intro hq
              exact fresh _ hq.symm rfl
            · intro q hq
              have := lt q hq
              simp only [St.put, Heap.Live, Heap.alloc]
              rw [if_neg (by omega)]
              exact hq
            · intro q hq
              simp only [St.put, Heap.Live, Heap.alloc] at hq
              split at hq
              · rename_i hqe
                exact .inr (by simp [St.put, Heap.alloc, hqe])
              · exact .inl hq
            · intro q hq
              simp only [St.put, if_true, Heap.alloc, ne_eq, Option.some.injEq]
              exact fun he => fresh q hq he.symm
          · cases e
  obtain ⟨b1, b2, b3, b4, b5, b6, b7, b8⟩ := base
  refine ⟨?_, b3, b4⟩
  cases hs : st.ptr s with
  | none =>
    refine ⟨b1, ?_, h3, fun p hp => by rw [b2]; exact h4 p hp⟩
    intro p hp
    rcases b7 p hp with hl | hl
    · rcases h2 p hl with a | a | a | ⟨t, a⟩
      · exact .inl a
      · exact .inr (.inl (by simp only [ghost, List.nil_append, Option.toList_none, b2] at a ⊢; exact a))
      · exact .inr (.inr (.inl (by simp only [ghost, b5] at a ⊢; exact a)))
      · refine .inr (.inr (.inr ⟨t, ?_⟩))
        have ht : t ≠ s := by rintro rfl; simp only [ghost] at a; rw [hs] at a; cases a
        simp only [ghost] at a ⊢
        rw [b4 t ht, a]
    · exact .inr (.inr (.inr ⟨s, hl⟩))
  | some q =>
    obtain ⟨q1, q2, q3, q4⟩ := h1.slot s q hs
    have hns : ∀ t, st'.ptr t ≠ some q := by
      intro t
      by_cases ht : t = s
      · subst ht; exact b8 q hs
      · rw [b4 t ht]
        intro he
        exact ht (h1.inj t s q he hs)
    refine ⟨?_, ?_, ?_, ?_⟩
    · have := hinv_add (st := ghost st' lost) b1 (q := q) (b6 q q1) hns (by simp only [ghost, b5]; exact q3) q4
      exact this
    · intro p hp
      rcases b7 p hp with hl | hl
      · rcases h2 p hl with a | a | a | ⟨t, a⟩
        · exact .inl a
        · refine .inr (.inl ?_)
          simp only [ghost, b2, Option.toList_some, List.cons_append, List.nil_append] at a ⊢
          exact .tail _ a
        · exact .inr (.inr (.inl (by simp only [ghost, b5] at a ⊢; exact a)))
        · by_cases ht : t = s
          · subst ht
            simp only [ghost] at a
            rw [hs] at a
            cases a
            exact .inr (.inl (.head _))
          · refine .inr (.inr (.inr ⟨t, ?_⟩))
            simp only [ghost] at a ⊢
            rw [b4 t ht, a]
      · exact .inr (.inr (.inr ⟨s, hl⟩))
    · refine List.nodup_cons.2 ⟨fun hm => ?_, h3⟩
      exact q2 (List.mem_append_left _ hm)
    · intro p hp
      rw [b2]
      rcases List.mem_cons.1 hp with rfl | hp
      · exact fun hc => q2 (List.mem_append_right _ hc)
      · exact h4 p hp

theorem reachLost_reach {h0 : Heap} {st : St} {lost : List Nat} (h : ReachLost h0 st lost) : Reach h0 st := by
  induction h with
  | init => exact .init
  | step _ hp e ih => exact .step ih hp e

theorem accounted {h0 : Heap} (hw : h0.Wf) {st : St} {lost : List Nat} (h : ReachLost h0 st lost) : Accounted h0 st lost := by
  induction h with
  | init => exact ⟨hinv_init hw, tight_init hw, List.nodup_nil, fun p hp => (by cases hp)⟩
  | @step st st' lost op ret _ hp e ih =>
    have same : st' = st → Accounted h0 st' (overwritten st op st' ++ lost) := by
      rintro rfl
      rw [overwritten_same fun _ => rfl]
      exact ih
    have set : ∀ {s src n mem}, (∀ a, op ≠ .clear a) → setSlot st s src n mem = .ok (st', ret) →
        Accounted h0 st' (overwritten st op st' ++ lost) := by
      intro s src n mem hop e
      obtain ⟨a, b, c⟩ := accounted_set ih e
      rw [overwritten_one hop b c]
      exact a
    obtain ⟨h1, h2, h3, h4⟩ := ih
    cases op with
    | setStr src n mem =>
      cases src with
      | none => cases e; exact same rfl
      | some p =>
        simp only [VoucherHeap.step] at e
        split at e
        · exact set (fun a h => by cases h) e
        · cases e; exact same rfl
    | setArray a src n mem =>
      simp only [VoucherHeap.step] at e
      split at e
      · cases e; exact same rfl
      · split at e
        · cases e; exact same rfl
        · cases e; exact same rfl
        · exact set (fun a h => by cases h) e
    | clear a =>
      simp only [VoucherHeap.step] at e
      split at e
      · cases e; exact same rfl
      · rename_i s _
        obtain ⟨g, e1, g1, g2, g3, g4, -⟩ := freeSlot_ok h1 s
        have : g = ghost st' lost := by
          unfold freeSlot at e1 e
          cases hps : st.ptr s with
          | none => simp only [ghost, hps] at e1 e; cases e; cases e1; rfl
          | some p =>
            simp only [ghost, hps] at e1 e
            cases hf : st.heap.free p with
            | ub => simp [hf] at e
            | ok hh =>
              simp only [hf, bind'_ok] at e e1
              cases e; cases e1; rfl
        subst this
        have hc : st'.caller = st.caller := by
          have := g3
          simp only [ghost] at this
          exact List.append_cancel_left this
        exact ⟨g1, g2 h2, h3, fun p hp => by rw [hc]; exact h4 p hp⟩
    | callerAlloc b =>
      obtain ⟨g, r, e1, g1⟩ := step_ok h1 (.callerAlloc b) trivial
      cases e
      rw [show ∀ g c, overwritten st (.callerAlloc b) { st with heap := g, caller := c } = [] from fun _ _ => overwritten_same (fun _ => rfl)]
      cases e1
      have hm : ∀ p, p ∈ lost ++ (st.heap.alloc b).2 :: st.caller ↔ p ∈ (st.heap.alloc b).2 :: (lost ++ st.caller) := by
        intro p
        simp only [List.mem_append, List.mem_cons]
        constructor
        · rintro (a | a | a)
          · exact .inr (.inl a)
          · exact .inl a
          · exact .inr (.inr a)
        · rintro (a | a | a)
          · exact .inr (.inl a)
          · exact .inl a
          · exact .inr (.inr a)
      refine ⟨hinv_caller g1 hm, ?_, h3, ?_⟩
      · intro p hpl
        simp only [ghost, Heap.Live, Heap.alloc] at hpl
        split at hpl
        · rename_i hpe
          refine .inr (.inl ?_)
          simp only [ghost, Heap.alloc, hpe, List.nil_append]
          exact List.mem_append_right _ (.head _)
        · rcases h2 p hpl with a | a | a
          · exact .inl a
          · refine .inr (.inl ?_)
            simp only [ghost, List.nil_append] at a ⊢
            rcases List.mem_append.1 a with a | a
            · exact List.mem_append_left _ a
            · exact List.mem_append_right _ (.tail _ a)
          · exact .inr (.inr a)
      · intro p hp hm
        rcases List.mem_cons.1 hm with rfl | hm
        · have := h1.wf _ (h1.caller_live _ (List.mem_append_left _ hp)).1
          simp only [ghost, Heap.alloc] at this
          exact absurd this (by omega)
        · exact h4 p hp hm
    | callerWrite p b =>
      obtain ⟨g, r, e1, g1⟩ := step_ok h1 (.callerWrite p b) (List.mem_append_right _ hp)
      simp only [VoucherHeap.step] at e e1
      cases hwr : st.heap.write p b with
      | ub => simp [hwr] at e
      | ok hh =>
        simp only [ghost, hwr, bind'_ok] at e e1
        cases e; cases e1
        rw [show ∀ g c, overwritten st (.callerWrite p b) { st with heap := g, caller := c } = [] from fun _ _ => overwritten_same (fun _ => rfl)]
        obtain ⟨hl, rfl⟩ := Heap.write_ok_inv hwr
        refine ⟨g1, ?_, h3, h4⟩
        intro q hq
        simp only [ghost, Heap.Live] at hq
        split at hq
        · rename_i heq; subst heq; exact h2 _ hl
        · exact h2 _ hq
    | callerFree p =>
      obtain ⟨g, r, e1, g1⟩ := step_ok h1 (.callerFree p) (List.mem_append_right _ hp)
      simp only [VoucherHeap.step] at e e1
      cases hwr : st.heap.free p with
      | ub => simp [hwr] at e
      | ok hh =>
        simp only [ghost, hwr, bind'_ok] at e e1
        cases e; cases e1
        rw [show ∀ g c, overwritten st (.callerFree p) { st with heap := g, caller := c } = [] from fun _ _ => overwritten_same (fun _ => rfl)]
        obtain ⟨hl, rfl⟩ := Heap.free_ok_inv hwr
        have hm : ∀ q, q ∈ lost ++ st.caller.filter (· ≠ p) ↔ q ∈ (lost ++ st.caller).filter (· ≠ p) := by
          intro q
          simp only [List.mem_append, List.mem_filter]
          constructor
          · rintro (a | a)
            · exact ⟨.inl a, by simpa using fun h : q = p => h4 q a (h ▸ hp)⟩
            · exact ⟨.inr a.1, a.2⟩
          · rintro ⟨a | a, b⟩
            · exact .inl a
            · exact .inr ⟨a, b⟩
        refine ⟨hinv_caller g1 hm, ?_, h3, fun q hq hc => h4 q hq (List.mem_filter.1 hc).1⟩
        intro q hq
        simp only [ghost, Heap.Live] at hq
        split at hq
        · exact absurd rfl hq
        · rename_i hne
          rcases h2 q hq with a | a | a
          · exact .inl a
          · exact .inr (.inl ((hm q).2 (List.mem_filter.2 ⟨a, by simpa using hne⟩)))
          · exact .inr (.inr a)

theorem freeSlot_ghost (st : St) (lost : List Nat) (s : Slot) :
    freeSlot (ghost st lost) s = (freeSlot st s).bind fun st' => .ok (ghost st' lost) := by
  unfold freeSlot
  simp only [ghost]
  cases st.ptr s with
  | none => rfl
  | some p =>
    simp only
    cases st.heap.free p with
    | ub => rfl
    | ok hh => rfl

theorem freeVoucher_ghost (st : St) (lost : List Nat) : freeVoucher (ghost st lost) = freeVoucher st := by
  have key : ∀ (s : Slot) (k : St → Outcome Heap) (k' : St → Outcome Heap), (∀ a, k (ghost a lost) = k' a) → ∀ a,
      (freeSlot (ghost a lost) s).bind k = (freeSlot a s).bind k' := by
    intro s k k' hk a
    rw [freeSlot_ghost]
    cases freeSlot a s with
    | ub => rfl
    | ok b => exact hk b
  unfold freeVoucher
  exact key _ _ _ (key _ _ _ (key _ _ _ (key _ _ _ (key _ _ _ (key _ _ _ fun a => rfl))))) st

/-- **C12**, the exact extent: what is left after `free_voucher` are the blocks that were there before, the caller's, and the blocks
whose pointers were overwritten; the latter are pairwise different, so that each overwritten pointer costs one block. -/
theorem C12_exact (h0 : Heap) (hw : h0.Wf) (st : St) (lost : List Nat) (hr : ReachLost h0 st lost) :
    lost.Nodup ∧ (∀ p ∈ lost, p ∉ st.caller ∧ h0.next ≤ p) ∧
    ∃ h', freeVoucher st = .ok h' ∧ ∀ p, h'.Live p ↔ h0.Live p ∨ p ∈ st.caller ∨ p ∈ lost := by
  obtain ⟨h1, h2, h3, h4⟩ := accounted hw hr
  obtain ⟨h', e, a, b, -, -, f⟩ := freeVoucher_ok h1
  rw [freeVoucher_ghost] at e
  refine ⟨h3, fun p hp => ⟨h4 p hp, (h1.caller_live p (List.mem_append_left _ hp)).2⟩, h', e, fun p => ⟨fun hp => ?_, ?_⟩⟩
  · rcases f h2 p hp with hlt | hc
    · left
      unfold Heap.Live at hp ⊢
      rwa [a p hlt] at hp
    · rcases List.mem_append.1 hc with hc | hc
      · exact .inr (.inr hc)
      · exact .inr (.inl hc)
  · rintro (hp | hp | hp)
    · unfold Heap.Live at hp ⊢
      rw [a p (hw p hp)]
      exact hp
    · have := (h1.caller_live p (List.mem_append_right _ hp)).1
      unfold Heap.Live
      rw [b p (List.mem_append_right _ hp)]
      exact this
    · have := (h1.caller_live p (List.mem_append_left _ hp)).1
      unfold Heap.Live
      rw [b p (List.mem_append_left _ hp)]
      exact this

/-- Every history has its list of lost blocks. -/
theorem C12_exact_any {h0 : Heap} {st : St} (hr : Reach h0 st) : ∃ lost, ReachLost h0 st lost := by
  induction hr with
  | init => exact ⟨[], .init⟩
  | step _ hp e ih =>
    obtain ⟨lost, hl⟩ := ih
    exact ⟨_, .step hl hp e⟩

/-- A history in which one block is lost: the nonce is set twice. -/
example : ∃ st, ReachLost Heap.empty st [2] := by
  have r1 := ReachLost.step (h0 := Heap.empty) .init (op := .callerAlloc [1, 2, 3]) trivial rfl
  have r2 := ReachLost.step r1 (op := .setArray .nonce (some 1) 3 true)
    (by intro p h; cases h; exact ⟨by decide, [1, 2, 3], rfl, by decide⟩) rfl
  have r3 := ReachLost.step r2 (op := .setArray .nonce (some 1) 2 true)
    (by intro p h; cases h; exact ⟨by decide, [1, 2, 3], rfl, by decide⟩) rfl
  exact ⟨_, r3⟩

end Brski.Props
