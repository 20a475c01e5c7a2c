import Verif.PropsVoucherHeap
import Verif.PropsVoucher

/-!
# The records of C09 are what is in memory

The model of the attributes (`Voucher`) holds the bytes behind the pointers, the model of their memory (`VoucherHeap`) the
pointers.  Here the two are put together: whatever the calls do to the memory, what is found behind the pointers is the record.
-/

namespace Brski.Props
open Brski.VoucherHeap Outcome Spec
open Brski.Voucher (Attr BinArr Voucher Call)

/-- What the memory holds is the record: the serial number and the five arrays (pointers replaced by what is behind them). -/
structure Holds (st : St) (v : Voucher) : Prop where
  serial : (contents st .serial).1 = v.serial
  idevid : contents st .idevid = (v.idevidIssuer.array, v.idevidIssuer.length)
  pinned : contents st .pinned = (v.pinned.array, v.pinned.length)
  nonce : contents st .nonce = (v.nonce.array, v.nonce.length)
  prior : contents st .prior = (v.prior.array, v.prior.length)
  proximity : contents st .proximity = (v.proximity.array, v.proximity.length)

/-- A step of the memory and the call it belongs to (`none`: the caller works on their own memory).  A string is a block with a
NUL, of which at most 128 bytes are counted (/repo/src/voucher/voucher.c:205); calls on the plain members do not touch the memory;
the variadic function is the one for the attribute (/repo/src/voucher/voucher.c:291-338). -/
inductive Does (st : St) : Option Op → Option Call → Prop
  | str {p s r al n} : st.heap.blk p = some (s ++ 0 :: r) → (0 : UInt8) ∉ s → n = min s.length 128 →
      Does st (some (.setStr (some p) n (al.malloc (n + 1)).isSome)) (some (.str .serialNumber (some s) al))
  | noStr {n mem al} : Does st (some (.setStr none n mem)) (some (.str .serialNumber none al))
  | array {a p b n al} : st.heap.blk p = some b →
      Does st (some (.setArray a (some p) n (al.malloc n).isSome)) (some (.array a (some ⟨some b, n⟩) al))
  | noArray {a n mem al} : Does st (some (.setArray a none n mem)) (some (.array a (some ⟨none, n⟩) al))
  | clear {a} : Does st (some (.clear a)) (some (.clear a))
  | bool {a x} : Does st none (some (.bool a x))
  | time {a x} : timeOk a x → Does st none (some (.time a x))
  | enum {a x} : Does st none (some (.enum a x))
  | strOther {a x al} : a ≠ .serialNumber → Does st none (some (.str a x al))
  | nullArray {a al} : Does st none (some (.array a none al))
  | va {op a arg al c} : (∀ v, Voucher.setVa al v a arg = c.run v) → Does st op (some c) → Does st op (some (.va a arg al))
  | vaOther {arg al} : Does st none (some (.va .other arg al))
  | caller {op} : isCallerOp op → Does st (some op) none

/-- The memory after a step. -/
def stepMem (st : St) : Option Op → Outcome (St × Bool)
  | none => .ok (st, true)
  | some op => VoucherHeap.step st op

/-- The record after a call. -/
def stepRec (v : Voucher) : Option Call → Outcome (Voucher × Bool)
  | none => .ok (v, true)
  | some c => c.run v

/-- The contract for the memory (nothing to ask where the memory is not touched). -/
def PreMem (st : St) : Option Op → Prop
  | none => True
  | some op => Pre st op

theorem contents_put_other (st : St) {s t : Slot} (h : t ≠ s) (p : Option Nat) (n : Nat) : contents (st.put s p n) t = contents st t := by
  simp [contents, St.put, h]

theorem contents_put_null (st : St) (s : Slot) : contents (st.put s none 0) s = (none, 0) := by simp [contents, St.put]

/-- A new block in one slot leaves the others. -/
theorem contents_alloc_other {h0 : Heap} {st : St} (h : HInv h0 st) {s t : Slot} (hts : t ≠ s) (b : Bytes) (n : Nat) :
    contents (St.put { st with heap := (st.heap.alloc b).1 } s (some (st.heap.alloc b).2) n) t = contents st t := by
  rw [contents_put_other _ hts]
  unfold contents
  simp only
  cases hp : st.ptr t with
  | none => rfl
  | some p =>
    simp only [Option.bind_some, Heap.alloc_blk]
    rw [if_neg]
    have := h.wf p (h.slot t p hp).1
    omega

/-- What `setSlot` leaves in the slot and in the others. -/
theorem setSlot_contents {h0 : Heap} {st : St} (h : HInv h0 st) (s : Slot) {p n : Nat} {b : Bytes} (hb : st.heap.blk p = some b)
    (hn : n ≤ b.length) (mem : Bool) :
    ∃ st', setSlot st s (some p) n mem = .ok (st', mem) ∧ contents st' s = (if mem then (some (b.take n), n) else (none, 0)) ∧
      ∀ t, t ≠ s → contents st' t = contents st t := by
  cases mem with
  | false => exact ⟨_, rfl, contents_put_null st s, fun t ht => contents_put_other st ht _ _⟩
  | true =>
    refine ⟨St.put { st with heap := (st.heap.alloc (b.take n)).1 } s (some (st.heap.alloc (b.take n)).2) n, ?_, ?_, ?_⟩
    · simp only [setSlot, if_true, Heap.read, hb, bind'_ok, if_pos hn]
    · simp [contents, St.put, Heap.alloc]
    · exact fun t ht => contents_alloc_other h ht _ _

/-- The record member behind a slot other than the serial number. -/
def slotMember (v : Voucher) : Slot → BinArr
  | .serial => .empty
  | .idevid => v.idevidIssuer
  | .pinned => v.pinned
  | .nonce => v.nonce
  | .prior => v.prior
  | .proximity => v.proximity

theorem holds_iff (st : St) (v : Voucher) : Holds st v ↔ (contents st .serial).1 = v.serial ∧
    ∀ s, s ≠ .serial → contents st s = ((slotMember v s).array, (slotMember v s).length) := by
  constructor
  · intro h
    refine ⟨h.serial, fun s hs => ?_⟩
    cases s with
    | serial => exact absurd rfl hs
    | idevid => exact h.idevid
    | pinned => exact h.pinned
    | nonce => exact h.nonce
    | prior => exact h.prior
    | proximity => exact h.proximity
  · rintro ⟨h1, h2⟩
    exact ⟨h1, h2 .idevid (by decide), h2 .pinned (by decide), h2 .nonce (by decide), h2 .prior (by decide), h2 .proximity (by decide)⟩

theorem ofAttr_array {a : Attr} {s : Slot} (h : Slot.ofAttr a = some s) (hs : s ≠ .serial) (al : Allocator) (v : Voucher) (x : BinArr)
    (hx : ¬ (x.array.isNone ∧ x.length = 0)) :
    ∃ f : BinArr → Voucher, (∀ y, slotMember (f y) s = y) ∧ (∀ y t, t ≠ s → slotMember (f y) t = slotMember v t) ∧ (∀ y, (f y).serial = v.serial) ∧
      Voucher.setArray al v a (some x) = (Voucher.copyBinaryArray al x).bind fun r => .ok (f r.1, r.2) := by
  have hne : Voucher.arrayNonempty (some x) = true := by simp only [Voucher.arrayNonempty]; rw [if_neg hx]
  cases a <;> simp only [Slot.ofAttr, Option.some.injEq, reduceCtorEq] at h <;> subst h
  · exact absurd rfl hs
  · refine ⟨fun y => { v with idevidIssuer := y }, fun _ => rfl, fun y t ht => ?_, fun _ => rfl, by simp only [Voucher.setArray, hne, if_true]⟩
    cases t <;> first | rfl | exact absurd rfl ht
  · refine ⟨fun y => { v with pinned := y }, fun _ => rfl, fun y t ht => ?_, fun _ => rfl, by simp only [Voucher.setArray, hne, if_true]⟩
    cases t <;> first | rfl | exact absurd rfl ht
  · refine ⟨fun y => { v with nonce := y }, fun _ => rfl, fun y t ht => ?_, fun _ => rfl, by simp only [Voucher.setArray, hne, if_true]⟩
    cases t <;> first | rfl | exact absurd rfl ht
  · refine ⟨fun y => { v with prior := y }, fun _ => rfl, fun y t ht => ?_, fun _ => rfl, by simp only [Voucher.setArray, hne, if_true]⟩
    cases t <;> first | rfl | exact absurd rfl ht
  · refine ⟨fun y => { v with proximity := y }, fun _ => rfl, fun y t ht => ?_, fun _ => rfl, by simp only [Voucher.setArray, hne, if_true]⟩
    cases t <;> first | rfl | exact absurd rfl ht

theorem clear_member {a : Attr} {s : Slot} (h : Slot.ofAttr a = some s) (v : Voucher) :
    (s = .serial → (Voucher.clear v a).serial = none) ∧ (s ≠ .serial → (Voucher.clear v a).serial = v.serial) ∧
    slotMember (Voucher.clear v a) s = .empty ∧ ∀ t, t ≠ s → slotMember (Voucher.clear v a) t = slotMember v t := by
  cases a <;> simp only [Slot.ofAttr, Option.some.injEq, reduceCtorEq] at h <;> subst h <;>
    refine ⟨by simp [Voucher.clear], by simp [Voucher.clear], rfl, fun t ht => ?_⟩ <;>
    cases t <;> first | rfl | exact absurd rfl ht

theorem clear_plain {a : Attr} (h : Slot.ofAttr a = none) (v : Voucher) :
    (Voucher.clear v a).serial = v.serial ∧ ∀ t, slotMember (Voucher.clear v a) t = slotMember v t := by
  cases a <;> simp only [Slot.ofAttr, reduceCtorEq] at h <;> exact ⟨rfl, fun t => by cases t <;> rfl⟩

theorem takeWhile_noNul {s : Bytes} (h : (0 : UInt8) ∉ s) (n : Nat) : (s.take n).takeWhile (· ≠ 0) = s.take n := by
  have : (0 : UInt8) ∉ s.take n := fun hm => h (List.mem_of_mem_take hm)
  revert this
  generalize s.take n = l
  induction l with
  | nil => intro _; rfl
  | cons a l ih =>
    intro hl
    rw [List.takeWhile_cons, if_pos, ih (fun hm => hl (List.mem_cons_of_mem _ hm))]
    simp only [decide_eq_true_eq]
    rintro rfl
    exact hl (.head _)

/-- **C09**, one step: if the memory holds the record before a call, then the call is defined on both, returns the same, and the
memory holds the record after it. -/
theorem C09_step {h0 : Heap} {st : St} {v : Voucher} (hi : HInv h0 st) (hh : Holds st v) {op : Option Op} {c : Option Call}
    (hd : Does st op c) (hp : PreMem st op) :
    ∃ st' v' r r', stepMem st op = .ok (st', r) ∧ stepRec v c = .ok (v', r') ∧ (op.isSome → c.isSome → r = r') ∧ HInv h0 st' ∧
      Holds st' v' := by
  have hinv : ∀ {op st' ret}, PreMem st (some op) → VoucherHeap.step st op = .ok (st', ret) → HInv h0 st' := by
    intro op st' ret hp e
    obtain ⟨s1, r1, e1, h1⟩ := step_ok hi op hp
    rw [e] at e1
    cases e1
    exact h1
  rw [holds_iff] at hh
  induction hd with
  | @str p s r al n hb hs hn =>
    by_cases h128 : n < 128
    · have hlen : n = s.length := by omega
      obtain ⟨st', e, hc, ho⟩ := setSlot_contents hi .serial (n := n) hb (by rw [List.length_append]; omega) (al.malloc (n + 1)).isSome
      have e' : VoucherHeap.step st (.setStr (some p) n (al.malloc (n + 1)).isSome) = .ok (st', (al.malloc (n + 1)).isSome) := by
        simp only [VoucherHeap.step, if_pos h128, e]
      have hsz : szWrap (n + 1) = n + 1 := by unfold szWrap; omega
      have hrec : ∃ v', Voucher.setStr al v .serialNumber (some s) = (v', (al.malloc (n + 1)).isSome) ∧
          v'.serial = (if (al.malloc (n + 1)).isSome then some s else none) ∧ ∀ t, slotMember v' t = slotMember v t := by
        have e0 : Voucher.strnlen s 128 = n := by unfold Voucher.strnlen; exact hn.symm
        simp only [Voucher.setStr, Voucher.setNstr, e0, if_pos h128, Voucher.strndup, hsz]
        cases al.malloc (n + 1) with
        | none => exact ⟨_, rfl, rfl, fun t => by cases t <;> rfl⟩
        | some b =>
          refine ⟨_, rfl, ?_, fun t => by cases t <;> rfl⟩
          simp only [takeWhile_noNul hs]
          simp only [hlen, List.take_length, Option.isSome_some, if_true]
      obtain ⟨v', e2, hv, hm⟩ := hrec
      refine ⟨st', v', _, _, e', by simp only [stepRec, Call.run, e2], fun _ _ => rfl, hinv hp e', (holds_iff _ _).2 ⟨?_, fun t ht => ?_⟩⟩
      · rw [hc, hv]
        cases (al.malloc (n + 1)).isSome with
        | false => rfl
        | true =>
          simp only [if_true]
          rw [hlen, List.take_left]
      · rw [ho t ht, hm, hh.2 t ht]
    · have e' : VoucherHeap.step st (.setStr (some p) n (al.malloc (n + 1)).isSome) = .ok (st, false) := by
        simp only [VoucherHeap.step, if_neg h128]
      have e0 : Voucher.strnlen s 128 = n := by unfold Voucher.strnlen; exact hn.symm
      exact ⟨st, v, false, false, e', by simp only [stepRec, Call.run, Voucher.setStr, Voucher.setNstr, e0, if_neg h128], fun _ _ => rfl, hi,
        (holds_iff _ _).2 hh⟩
  | noStr => exact ⟨st, v, false, false, rfl, rfl, fun _ _ => rfl, hi, (holds_iff _ _).2 hh⟩
  | @array a p b n al hb =>
    obtain ⟨-, b', hb', hn⟩ := hp p rfl
    rw [hb] at hb'
    cases hb'
    have hstep : VoucherHeap.step st (.setArray a (some p) n (al.malloc n).isSome) = match Slot.ofAttr a with
        | some .serial => .ok (st, false)
        | none => .ok (st, false)
        | some s => setSlot st s (some p) n (al.malloc n).isSome := by
      simp only [VoucherHeap.step, Option.isNone_some, Bool.false_eq_true, false_and, if_false]
      rfl
    cases hs : Slot.ofAttr a with
    | none =>
      rw [hs] at hstep
      refine ⟨st, v, false, false, hstep, ?_, fun _ _ => rfl, hi, (holds_iff _ _).2 hh⟩
      cases a <;> first | rfl | (simp only [Slot.ofAttr, reduceCtorEq] at hs)
    | some s =>
      by_cases hser : s = .serial
      · subst hser
        rw [hs] at hstep
        refine ⟨st, v, false, false, hstep, ?_, fun _ _ => rfl, hi, (holds_iff _ _).2 hh⟩
        cases a <;> first | rfl | (simp only [Slot.ofAttr, Option.some.injEq, reduceCtorEq] at hs)
      · obtain ⟨f, f1, f2, f3, f4⟩ := ofAttr_array hs hser al v ⟨some b, n⟩ (by simp)
        obtain ⟨st', e, hc, ho⟩ := setSlot_contents hi s hb hn (al.malloc n).isSome
        have e' : VoucherHeap.step st (.setArray a (some p) n (al.malloc n).isSome) = .ok (st', (al.malloc n).isSome) := by
          rw [hstep, hs]
          cases s <;> first | exact absurd rfl hser | exact e
        have hcopy : Voucher.copyBinaryArray al ⟨some b, n⟩ =
            .ok ((if (al.malloc n).isSome then ⟨some (b.take n), n⟩ else ⟨none, 0⟩), (al.malloc n).isSome) := by
          simp only [Voucher.copyBinaryArray, Voucher.memdup]
          cases al.malloc n with
          | none => rfl
          | some x => simp only [if_pos hn, bind'_ok]; rfl
        rw [hcopy, bind'_ok] at f4
        refine ⟨st', _, _, _, e', f4, fun _ _ => rfl, hinv hp e', (holds_iff _ _).2 ⟨?_, fun t ht => ?_⟩⟩
        · rw [f3, ho .serial (fun h => hser h.symm), hh.1]
        · by_cases hts : t = s
          · subst hts
            rw [hc, f1]
            cases (al.malloc n).isSome <;> rfl
          · rw [ho t hts, f2 _ t hts, hh.2 t ht]
  | @noArray a n mem al =>
    by_cases hn : n = 0
    · subst hn
      exact ⟨st, v, false, false, by simp [stepMem, VoucherHeap.step], by simp [stepRec, Call.run, Voucher.setArray, Voucher.arrayNonempty],
        fun _ _ => rfl, hi,
        (holds_iff _ _).2 hh⟩
    · have hstep : VoucherHeap.step st (.setArray a none n mem) = match Slot.ofAttr a with
          | some .serial => .ok (st, false)
          | none => .ok (st, false)
          | some s => .ok (st.put s none 0, false) := by
        simp only [VoucherHeap.step, hn, and_false, if_false, setSlot]
        rfl
      have hne : Voucher.arrayNonempty (some ⟨none, n⟩) = true := by simp [Voucher.arrayNonempty, hn]
      cases hs : Slot.ofAttr a with
      | none =>
        rw [hs] at hstep
        refine ⟨st, v, false, false, hstep, ?_, fun _ _ => rfl, hi, (holds_iff _ _).2 hh⟩
        cases a <;> first
          | (simp only [stepRec, Call.run, Voucher.setArray, hne, if_true]; done)
          | (simp only [Slot.ofAttr, reduceCtorEq] at hs)
      | some s =>
        by_cases hser : s = .serial
        · subst hser
          rw [hs] at hstep
          refine ⟨st, v, false, false, hstep, ?_, fun _ _ => rfl, hi, (holds_iff _ _).2 hh⟩
          cases a <;> first
            | (simp only [stepRec, Call.run, Voucher.setArray, hne, if_true]; done)
            | (simp only [Slot.ofAttr, Option.some.injEq, reduceCtorEq] at hs)
        · obtain ⟨f, f1, f2, f3, f4⟩ := ofAttr_array hs hser al v ⟨none, n⟩ (by simp [hn])
          have e' : VoucherHeap.step st (.setArray a none n mem) = .ok (st.put s none 0, false) := by
            rw [hstep, hs]
            cases s <;> first | exact absurd rfl hser | rfl
          have hcopy : Voucher.copyBinaryArray al ⟨none, n⟩ = .ok (⟨none, 0⟩, false) := rfl
          rw [hcopy, bind'_ok] at f4
          refine ⟨_, _, _, _, e', f4, fun _ _ => rfl, hinv hp e', (holds_iff _ _).2 ⟨?_, fun t ht => ?_⟩⟩
          · rw [f3, contents_put_other _ (fun h => hser h.symm), hh.1]
          · by_cases hts : t = s
            · subst hts
              rw [contents_put_null, f1]
            · rw [contents_put_other _ hts, f2 _ t hts, hh.2 t ht]
  | @clear a =>
    cases hs : Slot.ofAttr a with
    | none =>
      obtain ⟨h1, h2⟩ := clear_plain hs v
      exact ⟨st, _, true, true, by simp only [stepMem, VoucherHeap.step, hs], rfl, fun _ _ => rfl, hi,
        (holds_iff _ _).2 ⟨by rw [h1, hh.1], fun t ht => by rw [h2, hh.2 t ht]⟩⟩
    | some s =>
      obtain ⟨st', e, hi', -, -, -, hn, -, -, -, ho⟩ := freeSlot_ok hi s
      obtain ⟨h1, h2, h3, h4⟩ := clear_member hs v
      have hc : contents st' s = (none, 0) := by
        unfold freeSlot at e
        split at e
        · cases e
          exact contents_put_null _ _
        · rename_i p hp'
          cases hf : st.heap.free p with
          | ub => rw [hf] at e; cases e
          | ok h =>
            rw [hf, bind'_ok] at e
            cases e
            exact contents_put_null _ _
      refine ⟨st', _, true, true, by simp only [stepMem, VoucherHeap.step, hs, e, bind'_ok], rfl, fun _ _ => rfl, hi', (holds_iff _ _).2 ⟨?_, fun t ht => ?_⟩⟩
      · by_cases hser : s = .serial
        · subst hser
          rw [hc, h1 rfl]
        · rw [ho .serial (fun h => hser h.symm), h2 hser, hh.1]
      · by_cases hts : t = s
        · subst hts
          rw [hc, h3]
          rfl
        · rw [ho t hts, h4 t hts, hh.2 t ht]
  | @bool a x =>
    refine ⟨st, (Voucher.setBool v a x).1, true, (Voucher.setBool v a x).2, rfl, rfl, fun h => (by cases h), hi, (holds_iff _ _).2 ?_⟩
    cases a <;> exact ⟨hh.1, fun t ht => (hh.2 t ht).trans (by cases t <;> rfl)⟩
  | @time a x hx =>
    have : ∃ v' r, Voucher.setTime v a x = .ok (v', r) ∧ v'.serial = v.serial ∧ ∀ t, slotMember v' t = slotMember v t := by
      cases x with
      | some x => cases a <;> exact ⟨_, _, rfl, rfl, fun t => by cases t <;> rfl⟩
      | none => cases a <;> first | exact ⟨_, _, rfl, rfl, fun t => by cases t <;> rfl⟩ | exact absurd hx (by simp [timeOk])
    obtain ⟨v', r, e, h1, h2⟩ := this
    exact ⟨st, v', true, r, rfl, e, fun h => (by cases h), hi,
      (holds_iff _ _).2 ⟨by rw [h1, hh.1], fun t ht => by rw [h2, hh.2 t ht]⟩⟩
  | @enum a x =>
    have : (Voucher.setEnum v a x).1.serial = v.serial ∧ ∀ t, slotMember (Voucher.setEnum v a x).1 t = slotMember v t := by
      cases a <;> first | exact ⟨rfl, fun t => rfl⟩ | skip
      unfold Voucher.setEnum
      simp only
      split
      · exact ⟨rfl, fun t => rfl⟩
      · exact ⟨rfl, fun t => by cases t <;> rfl⟩
    exact ⟨st, (Voucher.setEnum v a x).1, true, (Voucher.setEnum v a x).2, rfl, rfl, fun h => (by cases h), hi,
      (holds_iff _ _).2 ⟨by rw [this.1, hh.1], fun t ht => by rw [this.2, hh.2 t ht]⟩⟩
  | @strOther a x al ha =>
    refine ⟨st, v, true, false, rfl, ?_, fun h => (by cases h), hi, (holds_iff _ _).2 hh⟩
    cases a <;> first | exact absurd rfl ha | rfl
  | nullArray => exact ⟨st, v, true, false, rfl, rfl, fun h => (by cases h), hi, (holds_iff _ _).2 hh⟩
  | vaOther => exact ⟨st, v, true, false, rfl, rfl, fun h => (by cases h), hi, (holds_iff _ _).2 hh⟩
  | va hv _ ih =>
    obtain ⟨st', v', r, r', e1, e2, e3, h⟩ := ih hp
    exact ⟨st', v', r, r', e1, by rw [← e2]; exact hv v, fun a _ => e3 a rfl, h⟩
  | @caller op ho =>
    obtain ⟨st', ret, e, hi'⟩ := step_ok hi op hp
    refine ⟨st', v, ret, true, e, rfl, fun _ h => (by cases h), hi', (holds_iff _ _).2 ⟨?_, fun t ht => ?_⟩⟩
    · rw [caller_contents hi ho hp e, hh.1]
    · rw [caller_contents hi ho hp e, hh.2 t ht]

/-- Histories of a voucher in memory and of the record, with the calls that were made. -/
inductive Together (h0 : Heap) : List Call → St → Voucher → Prop
  | init : Together h0 [] (initVoucher h0 []) Voucher.Voucher.init
  | step {cs st v op c st' v' r r'} : Together h0 cs st v → Does st op c → PreMem st op → stepMem st op = .ok (st', r) →
      stepRec v c = .ok (v', r') → Together h0 (cs ++ c.toList) st' v'

theorem together_holds {h0 : Heap} (hw : h0.Wf) {cs : List Call} {st : St} {v : Voucher} (h : Together h0 cs st v) :
    HInv h0 st ∧ Holds st v := by
  induction h with
  | init => exact ⟨hinv_init hw, ⟨rfl, rfl, rfl, rfl, rfl, rfl⟩⟩
  | step _ hd hp e1 e2 ih =>
    obtain ⟨a, b, r, r', g1, g2, -, g3⟩ := C09_step ih.1 ih.2 hd hp
    rw [e1] at g1
    rw [e2] at g2
    cases g1
    cases g2
    exact g3

theorem runCalls_snoc : ∀ (cs : List Call) {v v1 v2 : Voucher} {c : Call} {rs : List Bool} {r : Bool},
    Voucher.runCalls v cs = .ok (v1, rs) → c.run v1 = .ok (v2, r) → Voucher.runCalls v (cs ++ [c]) = .ok (v2, rs ++ [r]) := by
  intro cs
  induction cs with
  | nil =>
    intro v v1 v2 c rs r h1 h2
    cases h1
    simp only [List.nil_append, Voucher.runCalls, h2, bind'_ok]
  | cons a cs ih =>
    intro v v1 v2 c rs r h1 h2
    rw [Voucher.runCalls] at h1
    cases ha : a.run v with
    | ub => rw [ha] at h1; cases h1
    | ok x =>
      rw [ha, bind'_ok] at h1
      cases hb : Voucher.runCalls x.1 cs with
      | ub => rw [hb] at h1; cases h1
      | ok y =>
        rw [hb, bind'_ok] at h1
        cases h1
        rw [List.cons_append, Voucher.runCalls, ha, bind'_ok, ih hb h2, bind'_ok]
        rfl

/-- **C09** in memory: after every history, whatever the caller did to their own memory and wherever memory ran out, what is found
behind the pointers of the voucher is the record that the calls alone give. -/
theorem C09_memory {h0 : Heap} (hw : h0.Wf) {cs : List Call} {st : St} {v : Voucher} (h : Together h0 cs st v) :
    Holds st v ∧ ∃ rets, Voucher.runCalls Voucher.Voucher.init cs = .ok (v, rets) := by
  refine ⟨(together_holds hw h).2, ?_⟩
  induction h with
  | init => exact ⟨[], rfl⟩
  | @step cs st v op c st' v' r r' _ _ _ _ e2 ih =>
    obtain ⟨rets, hr⟩ := ih
    cases c with
    | none =>
      cases e2
      exact ⟨rets, by rw [Option.toList_none, List.append_nil]; exact hr⟩
    | some c => exact ⟨_, runCalls_snoc cs hr e2⟩

theorem together_alloc {h0 : Heap} {cs : List Call} {st : St} {v : Voucher} (h : Together h0 cs st v) (b : Bytes) :
    ∃ st' p, Together h0 cs st' v ∧ p ∈ st'.caller ∧ st'.heap.blk p = some b := by
  have := Together.step h (op := some (.callerAlloc b)) (.caller trivial) trivial rfl rfl
  rw [Option.toList_none, List.append_nil] at this
  exact ⟨_, st.heap.next, this, List.mem_cons_self, by simp [Heap.alloc]⟩

/-- A call with its step of the memory, after the caller has put the arguments into memory. -/
def Realised (h0 : Heap) (cs : List Call) (v : Voucher) (c : Call) : Prop :=
  ∃ op st, Together h0 cs st v ∧ Does st op (some c) ∧ PreMem st op

theorem realised_str {h0 : Heap} {cs : List Call} {st : St} {v : Voucher} (h : Together h0 cs st v) (a : Attr) (x : Option Bytes)
    (al : Allocator) (hx : strOk x) : Realised h0 cs v (.str a x al) := by
  by_cases ha : a = .serialNumber
  · subst ha
    cases x with
    | none => exact ⟨some (.setStr none 0 true), st, h, .noStr, fun p e => (by cases e)⟩
    | some s =>
      obtain ⟨st', p, h', hc, hb⟩ := together_alloc h (s ++ 0 :: [])
      exact ⟨_, st', h', .str hb (hx s rfl) rfl, fun q e => (by
        cases e
        exact ⟨hc, _, hb, by rw [List.length_append]; omega⟩)⟩
  · exact ⟨none, st, h, .strOther ha, trivial⟩

theorem realised_array {h0 : Heap} {cs : List Call} {st : St} {v : Voucher} (h : Together h0 cs st v) (a : Attr) (x : Option BinArr)
    (al : Allocator) (hx : arrayOk x) : Realised h0 cs v (.array a x al) := by
  cases x with
  | none => exact ⟨none, st, h, .nullArray, trivial⟩
  | some x =>
    obtain ⟨b, n⟩ := x
    have hx := hx _ rfl
    cases b with
    | none => exact ⟨some (.setArray a none n true), st, h, .noArray, fun p e => (by cases e)⟩
    | some b =>
      obtain ⟨st', p, h', hc, hb⟩ := together_alloc h b
      exact ⟨_, st', h', .array hb, fun q e => (by
        cases e
        exact ⟨hc, b, hb, Nat.le_of_eq hx⟩)⟩

theorem realised {h0 : Heap} {cs : List Call} {st : St} {v : Voucher} (h : Together h0 cs st v) (c : Call) (hc : callOk c) :
    Realised h0 cs v c := by
  have va : ∀ {a arg al c}, (∀ v, Voucher.setVa al v a arg = Call.run v c) → Realised h0 cs v c → Realised h0 cs v (.va a arg al) := by
    rintro a arg al c hv ⟨op, st1, h1, h2, h3⟩
    exact ⟨op, st1, h1, .va hv h2, h3⟩
  cases c with
  | bool a x => exact ⟨none, st, h, .bool, trivial⟩
  | time a x => exact ⟨none, st, h, .time hc, trivial⟩
  | enum a x => exact ⟨none, st, h, .enum, trivial⟩
  | str a x al => exact realised_str h a x al hc
  | array a x al => exact realised_array h a x al hc
  | clear a => exact ⟨some (.clear a), st, h, .clear, trivial⟩
  | va a arg al =>
    have ht : ∀ {a x}, x.isSome = true → timeOk a x := fun h _ => h
    cases a <;> cases arg <;> simp only [callOk, vaOk] at hc <;> first
      | exact ⟨none, st, h, .vaOther, trivial⟩
      | exact va (c := .time _ _) (fun _ => rfl) ⟨none, st, h, .time (ht hc), trivial⟩
      | exact va (c := .enum _ _) (fun _ => rfl) ⟨none, st, h, .enum, trivial⟩
      | exact va (c := .bool _ _) (fun _ => rfl) ⟨none, st, h, .bool, trivial⟩
      | exact va (c := .str _ _ al) (fun _ => rfl) (realised_str h _ _ al hc)
      | exact va (c := .array _ _ al) (fun _ => rfl) (realised_array h _ _ al hc)

/-- **C09** in memory, conversely: every sequence of calls that respects the contract can be made, with any behaviour of the
allocator, and the voucher in memory then holds its record. -/
theorem C09_memory_any {h0 : Heap} (hw : h0.Wf) : ∀ (n : Nat) (cs : List Call), cs.length = n → (∀ c ∈ cs, callOk c) →
    ∃ st v, Together h0 cs st v ∧ Holds st v := by
  intro n
  induction n with
  | zero =>
    intro cs hn _
    rw [List.length_eq_zero_iff] at hn
    subst hn
    exact ⟨_, _, .init, (together_holds hw .init).2⟩
  | succ n ih =>
    intro cs hn hok
    obtain ⟨cs', c, rfl⟩ : ∃ cs' c, cs = cs' ++ [c] :=
      ⟨cs.dropLast, cs.getLast (by intro h; rw [h] at hn; cases hn), (List.dropLast_concat_getLast _).symm⟩
    rw [List.length_append] at hn
    obtain ⟨st, v, h, -⟩ := ih cs' (by simpa using hn) (fun c hc => hok c (List.mem_append_left _ hc))
    obtain ⟨op, st1, h1, h2, h3⟩ := realised h c (hok c (List.mem_append_right _ (.head _)))
    obtain ⟨hi, hh⟩ := together_holds hw h1
    obtain ⟨st2, v2, r, r', e1, e2, -, -, hh2⟩ := C09_step hi hh h2 h3
    exact ⟨st2, v2, .step h1 h2 h3 e1 e2, hh2⟩

/-- The conditions of `C09_memory` can be met: a serial number and a nonce are set (for the nonce memory runs out the second
time), then the nonce is gone. -/
example : ∃ st v, Together Heap.empty [.str .serialNumber (some (str "abc")) zeroAllocator,
      .array .nonce (some (.of [1, 2])) zeroAllocator, .array .nonce (some (.of [3])) failAllocator] st v ∧
    Holds st v ∧ v.serial = some (str "abc") ∧ v.nonce = ⟨none, 0⟩ := by
  obtain ⟨st, v, h, hh⟩ := C09_memory_any Heap.wf_empty 3 [.str .serialNumber (some (str "abc")) zeroAllocator,
    .array .nonce (some (.of [1, 2])) zeroAllocator, .array .nonce (some (.of [3])) failAllocator] rfl (by
      intro c hc
      simp only [List.mem_cons, List.not_mem_nil, or_false] at hc
      rcases hc with rfl | rfl | rfl
      · intro s hs
        cases hs
        decide
      · intro y hy
        cases hy
        rfl
      · intro y hy
        cases hy
        rfl)
  refine ⟨st, v, h, hh, ?_⟩
  obtain ⟨-, rets, e⟩ := C09_memory Heap.wf_empty h
  have : (match Voucher.runCalls Voucher.Voucher.init [.str .serialNumber (some (str "abc")) zeroAllocator,
      .array .nonce (some (.of [1, 2])) zeroAllocator, .array .nonce (some (.of [3])) failAllocator] with
    | .ok r => decide (r.1.serial = some (str "abc") ∧ r.1.nonce = ⟨none, 0⟩)
    | .ub => false) = true := by decide +kernel
  rw [e] at this
  exact of_decide_eq_true this

end Brski.Props
