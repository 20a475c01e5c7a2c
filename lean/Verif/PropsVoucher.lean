import Verif.SpecVoucher

/-!
# Properties of the voucher record (C09, C10, C11, C25)
-/

namespace Brski.Props

open Brski.Voucher Brski.Spec BoolTime Outcome

/-- Everything the public getters report about attribute `a`
(/repo/src/voucher/voucher.c:349-377,429-518). -/
def observe (v : Voucher) (a : Attr) : View where
  time := getTime v a
  enum := getEnum v a
  text := getStr v a
  bytes := getArray v a
  flag := getBool v a
  nonempty := attrNonempty v a

/-- Agreement of a voucher with an abstract record
(/repo/src/voucher/voucher.c:349-518). -/
def Agrees (v : Voucher) (r : Record) : Prop := ∀ a, observe v a = view r a

theorem timeNonempty_eq (t : Tm) :
    timeNonempty t = decide ({ t with isdst := 0 } ≠ Tm.zero) := by
  unfold timeNonempty Tm.zero
  simp only [ne_eq, Tm.mk.injEq]
  by_cases h : t.year = 0 ∧ t.yday = 0 ∧ t.mon = 0 ∧ t.wday = 0 ∧ t.mday = 0 ∧ t.hour = 0 ∧
      t.min = 0 ∧ t.sec = 0
  · rw [if_pos h]; obtain ⟨h1, h2, h3, h4, h5, h6, h7, h8⟩ := h
    symm; rw [decide_eq_false_iff_not]; simp [h1, h2, h3, h4, h5, h6, h7, h8]
  · rw [if_neg h]; symm; rw [decide_eq_true_eq]; intro ⟨h1, h2, h3, h4, h5, h6, h7, h8, _⟩
    exact h ⟨h6, h8, h5, h7, h4, h3, h2, h1⟩

theorem view_congr {r r' : Record} {a : Attr} (h : r a = r' a) : view r a = view r' a := by
  cases a <;> simp only [view, h]

theorem view_update_ne {r : Record} {a b : Attr} {x : Option Val} (h : b ≠ a) :
    view (fun y => if y = a then x else r y) b = view r b := view_congr (by simp [h])

theorem agrees_init : Agrees Voucher.init blank := by
  intro a; cases a <;> first | rfl | decide

/-- If only attribute `a` of the voucher changed and it now reads as `x`, then the voucher
agrees with the updated record. -/
theorem agrees_update {v v' : Voucher} {r : Record} {a : Attr} {x : Option Val}
    (h : Agrees v r) (hne : ∀ b, b ≠ a → observe v' b = observe v b)
    (ha : observe v' a = view (fun _ => x) a) :
    Agrees v' (fun y => if y = a then x else r y) := by
  intro b
  by_cases hb : b = a
  · subst hb; rw [ha]; exact view_congr (by simp)
  · rw [view_update_ne hb, hne b hb, h b]

theorem memdup_ok {al : Allocator} (hal : ∀ n, al.malloc n ≠ none) (b : Bytes) :
    memdup al (some b) b.length = .ok (some b) := by
  unfold memdup
  cases h : al.malloc b.length with
  | none => exact absurd h (hal _)
  | some _ => simp

theorem copy_ok {al : Allocator} (hal : ∀ n, al.malloc n ≠ none) (b : Bytes) :
    copyBinaryArray al ⟨some b, b.length⟩ = .ok (⟨some b, b.length⟩, true) := by
  simp [copyBinaryArray, memdup_ok hal]

theorem takeWhile_all {s : Bytes} (h : (0 : UInt8) ∉ s) : s.takeWhile (· ≠ 0) = s := by
  induction s with
  | nil => rfl
  | cons c s ih =>
    simp only [List.mem_cons, not_or] at h
    rw [List.takeWhile_cons_of_pos (by simpa using fun h' => h.1 h'.symm), ih h.2]

theorem strndup_ok {al : Allocator} (hal : ∀ n, al.malloc n ≠ none) {s : Bytes}
    (h : (0 : UInt8) ∉ s) : strndup al s s.length = some s := by
  unfold strndup
  cases h' : al.malloc (szWrap (s.length + 1)) with
  | none => exact absurd h' (hal _)
  | some _ => simp only [List.take_length, takeWhile_all h]

/-- Simulation of one call. -/
def Sim (o : Outcome (Voucher × Bool)) (r : Record × Bool) : Prop :=
  ∃ v', o = .ok (v', r.2) ∧ Agrees v' r.1

theorem sim_same {v : Voucher} {r : Record} (h : Agrees v r) : Sim (.ok (v, false)) (r, false) :=
  ⟨v, rfl, h⟩

theorem sim_bool {v : Voucher} {r : Record} (h : Agrees v r) (a : Attr) (x : Bool) :
    Sim (.ok (setBool v a x))
      (if fits a (.flag x) then (fun y => if y = a then some (.flag x) else r y, true)
       else (r, false)) := by
  cases a <;> simp only [fits, setBool, if_true, Bool.false_eq_true, if_false] <;>
    first
    | exact sim_same h
    | (refine ⟨_, rfl, agrees_update h ?_ rfl⟩; intro b hb; cases b <;> first | rfl | exact absurd rfl hb)

theorem sim_time {v : Voucher} {r : Record} (h : Agrees v r) (a : Attr) (x : Option Tm)
    (ok : timeOk a x) :
    Sim (setTime v a x)
      (match x.map fun t => (a, Val.time t) with
       | none => (r, false)
       | some (a, v) =>
         if fits a v then (fun x => if x = a then some v else r x, true) else (r, false)) := by
  cases x with
  | none =>
    simp only [timeOk, Option.isSome_none, Bool.false_eq_true] at ok
    cases a <;> simp only [setTime, Option.map_none] <;> first | exact sim_same h | simp at ok
  | some t =>
    cases a <;> simp only [fits, setTime, if_true, Bool.false_eq_true, if_false, Option.map_some] <;>
      first
      | exact sim_same h
      | (refine ⟨_, rfl, agrees_update h ?_ ?_⟩
         · intro b hb; cases b <;> first | rfl | exact absurd rfl hb
         · simp only [observe, view, View.none, getTime, getEnum, getStr, getArray, getBool,
             attrNonempty, timeNonempty_eq])

theorem sim_enum {v : Voucher} {r : Record} (h : Agrees v r) (a : Attr) (n : Int) :
    Sim (.ok (setEnum v a n))
      (if fits a (.enum n) then (fun y => if y = a then some (.enum n) else r y, true)
       else (r, false)) := by
  by_cases ha : a = .assertion
  · subst ha
    simp only [fits, setEnum, decide_eq_true_eq]
    by_cases hn : n < 1 ∨ n > 3
    · rw [if_pos hn, if_neg (by omega)]; exact sim_same h
    · rw [if_neg hn, if_pos (by omega)]
      refine ⟨_, rfl, agrees_update h ?_ ?_⟩
      · intro b hb; cases b <;> first | rfl | exact absurd rfl hb
      · have : n ≠ 0 := by omega
        simp [observe, view, View.none, getTime, getEnum, getStr, getArray, getBool, attrNonempty, this]
  · cases a <;> first | exact absurd rfl ha | exact sim_same h

theorem sim_str {v : Voucher} {r : Record} (h : Agrees v r) (a : Attr) (x : Option Bytes)
    (al : Allocator) (hal : ∀ n, al.malloc n ≠ none) (ok : strOk x) :
    Sim (.ok (setStr al v a x))
      (match x.map fun s => (a, Val.text s) with
       | none => (r, false)
       | some (a, v) =>
         if fits a v then (fun x => if x = a then some v else r x, true) else (r, false)) := by
  cases x with
  | none => cases a <;> exact sim_same h
  | some s =>
    have hs : (0 : UInt8) ∉ s := ok s rfl
    by_cases ha : a = .serialNumber
    · subst ha
      simp only [Option.map_some, fits, setStr, setNstr, decide_eq_true_eq]
      by_cases hl : s.length ≤ 127
      · have : strnlen s 128 = s.length := by unfold strnlen; omega
        simp only [if_pos hl, this, strndup_ok hal hs]
        rw [if_pos (show s.length < 128 by omega)]
        refine ⟨_, rfl, agrees_update h ?_ ?_⟩
        · intro b hb; cases b <;> first | rfl | exact absurd rfl hb
        · simp [observe, view, View.none, getTime, getEnum, getStr, getArray, getBool, attrNonempty]
      · have : strnlen s 128 = 128 := by unfold strnlen; omega
        rw [if_neg hl, if_neg (show ¬ strnlen s 128 < 128 by omega)]; exact sim_same h
    · cases a <;> first | exact absurd rfl ha | exact sim_same h

theorem sim_array {v : Voucher} {r : Record} (h : Agrees v r) (a : Attr) (x : Option BinArr)
    (al : Allocator) (hal : ∀ n, al.malloc n ≠ none) (ok : arrayOk x) :
    Sim (setArray al v a x)
      (match x.bind fun y => y.array.map fun b => (a, Val.bytes b) with
       | none => (r, false)
       | some (a, v) =>
         if fits a v then (fun x => if x = a then some v else r x, true) else (r, false)) := by
  cases x with
  | none => exact sim_same h
  | some y =>
    have oky := ok y rfl
    obtain ⟨arr, len⟩ := y
    cases arr with
    | none =>
      simp only at oky
      subst oky
      simp only [setArray, arrayNonempty, Option.bind_some, Option.map_none, Option.isNone_none,
        and_self, if_true, Bool.false_eq_true, if_false]
      exact sim_same h
    | some b =>
      simp only at oky
      subst oky
      simp only [setArray, arrayNonempty, Option.bind_some, Option.map_some, Option.isNone_some,
        Bool.false_eq_true, false_and, if_false, if_true, copy_ok hal, bind'_ok]
      cases a <;> simp only [fits, if_true, Bool.false_eq_true, if_false] <;>
        first
        | exact sim_same h
        | (refine ⟨_, rfl, agrees_update h ?_ ?_⟩
           · intro b hb; cases b <;> first | rfl | exact absurd rfl hb
           · simp [observe, view, View.none, getTime, getEnum, getStr, getArray, getBool,
               attrNonempty, arrayNonempty])

theorem sim_clear {v : Voucher} {r : Record} (h : Agrees v r) (a : Attr) :
    Sim (.ok (clear v a, true)) (fun x => if x = a then none else r x, true) := by
  refine ⟨_, rfl, agrees_update h ?_ ?_⟩
  · intro b hb
    cases a <;> first | rfl | (cases b <;> first | rfl | exact absurd rfl hb)
  · cases a <;> first | rfl | decide

theorem sim_step {v : Voucher} {r : Record} (h : Agrees v r) (c : Call) (ok : callOk c)
    (mem : memOk c) : Sim (c.run v) (step r c) := by
  cases c with
  | bool a x => exact sim_bool h a x
  | time a x => exact sim_time h a x ok
  | enum a x => exact sim_enum h a x
  | str a x al => exact sim_str h a x al mem ok
  | array a x al => exact sim_array h a x al mem ok
  | clear a => exact sim_clear h a
  | va a x al =>
    simp only [memOk] at mem
    cases x <;> rename_i x <;> cases a <;> simp only [callOk, vaOk] at ok <;>
      simp only [Call.run, setVa, step, offer] <;>
      first
      | exact sim_time h _ _ (fun _ => ok)
      | exact sim_bool h _ _
      | exact sim_enum h _ _
      | exact sim_str h _ _ al mem ok
      | exact sim_array h _ _ al mem ok
      | exact sim_same h
      | (cases x with
         | none => exact sim_same h
         | some y => first
            | exact sim_same h
            | (obtain ⟨arr, len⟩ := y; cases arr <;> exact sim_same h))

/-- **C09**.  After any sequence of attribute calls that respect the documented contract
(memory available) the behaviour is that of the abstract typed record: same return values,
and every getter reports, for every attribute, the last successfully set value or "unset". -/
theorem C09_typed_record (cs : List Call) (ok : ∀ c ∈ cs, callOk c) (mem : ∀ c ∈ cs, memOk c) :
    ∃ v, runCalls Voucher.init cs = .ok (v, (steps blank cs).2) ∧
      ∀ a, observe v a = view (steps blank cs).1 a := by
  suffices ∀ v r, Agrees v r → ∃ v', runCalls v cs = .ok (v', (steps r cs).2) ∧
      Agrees v' (steps r cs).1 from this _ _ agrees_init
  induction cs with
  | nil => intro v r h; exact ⟨v, rfl, h⟩
  | cons c cs ih =>
    intro v r h
    obtain ⟨v1, e1, h1⟩ := sim_step h c (ok c (by simp)) (mem c (by simp))
    obtain ⟨v2, e2, h2⟩ := ih (fun c hc => ok c (by simp [hc])) (fun c hc => mem c (by simp [hc]))
      v1 _ h1
    refine ⟨v2, ?_, h2⟩
    simp only [runCalls, e1, bind'_ok, e2, steps]

/-- Demonstration history for C09: a wrong-kind set, two serial numbers (one too long), a
nonce, and a cleared assertion. -/
def demoCalls : List Call :=
  [.bool .nonce true, .str .serialNumber (some (str "12345")) zeroAllocator,
   .str .serialNumber (some (List.replicate 128 65)) zeroAllocator,
   .va .nonce (.array (some ⟨some [1, 2, 3], 3⟩)) zeroAllocator,
   .enum .assertion 3, .clear .assertion]

/-- non-vacuity of C09: the demonstration history meets the hypotheses. -/
example : (∀ c ∈ demoCalls, callOk c) ∧ (∀ c ∈ demoCalls, memOk c) := by
  have hz : ∀ n, zeroAllocator.malloc n ≠ none := by intro n h; cases h
  constructor
  · intro c hc
    simp only [demoCalls, List.mem_cons, List.not_mem_nil, or_false] at hc
    rcases hc with rfl | rfl | rfl | rfl | rfl | rfl
    · trivial
    · intro s hs; cases hs; decide
    · intro s hs; cases hs; simp [List.mem_replicate]
    · intro y hy; cases hy; rfl
    · trivial
    · trivial
  · intro c hc
    simp only [demoCalls, List.mem_cons, List.not_mem_nil, or_false] at hc
    rcases hc with rfl | rfl | rfl | rfl | rfl | rfl
    · trivial
    · exact hz
    · exact hz
    · exact hz
    · trivial
    · trivial

/-- and its outcome is the expected one. -/
example : (steps blank demoCalls).2 = [false, true, false, true, true, true] ∧
    (view (steps blank demoCalls).1 .serialNumber).text = some (some (str "12345")) ∧
    (view (steps blank demoCalls).1 .nonce).bytes = some ⟨some [1, 2, 3], 3⟩ ∧
    (view (steps blank demoCalls).1 .assertion).enum = some 0 := by decide +kernel

/-- **C09**, independence form: for all arguments and all allocation outcomes a call changes
at most the attribute it names. -/
def named : Call → Attr
  | .bool a _ => a
  | .time a _ => a
  | .enum a _ => a
  | .str a _ _ => a
  | .array a _ _ => a
  | .va a _ _ => a
  | .clear a => a

theorem setBool_frame (v : Voucher) (a : Attr) (x : Bool) (b : Attr) (hb : b ≠ a) :
    observe (setBool v a x).1 b = observe v b := by
  cases a <;> first | rfl | (cases b <;> first | rfl | exact absurd rfl hb)

theorem setEnum_frame (v : Voucher) (a : Attr) (x : Int) (b : Attr) (hb : b ≠ a) :
    observe (setEnum v a x).1 b = observe v b := by
  cases a <;> first | rfl | skip
  simp only [setEnum]
  split
  · rfl
  · cases b <;> first | rfl | exact absurd rfl hb

theorem setTime_frame (v v' : Voucher) (a : Attr) (x : Option Tm) (ret : Bool)
    (h : setTime v a x = .ok (v', ret)) (b : Attr) (hb : b ≠ a) : observe v' b = observe v b := by
  cases x <;> cases a <;>
    simp only [setTime, ok.injEq, Prod.mk.injEq, reduceCtorEq] at h <;>
    first
    | (obtain ⟨rfl, -⟩ := h; first | rfl | (cases b <;> first | rfl | exact absurd rfl hb))

theorem setStr_frame (al : Allocator) (v : Voucher) (a : Attr) (x : Option Bytes) (b : Attr)
    (hb : b ≠ a) : observe (setStr al v a x).1 b = observe v b := by
  cases a <;> first | rfl | skip
  simp only [setStr, setNstr]
  split
  · rfl
  · split
    · split <;> (cases b <;> first | rfl | exact absurd rfl hb)
    · rfl

theorem setArray_frame (al : Allocator) (v v' : Voucher) (a : Attr) (x : Option BinArr) (ret : Bool)
    (h : setArray al v a x = .ok (v', ret)) (b : Attr) (hb : b ≠ a) :
    observe v' b = observe v b := by
  unfold setArray at h
  cases x with
  | none => simp only [ok.injEq, Prod.mk.injEq] at h; rw [h.1]
  | some x =>
    simp only at h
    split at h
    · cases hc : copyBinaryArray al x with
      | ub =>
        simp only [hc, bind'_ub] at h
        cases a <;> simp only [reduceCtorEq, ok.injEq, Prod.mk.injEq] at h <;> rw [h.1]
      | ok r =>
        simp only [hc, bind'_ok] at h
        cases a <;> simp only [ok.injEq, Prod.mk.injEq] at h <;> obtain ⟨rfl, -⟩ := h <;>
          first | rfl | (cases b <;> first | rfl | exact absurd rfl hb)
    · simp only [ok.injEq, Prod.mk.injEq] at h; rw [h.1]

theorem C09_independence (v v' : Voucher) (c : Call) (ret : Bool) (h : c.run v = .ok (v', ret))
    (b : Attr) (hb : b ≠ named c) : observe v' b = observe v b := by
  cases c with
  | bool a x =>
    simp only [Call.run, ok.injEq] at h; rw [← setBool_frame v a x b hb, h]
  | time a x => exact setTime_frame v v' a x ret h b hb
  | enum a x =>
    simp only [Call.run, ok.injEq] at h; rw [← setEnum_frame v a x b hb, h]
  | str a x al =>
    simp only [Call.run, ok.injEq] at h; rw [← setStr_frame al v a x b hb, h]
  | array a x al => exact setArray_frame al v v' a x ret h b hb
  | clear a =>
    simp only [Call.run, ok.injEq, Prod.mk.injEq] at h
    obtain ⟨rfl, -⟩ := h
    simp only [named] at hb
    cases a <;> first | rfl | (cases b <;> first | rfl | exact absurd rfl hb)
  | va a x al =>
    simp only [Call.run] at h
    simp only [named] at hb
    cases x with
    | time t =>
      cases a <;> simp only [setVa, reduceCtorEq] at h <;>
        first | exact setTime_frame v v' _ _ ret h b hb | (simp only [ok.injEq, Prod.mk.injEq] at h; rw [h.1])
    | int n =>
      cases a <;> simp only [setVa, reduceCtorEq, ok.injEq] at h <;>
        first
        | (rw [← setEnum_frame v _ n b hb, h])
        | (rw [← setBool_frame v _ _ b hb, h])
        | (simp only [Prod.mk.injEq] at h; rw [h.1])
    | str s =>
      cases a <;> simp only [setVa, reduceCtorEq, ok.injEq] at h <;>
        first
        | (rw [← setStr_frame al v _ s b hb, h])
        | (simp only [Prod.mk.injEq] at h; rw [h.1])
    | array y =>
      cases a <;> simp only [setVa, reduceCtorEq] at h <;>
        first
        | exact setArray_frame al v v' _ _ ret h b hb
        | (simp only [ok.injEq, Prod.mk.injEq] at h; rw [h.1])

/-- non-vacuity of C09_independence: a set that runs out of memory still touches only the
named attribute. -/
example : ∃ v', (Call.str .serialNumber (some (str "x")) failAllocator).run Voucher.init =
    .ok (v', false) ∧ Attr.nonce ≠ named (.str .serialNumber (some (str "x")) failAllocator) :=
  ⟨_, rfl, by decide⟩

/-! ## C10 -/

/-- **C10**, full statement: a set call that fails leaves every attribute as it was. -/
def C10_statement : Prop :=
  ∀ (v v' : Voucher) (c : Call), c.run v = .ok (v', false) → ∀ a, observe v' a = observe v a

/-- **C10 is violated**: setting a second serial number when memory is exhausted loses the
first one. -/
theorem C10_violated : ¬ C10_statement := by
  intro h
  have := h { Voucher.init with serial := some (str "12345") } Voucher.init
    (.str .serialNumber (some (str "67890")) failAllocator) rfl .serialNumber
  revert this
  decide

/-- A second violation, without memory exhaustion: an array argument with a length but no
data is refused, yet the previous nonce is gone. -/
theorem C10_violated_null_data :
    ∃ v', (Call.array .nonce (some ⟨none, 5⟩) zeroAllocator).run
        { Voucher.init with nonce := .of [1, 2, 3] } = .ok (v', false) ∧
      observe v' .nonce ≠ observe { Voucher.init with nonce := .of [1, 2, 3] } .nonce :=
  ⟨Voucher.init, rfl, by decide⟩

theorem setBool_fail {v v' : Voucher} {a : Attr} {x : Bool} (h : setBool v a x = (v', false)) :
    v' = v := by
  cases a <;> simp [setBool] at h <;> exact h.symm

theorem setTime_fail {v v' : Voucher} {a : Attr} {x : Option Tm}
    (h : setTime v a x = .ok (v', false)) : v' = v := by
  cases x <;> cases a <;> simp [setTime] at h <;> exact h.symm

theorem setEnum_fail {v v' : Voucher} {a : Attr} {x : Int} (h : setEnum v a x = (v', false)) :
    v' = v := by
  cases a <;> simp only [setEnum] at h <;> try (simp at h; exact h.symm)
  split at h <;> simp at h; exact h.symm

theorem setStr_fail {al : Allocator} (mem : ∀ n, al.malloc n ≠ none) {v v' : Voucher} {a : Attr}
    {x : Option Bytes} (h : setStr al v a x = (v', false)) : v' = v := by
  cases a <;> simp only [setStr] at h <;> try (simp at h; exact h.symm)
  cases x with
  | none => simp at h; exact h.symm
  | some s =>
    simp only [setNstr, strndup] at h
    split at h
    · cases hm : al.malloc (szWrap (strnlen s 128 + 1)) with
      | none => exact absurd hm (mem _)
      | some _ => simp [hm] at h
    · simp at h; exact h.symm

theorem setArray_fail {al : Allocator} (mem : ∀ n, al.malloc n ≠ none) {v v' : Voucher} {a : Attr}
    {x : Option BinArr} (ok : arrayOk x) (h : setArray al v a x = .ok (v', false)) : v' = v := by
  cases x with
  | none => simp [setArray] at h; exact h.symm
  | some y =>
    have oky := ok y rfl
    obtain ⟨arr, len⟩ := y
    cases arr with
    | none =>
      simp only at oky; subst oky
      simp [setArray, arrayNonempty] at h; exact h.symm
    | some b =>
      simp only at oky; subst oky
      simp only [setArray, arrayNonempty, copy_ok mem, bind'_ok] at h
      cases a <;> simp at h <;> exact h.symm

/-- **C10**, the part that holds: with memory available and arguments respecting the
documented contract a failing call changes nothing at all. -/
theorem C10_partial (v v' : Voucher) (c : Call) (ok : callOk c) (mem : memOk c)
    (h : c.run v = .ok (v', false)) : ∀ a, observe v' a = observe v a := by
  suffices v' = v by intro a; rw [this]
  cases c with
  | bool a x => exact setBool_fail (Outcome.ok.inj h)
  | time a x => exact setTime_fail h
  | enum a x => exact setEnum_fail (Outcome.ok.inj h)
  | str a x al => exact setStr_fail mem (Outcome.ok.inj h)
  | array a x al => exact setArray_fail mem ok h
  | clear a => simp [Call.run] at h
  | va a x al =>
    simp only [memOk] at mem
    cases a <;> cases x <;> simp only [callOk, vaOk] at ok <;> simp only [Call.run, setVa] at h <;>
      first
      | exact setBool_fail (Outcome.ok.inj h)
      | exact setTime_fail h
      | exact setEnum_fail (Outcome.ok.inj h)
      | exact setStr_fail mem (Outcome.ok.inj h)
      | exact setArray_fail mem ok h
      | (simp at h; exact h.symm)

/-- non-vacuity of C10_partial: a 128 byte serial number is refused. -/
example : (Call.str .serialNumber (some (List.replicate 128 65)) zeroAllocator).run
    { Voucher.init with serial := some (str "1") } =
    .ok ({ Voucher.init with serial := some (str "1") }, false) := by
  simp [Call.run, setStr, setNstr, strnlen]

/-! ## C11 (attribute calls; parsing is added in the deserialisation chapter) -/

/-- The invariant of C11, stated on what the getters return. -/
def ValuesOk (v : Voucher) : Prop :=
  (∀ n, getEnum v .assertion = some n → n = 0 ∨ n = 1 ∨ n = 2 ∨ n = 3) ∧
  (∀ s, getStr v .serialNumber = some (some s) → s.length < 128 ∧ (0 : UInt8) ∉ s)

theorem valuesOk_of_eq {v v' : Voucher} (h : ValuesOk v) (h1 : v'.assertion = v.assertion)
    (h2 : v'.serial = v.serial) : ValuesOk v' := by
  simpa only [ValuesOk, getEnum, getStr, h1, h2] using h

theorem valuesOk_init : ValuesOk Voucher.init := by
  constructor
  · intro n h; simp [getEnum, Voucher.init] at h; exact Or.inl h.symm
  · intro s h; simp [getStr, Voucher.init] at h

theorem setBool_valuesOk {v : Voucher} (h : ValuesOk v) (a : Attr) (x : Bool) :
    ValuesOk (setBool v a x).1 := by
  cases a <;> exact valuesOk_of_eq h rfl rfl

theorem setTime_valuesOk {v v' : Voucher} (h : ValuesOk v) {a : Attr} {x : Option Tm} {ret : Bool}
    (hr : setTime v a x = .ok (v', ret)) : ValuesOk v' := by
  cases x <;> cases a <;> simp only [setTime, ok.injEq, Prod.mk.injEq, reduceCtorEq] at hr <;>
    first | (obtain ⟨rfl, -⟩ := hr; exact valuesOk_of_eq h rfl rfl)

theorem setEnum_valuesOk {v : Voucher} (h : ValuesOk v) (a : Attr) (x : Int) :
    ValuesOk (setEnum v a x).1 := by
  cases a <;> simp only [setEnum] <;> try exact h
  split
  · exact h
  · refine ⟨?_, h.2⟩
    intro n hn
    simp only [getEnum, Option.some.injEq] at hn
    omega

theorem not_mem_takeWhile (s : Bytes) : (0 : UInt8) ∉ s.takeWhile (· ≠ 0) := by
  induction s with
  | nil => simp
  | cons c s ih =>
    rw [List.takeWhile_cons]
    split
    · rename_i hc
      simp only [List.mem_cons, not_or]
      exact ⟨fun h => by simp [← h] at hc, ih⟩
    · simp

theorem setNstr_valuesOk {v : Voucher} (h : ValuesOk v) (al : Allocator) (a : Attr) (s : Bytes)
    (n : Nat) : ValuesOk (setNstr al v a s n).1 := by
  cases a <;> simp only [setNstr] <;> try exact h
  split
  · rename_i hn
    unfold strndup
    cases al.malloc (szWrap (n + 1)) with
    | none => exact ⟨h.1, fun s hs => by simp [getStr] at hs⟩
    | some _ =>
      refine ⟨h.1, ?_⟩
      intro d hd
      simp only [getStr, Option.some.injEq] at hd
      subst hd
      refine ⟨?_, not_mem_takeWhile _⟩
      have h1 := (List.takeWhile_sublist (l := s.take n) (fun c : UInt8 => decide (c ≠ 0))).length_le
      have h2 := List.length_take_le n s
      omega
  · exact h

theorem setStr_valuesOk {v : Voucher} (h : ValuesOk v) (al : Allocator) (a : Attr)
    (x : Option Bytes) : ValuesOk (setStr al v a x).1 := by
  cases a <;> simp only [setStr] <;> try exact h
  split
  · exact h
  · exact setNstr_valuesOk h al _ _ _

theorem setArray_valuesOk {v v' : Voucher} (h : ValuesOk v) {al : Allocator} {a : Attr}
    {x : Option BinArr} {ret : Bool} (hr : setArray al v a x = .ok (v', ret)) : ValuesOk v' := by
  have f1 := setArray_frame al v v' a x ret hr .assertion
  have f2 := setArray_frame al v v' a x ret hr .serialNumber
  unfold setArray at hr
  cases x with
  | none => simp only [ok.injEq, Prod.mk.injEq] at hr; rw [← hr.1]; exact h
  | some x =>
    simp only at hr
    split at hr
    · cases hc : copyBinaryArray al x with
      | ub =>
        simp only [hc, bind'_ub] at hr
        cases a <;> simp only [reduceCtorEq, ok.injEq, Prod.mk.injEq] at hr <;> rw [← hr.1] <;> exact h
      | ok r =>
        simp only [hc, bind'_ok] at hr
        cases a <;> simp only [ok.injEq, Prod.mk.injEq] at hr <;> obtain ⟨rfl, -⟩ := hr <;>
          exact valuesOk_of_eq h rfl rfl
    · simp only [ok.injEq, Prod.mk.injEq] at hr; rw [← hr.1]; exact h

theorem valuesOk_fst {p : Voucher × Bool} {v' : Voucher} {ret : Bool} (h : ValuesOk p.1)
    (hr : Outcome.ok p = .ok (v', ret)) : ValuesOk v' := by
  rw [Outcome.ok.inj hr] at h; exact h

theorem call_valuesOk {v v' : Voucher} (h : ValuesOk v) (c : Call) {ret : Bool}
    (hr : c.run v = .ok (v', ret)) : ValuesOk v' := by
  cases c with
  | bool a x => have := setBool_valuesOk h a x; rw [Outcome.ok.inj hr] at this; exact this
  | time a x => exact setTime_valuesOk h hr
  | enum a x => have := setEnum_valuesOk h a x; rw [Outcome.ok.inj hr] at this; exact this
  | str a x al => have := setStr_valuesOk h al a x; rw [Outcome.ok.inj hr] at this; exact this
  | array a x al => exact setArray_valuesOk h hr
  | clear a =>
    simp only [Call.run, ok.injEq, Prod.mk.injEq] at hr
    obtain ⟨rfl, -⟩ := hr
    cases a <;> first
      | exact valuesOk_of_eq h rfl rfl
      | exact ⟨fun n hn => by simp [getEnum, clear] at hn; exact Or.inl hn.symm, h.2⟩
      | exact ⟨h.1, fun s hs => by simp [getStr, clear] at hs⟩
  | va a x al =>
    simp only [Call.run] at hr
    cases a <;> cases x <;> (try simp only [setVa, reduceCtorEq] at hr) <;>
      first
      | exact setTime_valuesOk h hr
      | exact valuesOk_fst (setBool_valuesOk h _ _) hr
      | exact valuesOk_fst (setEnum_valuesOk h _ _) hr
      | exact valuesOk_fst (setStr_valuesOk h _ _ _) hr
      | exact setArray_valuesOk h hr
      | (simp only [ok.injEq, Prod.mk.injEq] at hr; rw [← hr.1]; exact h)

/-- **C11**, attribute calls: for every history (any arguments, any allocation outcomes)
with defined behaviour, the assertion is none/verified/logged/proximity and the serial
number is shorter than 128 bytes and NUL free. -/
theorem C11_values_api (cs : List Call) (v : Voucher) (rets : List Bool)
    (h : runCalls Voucher.init cs = .ok (v, rets)) : ValuesOk v := by
  suffices ∀ w, ValuesOk w → ∀ rets, runCalls w cs = .ok (v, rets) → ValuesOk v from
    this _ valuesOk_init rets h
  clear h
  induction cs with
  | nil => intro w hw rets h; simp only [runCalls, ok.injEq, Prod.mk.injEq] at h; rw [← h.1]; exact hw
  | cons c cs ih =>
    intro w hw rets h
    simp only [runCalls] at h
    cases hc : c.run w with
    | ub => simp [hc] at h
    | ok r =>
      obtain ⟨w1, b⟩ := r
      simp only [hc, bind'_ok] at h
      cases hq : runCalls w1 cs with
      | ub => simp [hq] at h
      | ok q =>
        simp only [hq, bind'_ok, ok.injEq, Prod.mk.injEq] at h
        refine ih w1 (call_valuesOk hw c hc) q.2 ?_
        rw [hq, ← h.1]

/-- non-vacuity of C11: a history containing a string with an embedded NUL byte and an
out-of-range assertion. -/
example : ∃ v rets, runCalls Voucher.init
    [.str .serialNumber (some [65, 0, 66]) zeroAllocator, .enum .assertion 7] = .ok (v, rets) ∧
    v.serial = some [65] ∧ rets = [true, false] := ⟨_, _, rfl, rfl, rfl⟩

/-! ## C25 -/

/-- Arrays as the library builds them: the length is the number of bytes behind the pointer
(/repo/src/voucher/array.h:155-158). -/
def BinArr.Wf (a : BinArr) : Prop :=
  match a.array with
  | some b => a.length = b.length
  | none => a.length = 0

/-- Bytes of an array (/repo/src/voucher/array.h:155-158). -/
def content (a : BinArr) : Bytes := a.array.getD []

theorem C25_compare (x y : BinArr) (hx : BinArr.Wf x) (hy : BinArr.Wf y) :
    compareBinaryArray (some x) (some y) = .ok (if content x = content y then 1 else 0) := by
  obtain ⟨ax, lx⟩ := x
  obtain ⟨ay, ly⟩ := y
  simp only [BinArr.Wf] at hx hy
  simp only [compareBinaryArray, content, memcmpEq]
  cases ax with
  | none =>
    simp only at hx; subst hx
    cases ay with
    | none => simp only at hy; subst hy; simp
    | some b =>
      simp only at hy; subst hy
      cases b <;> simp
  | some a =>
    simp only at hx; subst hx
    cases ay with
    | none =>
      simp only at hy; subst hy
      cases a <;> simp
    | some b =>
      simp only at hy; subst hy
      simp only [Option.getD_some]
      by_cases hl : b.length = a.length
      · rw [if_neg (by simpa using hl)]
        by_cases h0 : a.length = 0
        · have ha := List.eq_nil_of_length_eq_zero h0
          have hb := List.eq_nil_of_length_eq_zero (hl.trans h0)
          simp [ha, hb]
        · rw [if_neg h0, if_pos (by omega), List.take_of_length_le (by omega), List.take_length]
          by_cases e : b = a
          · simp [e]
          · simp [e, Ne.symm e]
      · have : a ≠ b := fun h => hl (by rw [h])
        simp [hl, this]

/-- **C25**, missing arguments. -/
theorem C25_missing (x : Option BinArr) :
    compareBinaryArray none x = .ok (-1) ∧ compareBinaryArray x none = .ok (-1) := by
  cases x <;> exact ⟨rfl, rfl⟩

/-- **C25**, equivalence relation. -/
theorem C25_equivalence :
    (∀ x, BinArr.Wf x → compareBinaryArray (some x) (some x) = .ok 1) ∧
    (∀ x y, BinArr.Wf x → BinArr.Wf y → compareBinaryArray (some x) (some y) =
      compareBinaryArray (some y) (some x)) ∧
    (∀ x y z, BinArr.Wf x → BinArr.Wf y → BinArr.Wf z →
      compareBinaryArray (some x) (some y) = .ok 1 →
      compareBinaryArray (some y) (some z) = .ok 1 →
      compareBinaryArray (some x) (some z) = .ok 1) := by
  refine ⟨fun x hx => ?_, fun x y hx hy => ?_, fun x y z hx hy hz h1 h2 => ?_⟩
  · rw [C25_compare x x hx hx]; simp
  · rw [C25_compare x y hx hy, C25_compare y x hy hx]; simp only [eq_comm]
  · rw [C25_compare x y hx hy] at h1
    rw [C25_compare y z hy hz] at h2
    rw [C25_compare x z hx hz]
    split at h1
    · split at h2
      · rename_i e1 e2; rw [if_pos (e1.trans e2)]
      · simp at h2
    · simp at h1

/-- non-vacuity of C25. -/
example : BinArr.Wf (.of [1, 2, 3]) ∧ BinArr.Wf (.of [1, 2, 4]) ∧ BinArr.Wf .empty ∧
    compareBinaryArray (some (.of [1, 2, 3])) (some (.of [1, 2, 3])) = .ok 1 ∧
    compareBinaryArray (some (.of [1, 2, 3])) (some (.of [1, 2, 4])) = .ok 0 := by
  refine ⟨rfl, rfl, rfl, rfl, rfl⟩

/-! ## The invariant used by the JSON chapter -/

/-- Array fields as the library builds them (/repo/src/voucher/array.h:155-158). -/
def ArraysOk (v : Voucher) : Prop :=
  BinArr.Wf v.idevidIssuer ∧ BinArr.Wf v.pinned ∧ BinArr.Wf v.nonce ∧ BinArr.Wf v.prior ∧
  BinArr.Wf v.proximity

/-- Values and arrays as the library builds them (/repo/src/voucher/voucher_defs.h:14-27). -/
def VoucherOk (v : Voucher) : Prop := ValuesOk v ∧ ArraysOk v

theorem arraysOk_init : ArraysOk Voucher.init := by
  refine ⟨?_, ?_, ?_, ?_, ?_⟩ <;> rfl

theorem voucherOk_init : VoucherOk Voucher.init := ⟨valuesOk_init, arraysOk_init⟩

theorem copy_wf {al : Allocator} {x : BinArr} {r : BinArr × Bool}
    (h : copyBinaryArray al x = .ok r) : BinArr.Wf r.1 := by
  unfold copyBinaryArray memdup at h
  cases hx : x.array with
  | none => simp only [hx, bind'_ok, ok.injEq] at h; subst h; rfl
  | some b =>
    simp only [hx] at h
    cases hm : al.malloc x.length with
    | none => simp only [hm, bind'_ok, ok.injEq] at h; subst h; rfl
    | some _ =>
      simp only [hm] at h
      split at h
      · simp only [bind'_ok, ok.injEq] at h
        subst h
        simp only [BinArr.Wf, List.length_take]
        omega
      · simp at h

theorem setArray_arraysOk {v v' : Voucher} (h : ArraysOk v) {al : Allocator} {a : Attr}
    {x : Option BinArr} {ret : Bool} (hr : setArray al v a x = .ok (v', ret)) : ArraysOk v' := by
  unfold setArray at hr
  cases x with
  | none => simp only [ok.injEq, Prod.mk.injEq] at hr; rw [← hr.1]; exact h
  | some x =>
    simp only at hr
    split at hr
    · cases hc : copyBinaryArray al x with
      | ub =>
        simp only [hc, bind'_ub] at hr
        cases a <;> simp only [reduceCtorEq, ok.injEq, Prod.mk.injEq] at hr <;> rw [← hr.1] <;> exact h
      | ok r =>
        have hw := copy_wf hc
        obtain ⟨h1, h2, h3, h4, h5⟩ := h
        simp only [hc, bind'_ok] at hr
        cases a <;> simp only [ok.injEq, Prod.mk.injEq] at hr <;> obtain ⟨rfl, -⟩ := hr <;>
          first
          | exact ⟨h1, h2, h3, h4, h5⟩
          | exact ⟨hw, h2, h3, h4, h5⟩
          | exact ⟨h1, hw, h3, h4, h5⟩
          | exact ⟨h1, h2, hw, h4, h5⟩
          | exact ⟨h1, h2, h3, hw, h5⟩
          | exact ⟨h1, h2, h3, h4, hw⟩
    · simp only [ok.injEq, Prod.mk.injEq] at hr; rw [← hr.1]; exact h

theorem setBool_voucherOk {v : Voucher} (h : VoucherOk v) (a : Attr) (x : Bool) :
    VoucherOk (setBool v a x).1 := by
  refine ⟨setBool_valuesOk h.1 a x, ?_⟩
  cases a <;> exact h.2

theorem setTime_voucherOk {v v' : Voucher} (h : VoucherOk v) {a : Attr} {x : Option Tm} {ret : Bool}
    (hr : setTime v a x = .ok (v', ret)) : VoucherOk v' := by
  refine ⟨setTime_valuesOk h.1 hr, ?_⟩
  cases x <;> cases a <;> simp only [setTime, ok.injEq, Prod.mk.injEq, reduceCtorEq] at hr <;>
    first | (obtain ⟨rfl, -⟩ := hr; exact h.2)

theorem setEnum_voucherOk {v : Voucher} (h : VoucherOk v) (a : Attr) (x : Int) :
    VoucherOk (setEnum v a x).1 := by
  refine ⟨setEnum_valuesOk h.1 a x, ?_⟩
  cases a <;> simp only [setEnum] <;> try exact h.2
  split <;> exact h.2

theorem setNstr_voucherOk {v : Voucher} (h : VoucherOk v) (al : Allocator) (a : Attr) (s : Bytes)
    (n : Nat) : VoucherOk (setNstr al v a s n).1 := by
  refine ⟨setNstr_valuesOk h.1 al a s n, ?_⟩
  cases a <;> simp only [setNstr] <;> try exact h.2
  split
  · cases strndup al s n <;> exact h.2
  · exact h.2

theorem setStr_voucherOk {v : Voucher} (h : VoucherOk v) (al : Allocator) (a : Attr)
    (x : Option Bytes) : VoucherOk (setStr al v a x).1 := by
  cases a <;> simp only [setStr] <;> try exact h
  split
  · exact h
  · exact setNstr_voucherOk h al _ _ _

theorem setArray_voucherOk {v v' : Voucher} (h : VoucherOk v) {al : Allocator} {a : Attr}
    {x : Option BinArr} {ret : Bool} (hr : setArray al v a x = .ok (v', ret)) : VoucherOk v' :=
  ⟨setArray_valuesOk h.1 hr, setArray_arraysOk h.2 hr⟩

theorem voucherOk_fst {p : Voucher × Bool} {v' : Voucher} {ret : Bool} (h : VoucherOk p.1)
    (hr : Outcome.ok p = .ok (v', ret)) : VoucherOk v' := by
  rw [Outcome.ok.inj hr] at h; exact h

theorem call_voucherOk {v v' : Voucher} (h : VoucherOk v) (c : Call) {ret : Bool}
    (hr : c.run v = .ok (v', ret)) : VoucherOk v' := by
  cases c with
  | bool a x => exact voucherOk_fst (setBool_voucherOk h a x) hr
  | time a x => exact setTime_voucherOk h hr
  | enum a x => exact voucherOk_fst (setEnum_voucherOk h a x) hr
  | str a x al => exact voucherOk_fst (setStr_voucherOk h al a x) hr
  | array a x al => exact setArray_voucherOk h hr
  | clear a =>
    refine ⟨call_valuesOk h.1 _ hr, ?_⟩
    simp only [Call.run, ok.injEq, Prod.mk.injEq] at hr
    obtain ⟨rfl, -⟩ := hr
    obtain ⟨-, h1, h2, h3, h4, h5⟩ := h
    cases a <;>
      first
      | exact ⟨h1, h2, h3, h4, h5⟩
      | exact ⟨rfl, h2, h3, h4, h5⟩
      | exact ⟨h1, rfl, h3, h4, h5⟩
      | exact ⟨h1, h2, rfl, h4, h5⟩
      | exact ⟨h1, h2, h3, rfl, h5⟩
      | exact ⟨h1, h2, h3, h4, rfl⟩
  | va a x al =>
    simp only [Call.run] at hr
    cases a <;> cases x <;> (try simp only [setVa, reduceCtorEq] at hr) <;>
      first
      | exact setTime_voucherOk h hr
      | exact voucherOk_fst (setBool_voucherOk h _ _) hr
      | exact voucherOk_fst (setEnum_voucherOk h _ _) hr
      | exact voucherOk_fst (setStr_voucherOk h _ _ _) hr
      | exact setArray_voucherOk h hr
      | (simp only [ok.injEq, Prod.mk.injEq] at hr; rw [← hr.1]; exact h)

end Brski.Props
