import Verif.Utils

/-!
# C48, C49, C52: standard input, hex formatting, string and allocation helpers
-/

namespace Brski.Props

open Outcome Utils
open BoolTime (cstr)

/-! ## Buffers -/

theorem rd_at (p : Bytes) (c : UInt8) (s : Bytes) : rd (p ++ c :: s) p.length = .ok c := by
  apply rd_some
  rw [List.getElem?_append_right (Nat.le_refl _), Nat.sub_self]
  rfl

theorem rd_end (p : Bytes) : rd p p.length = .ub := by
  simp [rd]

theorem wr_at (w : Bytes) (x : UInt8) (y : Bytes) (c : UInt8) : wr (w ++ x :: y) w.length c = .ok (w ++ c :: y) := by
  rw [wr_lt _ (by simp)]
  simp [List.set_append]

theorem wr_end (w : Bytes) (c : UInt8) : wr w w.length c = .ub := by
  simp [wr]

theorem cstr_nil : cstr [] = [] := rfl
theorem cstr_zero (s : Bytes) : cstr (0 :: s) = [] := rfl
theorem cstr_cons {c : UInt8} (h : c ≠ 0) (s : Bytes) : cstr (c :: s) = c :: cstr s := by
  simp [cstr, h]

theorem cstr_split {s : Bytes} (h : (0 : UInt8) ∈ s) : ∃ v, s = cstr s ++ 0 :: v := by
  induction s with
  | nil => cases h
  | cons c s ih =>
    by_cases hc : c = 0
    · exact ⟨s, by rw [hc, cstr_zero]; rfl⟩
    · rcases List.mem_cons.1 h with h | h
      · exact absurd h.symm hc
      · obtain ⟨v, hv⟩ := ih h
        exact ⟨v, by rw [cstr_cons hc, List.cons_append, ← hv]⟩

theorem cstr_no_zero (s : Bytes) : (0 : UInt8) ∉ cstr s := by
  induction s with
  | nil => simp [cstr_nil]
  | cons c s ih =>
    by_cases hc : c = 0
    · rw [hc, cstr_zero]; simp
    · rw [cstr_cons hc]
      exact fun h => (List.mem_cons.1 h).elim (fun e => hc e.symm) ih

theorem cstr_append_zero {t : Bytes} (h : (0 : UInt8) ∉ t) (s : Bytes) : cstr (t ++ 0 :: s) = t := by
  induction t with
  | nil => exact cstr_zero s
  | cons c t ih =>
    rw [List.cons_append, cstr_cons (fun e => h (e ▸ List.mem_cons_self)), ih fun e => h (List.mem_cons_of_mem _ e)]

/-! ## C52: string and allocation helpers -/

/-- Contract of `strlcpy` (OpenBSD; /repo/src/utils/os.h:153-164): at most `siz - 1` characters and a NUL are written,
nothing for size 0; the result is the length of the source. -/
def StrlcpyContract (ok : Nat → Prop) : Prop :=
  ∀ (dest src : Bytes) (siz : Nat), ok siz → 0 ∈ src → siz ≤ dest.length →
    ∃ d, strlcpy dest src siz = .ok (d, (cstr src).length) ∧ d.length = dest.length ∧
      d.drop siz = dest.drop siz ∧ (0 < siz → cstr d = (cstr src).take (siz - 1) ∧ (cstr d).length < siz)

/-- Contract of `sys_strnlen_s`: the length of the string, capped by the maximum. -/
def StrnlenContract : Prop :=
  ∀ (s : Bytes) (max : Nat), 0 ∈ s ∨ max ≤ s.length → strnlenS s max = .ok (Nat.min max (cstr s).length)

/-- Contract of `sys_strndup`: NULL when there is nothing to duplicate or no memory, otherwise a block of `length + 1`
bytes that holds the first `length` characters of the string. -/
def StrndupContract (ok : Nat → Prop) : Prop :=
  ∀ (al : Allocator) (s : Bytes) (length : Nat), ok length → length ≤ sizeMax → 0 ∈ s ∨ length ≤ s.length →
    strndup al none length = .ok none ∧
    ((al.malloc (length + 1) = none → strndup al (some s) length = .ok none) ∧
     (al.malloc (length + 1) ≠ none → ∃ d, strndup al (some s) length = .ok (some d) ∧ d.length = length + 1 ∧
        cstr d = (cstr s).take length ∧ ∀ c ∈ d.drop (cstr d).length, c = 0))

/-- Contract of `sys_memdup`: a copy of exactly the bytes given. -/
def MemdupContract : Prop :=
  ∀ (al : Allocator) (s : Bytes) (len : Nat), len ≤ s.length →
    memdup al none len = .ok none ∧
    (al.malloc len = none → memdup al (some s) len = .ok none) ∧
    (al.malloc len ≠ none → memdup al (some s) len = .ok (some (s.take len)))

/-- Contract of `sys_realloc_array`: NULL leaves everything as it was; otherwise there is a block of exactly
`nmemb * size` bytes (no overflow) that begins with the old content, and every other block is as it was. -/
def ReallocContract (ok : Nat → Nat → Prop) : Prop :=
  ∀ (al : Allocator) (h : Heap) (p : Nat) (old : Bytes) (nmemb size : Nat), ok nmemb size → nmemb ≤ sizeMax →
    size ≤ sizeMax → h.Wf → h.blk p = some old →
    ∃ h' r, reallocArray al h (some p) nmemb size = .ok (h', r) ∧
      match r with
      | none => h' = h
      | some q => nmemb * size ≤ sizeMax ∧ ∃ b, h'.blk q = some b ∧ b.length = nmemb * size ∧
          b.take (Nat.min old.length (nmemb * size)) = old.take (nmemb * size) ∧ q ≠ p ∧ h'.blk p = none ∧
          ∀ x, x ≠ p → x ≠ q → h'.blk x = h.blk x

/-- **C52** as stated. -/
def C52_statement : Prop :=
  StrlcpyContract (fun _ => True) ∧ StrnlenContract ∧ StrndupContract (fun _ => True) ∧ MemdupContract ∧
    ReallocContract (fun _ _ => True)

theorem memccpy_spec (v : Bytes) : ∀ (n : Nat) (pre u w y : Bytes), (0 : UInt8) ∉ u → w.length = pre.length →
    n ≤ y.length → memccpy (pre ++ (u ++ 0 :: v)) n pre.length (w ++ y) =
      if u.length < n then .ok (w ++ u ++ 0 :: y.drop (u.length + 1), some (pre.length + u.length + 1))
      else .ok (w ++ u.take n ++ y.drop n, none) := by
  intro n
  induction n with
  | zero => intro pre u w y _ _ _; simp [memccpy]
  | succ n ih =>
    intro pre u w y hu hw hn
    obtain ⟨x, y, rfl⟩ : ∃ x z, y = x :: z := by
      cases y with
      | nil => simp at hn
      | cons x z => exact ⟨x, z, rfl⟩
    cases u with
    | nil =>
      rw [memccpy, List.nil_append, rd_at, bind'_ok, ← hw, wr_at, bind'_ok, if_pos rfl]
      simp [hw]
    | cons c u =>
      have hc : c ≠ 0 := fun e => hu (e ▸ List.mem_cons_self)
      have hu' : (0 : UInt8) ∉ u := fun e => hu (List.mem_cons_of_mem _ e)
      rw [memccpy, List.cons_append, rd_at, bind'_ok]
      have h1 := ih (pre ++ [c]) u (w ++ [c]) y hu' (by simp [hw]) (by simpa using hn)
      rw [show pre ++ c :: (u ++ 0 :: v) = pre ++ [c] ++ (u ++ 0 :: v) by simp]
      rw [← hw, wr_at, bind'_ok, if_neg hc, hw, show w ++ c :: y = w ++ [c] ++ y by simp,
        show pre.length + 1 = (pre ++ [c]).length by simp, h1]
      simp only [List.length_cons, Nat.add_lt_add_iff_right]
      split
      · simp [Nat.add_comm, Nat.add_left_comm]
      · simp

theorem drop_past (t : Bytes) (c : UInt8) (z : Bytes) {n : Nat} (h : t.length < n) :
    (t ++ c :: z.drop (t.length + 1)).drop n = z.drop n := by
  obtain ⟨k, rfl⟩ : ∃ k, n = t.length + 1 + k := ⟨n - (t.length + 1), by omega⟩
  rw [List.drop_append, List.drop_eq_nil_of_le (by omega), List.nil_append,
    show t.length + 1 + k - t.length = k + 1 by omega, List.drop_succ_cons, List.drop_drop]

/-- **C52**, bounded copy, for every size but 0. -/
theorem C52_partial_strlcpy : StrlcpyContract (fun siz => 0 < siz) := by
  intro dest src siz hs h0 hl
  obtain ⟨v, hv⟩ := cstr_split h0
  have h := memccpy_spec v siz [] (cstr src) [] dest (cstr_no_zero src) rfl hl
  simp only [List.nil_append, List.length_nil, Nat.zero_add, ← hv] at h
  unfold strlcpy
  rw [h]
  split
  · rename_i hlt
    refine ⟨_, rfl, ?_, drop_past _ _ _ hlt, fun _ => ?_⟩
    · simp; omega
    · rw [cstr_append_zero (cstr_no_zero src)]
      exact ⟨(List.take_of_length_le (by omega)).symm, hlt⟩
  · rename_i hge
    obtain ⟨k, rfl⟩ : ∃ k, siz = k + 1 := ⟨siz - 1, by omega⟩
    have hk : k < (cstr src).length := by omega
    have ht : (cstr src).take (k + 1) = (cstr src).take k ++ [(cstr src)[k]] := (List.take_append_getElem hk).symm
    have hlen : ((cstr src).take k).length = k := by simp; omega
    rw [bind'_ok]
    simp only
    rw [if_neg (by omega), ht, Nat.add_sub_cancel, List.append_assoc, List.singleton_append]
    have hw := wr_at ((cstr src).take k) (cstr src)[k] (dest.drop (k + 1)) 0
    rw [hlen] at hw
    rw [hw, bind'_ok, strlen, if_pos h0, bind'_ok]
    refine ⟨_, rfl, ?_, ?_, fun _ => ?_⟩
    · simp; omega
    · have := drop_past ((cstr src).take k) 0 dest (n := k + 1) (by omega)
      rwa [hlen] at this
    · rw [cstr_append_zero fun e => cstr_no_zero src ((List.take_sublist _ _).mem e)]
      exact ⟨rfl, by omega⟩

/-- The code violates C52: with size 0 `sys_strlcpy` writes before the destination. -/
theorem C52_violated_strlcpy (dest src : Bytes) : strlcpy dest src 0 = .ub := rfl

theorem memchr0_spec : ∀ (n : Nat) (pre s : Bytes), 0 ∈ s ∨ n ≤ s.length →
    memchr0 (pre ++ s) n pre.length =
      .ok (if (cstr s).length < n then some (pre.length + (cstr s).length) else none) := by
  intro n
  induction n with
  | zero => intro pre s _; rfl
  | succ n ih =>
    intro pre s h
    cases s with
    | nil => rcases h with h | h <;> simp at h
    | cons c s =>
      rw [memchr0, rd_at, bind'_ok]
      by_cases hc : c = 0
      · subst hc
        simp [cstr_zero]
      · have h' : 0 ∈ s ∨ n ≤ s.length := by
          rcases h with h | h
          · exact .inl ((List.mem_cons.1 h).resolve_left fun e => hc e.symm)
          · exact .inr (by simpa using h)
        have := ih (pre ++ [c]) s h'
        rw [List.append_assoc, List.singleton_append, List.length_append, List.length_singleton] at this
        rw [if_neg hc, this, cstr_cons hc]
        simp only [List.length_cons, Nat.add_lt_add_iff_right, Nat.add_assoc, Nat.add_comm 1]

/-- **C52**, capped length. -/
theorem C52_strnlen : StrnlenContract := by
  intro s max h
  have h1 := memchr0_spec max [] s h
  simp only [List.nil_append, List.length_nil, Nat.zero_add] at h1
  unfold strnlenS
  rw [h1, bind'_ok]
  by_cases hl : (cstr s).length < max
  · rw [if_pos hl, show Nat.min max (cstr s).length = (cstr s).length from Nat.min_eq_right (by omega)]
  · rw [if_neg hl, show Nat.min max (cstr s).length = max from Nat.min_eq_left (by omega)]

theorem padZero_spec : ∀ (n : Nat) (w y : Bytes), n ≤ y.length →
    padZero n w.length (w ++ y) = .ok (w ++ (List.replicate n 0 ++ y.drop n)) := by
  intro n
  induction n with
  | zero => intro w y _; simp [padZero]
  | succ n ih =>
    intro w y h
    cases y with
    | nil => simp at h
    | cons x y =>
      have := ih (w ++ [0]) y (by simpa using h)
      rw [List.append_assoc, List.singleton_append, List.length_append, List.length_singleton] at this
      rw [padZero, wr_at, bind'_ok, this]
      simp [List.replicate_succ]

theorem strncpy_spec : ∀ (n : Nat) (pre s w y : Bytes), w.length = pre.length → n ≤ y.length → 0 ∈ s ∨ n ≤ s.length →
    strncpy (pre ++ s) n pre.length (w ++ y) =
      .ok (w ++ ((cstr s).take n ++ (List.replicate (n - (cstr s).length) 0 ++ y.drop n))) := by
  intro n
  induction n with
  | zero => intro pre s w y _ _ _; simp [strncpy]
  | succ n ih =>
    intro pre s w y hw hn h
    cases s with
    | nil => rcases h with h | h <;> simp at h
    | cons c s =>
      rw [strncpy, rd_at, bind'_ok]
      by_cases hc : c = 0
      · subst hc
        rw [if_pos rfl, ← hw, padZero_spec (n + 1) w y hn, cstr_zero]
        simp
      · have h' : 0 ∈ s ∨ n ≤ s.length := by
          rcases h with h | h
          · exact .inl ((List.mem_cons.1 h).resolve_left fun e => hc e.symm)
          · exact .inr (by simpa using h)
        cases y with
        | nil => simp at hn
        | cons x y =>
          have := ih (pre ++ [c]) s (w ++ [c]) y (by simp [hw]) (by simpa using hn) h'
          rw [List.append_assoc, List.singleton_append, List.length_append, List.length_singleton, List.append_assoc,
            List.singleton_append] at this
          rw [if_neg hc, ← hw, wr_at, bind'_ok, hw, this, cstr_cons hc]
          simp

/-- **C52**, duplicate, for every length but `SIZE_MAX`. -/
theorem C52_partial_strndup : StrndupContract (fun length => length ≠ sizeMax) := by
  intro al s length hne hle hs
  have hw : szWrap (length + 1) = length + 1 := szWrap_of_lt (by unfold sizeMax at *; omega)
  refine ⟨rfl, fun hm => by simp [strndup, hw, hm], fun hm => ?_⟩
  obtain ⟨b, hb⟩ : ∃ b, al.malloc (length + 1) = some b := by
    cases h : al.malloc (length + 1) with
    | none => exact absurd h hm
    | some b => exact ⟨b, rfl⟩
  have hbl := al.length_eq _ _ hb
  have h := strncpy_spec length [] s [] (List.replicate (length + 1) 0) rfl (by simp) hs
  simp only [List.nil_append, List.length_nil] at h
  simp only [strndup, hw, hb, hbl, h, bind'_ok]
  have hd : List.drop length (List.replicate (length + 1) (0 : UInt8)) = [0] := by
    rw [List.drop_replicate, show length + 1 - length = 1 by omega]
    rfl
  rw [hd, ← List.replicate_succ', List.replicate_succ]
  have hz : (0 : UInt8) ∉ (cstr s).take length := fun e => cstr_no_zero s ((List.take_sublist _ _).mem e)
  have hlen : ((cstr s).take length).length = Nat.min length (cstr s).length := List.length_take
  refine ⟨_, rfl, ?_, cstr_append_zero hz _, fun c hc => ?_⟩
  · rw [List.length_append, hlen, List.length_cons, List.length_replicate]
    have : Nat.min length (cstr s).length = length ∨ Nat.min length (cstr s).length = (cstr s).length := by
      simp only [Nat.min_def]; split <;> simp
    have h2 : Nat.min length (cstr s).length ≤ length := Nat.min_le_left _ _
    have h3 : Nat.min length (cstr s).length ≤ (cstr s).length := Nat.min_le_right _ _
    omega
  · rw [cstr_append_zero hz, List.drop_left, ← List.replicate_succ] at hc
    exact List.eq_of_mem_replicate hc

/-- The code violates C52: with `SIZE_MAX` the block has size 0 and is overrun. -/
theorem C52_violated_strndup (al : Allocator) (h : al.malloc 0 ≠ none) (c : UInt8) (s : Bytes) (hc : c ≠ 0) :
    strndup al (some (c :: s)) sizeMax = .ub := by
  obtain ⟨b, hb⟩ : ∃ b, al.malloc 0 = some b := by
    cases hm : al.malloc 0 with
    | none => exact absurd hm h
    | some b => exact ⟨b, rfl⟩
  have hbl := al.length_eq _ _ hb
  have hw : szWrap (sizeMax + 1) = 0 := by decide
  simp only [strndup, hw, hb, hbl, List.replicate_zero]
  show (strncpy (c :: s) ((2 ^ 64 - 2) + 1) 0 []).bind _ = _
  rw [strncpy]
  simp [rd, hc, wr]

theorem memcpy_spec : ∀ (n : Nat) (pre s w y : Bytes), w.length = pre.length → n ≤ y.length → n ≤ s.length →
    memcpy (pre ++ s) n pre.length (w ++ y) = .ok (w ++ (s.take n ++ y.drop n)) := by
  intro n
  induction n with
  | zero => intro pre s w y _ _ _; simp [memcpy]
  | succ n ih =>
    intro pre s w y hw hn h
    cases s with
    | nil => simp at h
    | cons c s =>
      cases y with
      | nil => simp at hn
      | cons x y =>
        have := ih (pre ++ [c]) s (w ++ [c]) y (by simp [hw]) (by simpa using hn) (by simpa using h)
        rw [List.append_assoc, List.singleton_append, List.length_append, List.length_singleton, List.append_assoc,
          List.singleton_append] at this
        rw [memcpy, rd_at, bind'_ok, ← hw, wr_at, bind'_ok, hw, this]
        simp

/-- **C52**, copy of a memory area. -/
theorem C52_memdup : MemdupContract := by
  intro al s len hl
  refine ⟨rfl, fun hm => by simp [memdup, hm], fun hm => ?_⟩
  obtain ⟨b, hb⟩ : ∃ b, al.malloc len = some b := by
    cases h : al.malloc len with
    | none => exact absurd h hm
    | some b => exact ⟨b, rfl⟩
  have hbl := al.length_eq _ _ hb
  have h := memcpy_spec len [] s [] b rfl (by omega) hl
  simp only [List.nil_append, List.length_nil] at h
  simp only [memdup, hb, h, bind'_ok]
  rw [List.drop_eq_nil_of_le (by omega), List.append_nil]

/-- **C52**, array reallocation, unless no bytes are asked for. -/
theorem C52_partial_realloc : ReallocContract (fun nmemb size => nmemb * size ≠ 0) := by
  intro al h p old nmemb size hne hn hs hw hp
  have hs0 : size ≠ 0 := fun e => hne (by rw [e, Nat.mul_zero])
  unfold reallocArray
  by_cases hov : sizeMax / size < nmemb
  · rw [if_pos ⟨hs0, hov⟩]
    exact ⟨h, none, rfl, rfl⟩
  · rw [if_neg fun e => hov e.2]
    have hle : nmemb * size ≤ sizeMax := by
      have : nmemb ≤ sizeMax / size := by omega
      exact (Nat.le_div_iff_mul_le (by omega)).1 this
    rw [szWrap_of_lt (by unfold sizeMax at hle; omega)]
    have hr : h.read p = .ok old := by simp [Heap.read, hp]
    unfold realloc
    simp only [hr, bind'_ok, hne, if_false]
    cases hm : al.malloc (nmemb * size) with
    | none => exact ⟨h, none, rfl, rfl⟩
    | some b =>
      have hbl := al.length_eq _ _ hm
      have hlive : h.Live p := by simp [Heap.Live, hp]
      simp only [Heap.free_live hlive, bind'_ok]
      refine ⟨_, _, rfl, hle, old.take (nmemb * size) ++ b.drop old.length, ?_, ?_, ?_, ?_, ?_, ?_⟩
      · simp [Heap.alloc]
      · simp only [List.length_append, List.length_take, List.length_drop, hbl]
        omega
      · have hmin : Nat.min old.length (nmemb * size) = (old.take (nmemb * size)).length := by
          rw [List.length_take]; exact Nat.min_comm _ _
        rw [hmin, List.take_left]
      · have := hw p hlive
        simp only [Heap.alloc]
        omega
      · have := hw p hlive
        simp only [Heap.alloc]
        rw [if_neg (by omega), if_pos trivial]
      · intro x hx hxq
        simp only [Heap.alloc] at hxq ⊢
        rw [if_neg hxq, if_neg hx]

/-- The code violates C52: asked for no bytes, `sys_realloc_array` gives NULL, its sign of failure, and the block is
gone. -/
theorem C52_violated_realloc (al : Allocator) (h : Heap) (p : Nat) (hp : h.Live p) (nmemb : Nat) (hn : nmemb ≤ sizeMax) :
    reallocArray al h (some p) nmemb 0 = .ok (⟨h.next, fun q => if q = p then none else h.blk q⟩, none) := by
  obtain ⟨b, hb⟩ := hp.some
  simp [reallocArray, realloc, szWrap, Heap.read, Heap.free, hb]

/-- The code violates C52. -/
theorem C52_violated : ¬ C52_statement := by
  rintro ⟨h, -⟩
  obtain ⟨d, h, -⟩ := h [] [0] 0 trivial (by decide) (by decide)
  rw [C52_violated_strlcpy] at h
  cases h

/-- Non-vacuity: `abcdef` copied into four bytes; capped lengths; a duplicate cut to three characters. -/
example : strlcpy [1, 2, 3, 4, 5] (str "abcdef" ++ [0]) 4 = .ok (str "abc" ++ [0, 5], 6) ∧
    strnlenS (str "abcdef" ++ [0]) 3 = .ok 3 ∧ strnlenS (str "ab" ++ [0, 7]) 9 = .ok 2 ∧
    strndup zeroAllocator (some (str "abcdef" ++ [0])) 3 = .ok (some (str "abc" ++ [0])) ∧
    strndup zeroAllocator (some (str "a" ++ [0])) 3 = .ok (some (str "a" ++ [0, 0, 0])) ∧
    strdup zeroAllocator (some (str "ab" ++ [0, 7])) = .ok (some (str "ab" ++ [0])) ∧
    memdup zeroAllocator (some [1, 0, 2]) 2 = .ok (some [1, 0]) := by decide

/-- Non-vacuity: growing a block of three bytes to two members of four bytes. -/
example : (reallocArray zeroAllocator (Heap.empty.alloc [1, 2, 3]).1 (some 0) 2 4).bind (fun r => r.1.read 1) =
    .ok [1, 2, 3, 0, 0, 0, 0, 0] := by decide

/-- **C52**, full duplicate: `sys_strdup` gives exactly the string with its NUL. -/
theorem C52_strdup (al : Allocator) (s : Bytes) (h0 : 0 ∈ s) (hl : s.length ≤ sizeMax) :
    (al.malloc ((cstr s).length + 1) = none → strdup al (some s) = .ok none) ∧
    (al.malloc ((cstr s).length + 1) ≠ none → strdup al (some s) = .ok (some (cstr s ++ [0]))) := by
  obtain ⟨v, hv⟩ := cstr_split h0
  have hlt : (cstr s).length < s.length := by
    have := congrArg List.length hv
    rw [List.length_append, List.length_cons] at this
    omega
  obtain ⟨-, h1, h2⟩ := C52_partial_strndup al s (cstr s).length (by unfold sizeMax at *; omega)
    (by unfold sizeMax at *; omega) (.inl h0)
  simp only [strdup, strlen, h0, if_true, bind'_ok]
  refine ⟨h1, fun hm => ?_⟩
  obtain ⟨d, hd, hdl, hdc, hdz⟩ := h2 hm
  rw [hd]
  rw [List.take_of_length_le (Nat.le_refl _)] at hdc
  have hpre : cstr d ++ d.drop (cstr d).length = d := by
    have : cstr d = d.take (cstr d).length := by
      have := List.takeWhile_append_dropWhile (p := fun c : UInt8 => decide (c ≠ 0)) (l := d)
      conv => rhs; arg 2; rw [← this]
      exact (List.take_left).symm
    conv => lhs; arg 1; rw [this]
    exact List.take_append_drop _ _
  have hdl' : (d.drop (cstr d).length).length = 1 := by rw [List.length_drop, hdl, hdc]; omega
  obtain ⟨x, hx⟩ := List.length_eq_one_iff.1 hdl'
  have : x = 0 := hdz x (by rw [hx]; exact List.mem_singleton.2 rfl)
  rw [← hpre, hx, this, hdc]

/-! ## C49: hexadecimal text -/

/-- The hexadecimal text of a byte string (specification). -/
def hexText (upper : Bool) (data : Bytes) : Bytes :=
  data.flatMap fun b =>
    let digits := if upper then str "0123456789ABCDEF" else str "0123456789abcdef"
    [digits.getD (b.toNat / 16) 0, digits.getD (b.toNat % 16) 0]

/-- **C49** as stated: `printf_hex` stays inside the buffer and leaves there, terminated, a part of the hexadecimal text
whose length it returns. -/
def C49_statement : Prop :=
  ∀ (buf : Bytes) (size : Nat) (data : Bytes) (upper : Bool), 0 < size → size ≤ buf.length →
    ∃ d n, printfHex (some buf) size (some data) upper = .ok (some d, n) ∧ d.length = buf.length ∧
      d.drop size = buf.drop size ∧ (cstr d).length < size ∧ cstr d <+: hexText upper data ∧ n = (cstr d).length

theorem hexDigit_spec (upper : Bool) {n : Nat} (h : n < 16) :
    hexDigit upper n = (if upper then str "0123456789ABCDEF" else str "0123456789abcdef").getD n 0 ∧ hexDigit upper n ≠ 0 := by
  revert n
  cases upper <;> decide

theorem hexText_cons (upper : Bool) (b : UInt8) (data : Bytes) :
    hexText upper (b :: data) = hexDigit upper (b.toNat / 16) :: hexDigit upper (b.toNat % 16) :: hexText upper data := by
  have hb := b.toNat_lt
  rw [hexText, List.flatMap_cons, (hexDigit_spec upper (n := b.toNat / 16) (by omega)).1,
    (hexDigit_spec upper (n := b.toNat % 16) (by omega)).1]
  rfl

theorem hexText_length (upper : Bool) (data : Bytes) : (hexText upper data).length = 2 * data.length := by
  induction data with
  | nil => rfl
  | cons b data ih => rw [hexText_cons]; simp only [List.length_cons, ih]; omega

theorem hexText_no_zero (upper : Bool) (data : Bytes) : (0 : UInt8) ∉ hexText upper data := by
  induction data with
  | nil => exact List.not_mem_nil
  | cons b data ih =>
    have hb := b.toNat_lt
    rw [hexText_cons]
    simp only [List.mem_cons, not_or]
    exact ⟨fun e => (hexDigit_spec upper (n := b.toNat / 16) (by omega)).2 e.symm,
      fun e => (hexDigit_spec upper (n := b.toNat % 16) (by omega)).2 e.symm, ih⟩

theorem hexLoop_spec (upper : Bool) (z : Bytes) : ∀ (data w y : Bytes), y ≠ [] → data ≠ [] ∨ y.head? = some 0 →
    hexLoop upper (w.length + y.length) data w.length (w ++ (y ++ z)) =
      .ok (w ++ ((hexText upper data).take (y.length - 1) ++ 0 :: (y.drop (((hexText upper data).take (y.length - 1)).length + 1) ++ z)),
        w.length + 2 * Nat.min data.length ((y.length - 1) / 2)) := by
  intro data
  induction data with
  | nil =>
    intro w y hy h
    cases y with
    | nil => exact absurd rfl hy
    | cons c y =>
      have hc : c = 0 := by simpa using h
      subst hc
      simp [hexLoop, hexText, Nat.min_def]
  | cons b data ih =>
    intro w y hy _
    rw [hexLoop, Nat.add_sub_cancel_left, hexText_cons]
    have hmin0 : Nat.min (b :: data).length 0 = 0 := Nat.min_zero _
    match y, hy with
    | [c0], _ =>
      simp [putHex, wr_at, hmin0]
    | [c0, c1], _ =>
      have h1 := wr_at w c0 (c1 :: z) (hexDigit upper (b.toNat / 16))
      have h2 := wr_at (w ++ [hexDigit upper (b.toNat / 16)]) c1 z 0
      simp only [List.append_assoc, List.singleton_append, List.length_append, List.length_singleton] at h2
      simp [putHex, h1, h2, hmin0]
    | c0 :: c1 :: c2 :: y, _ =>
      have h1 := wr_at w c0 (c1 :: c2 :: (y ++ z)) (hexDigit upper (b.toNat / 16))
      have h2 := wr_at (w ++ [hexDigit upper (b.toNat / 16)]) c1 (c2 :: (y ++ z)) (hexDigit upper (b.toNat % 16))
      have h3 := wr_at (w ++ [hexDigit upper (b.toNat / 16), hexDigit upper (b.toNat % 16)]) c2 (y ++ z) 0
      simp only [List.append_assoc, List.singleton_append, List.cons_append, List.nil_append, List.length_append,
        List.length_cons, List.length_nil, Nat.zero_add] at h2 h3
      have hi := ih (w ++ [hexDigit upper (b.toNat / 16), hexDigit upper (b.toNat % 16)]) (0 :: y) (by simp) (.inr rfl)
      simp only [List.append_assoc, List.cons_append, List.nil_append, List.length_append,
        List.length_cons, List.length_nil, Nat.zero_add] at hi
      simp only [putHex, List.length_cons, List.cons_append, h1, bind'_ok, h2, h3]
      rw [if_neg (by omega), show w.length + (y.length + 1 + 1 + 1) = w.length + (1 + 1) + (y.length + 1) by omega, hi]
      have e1 : y.length + 1 + 1 + 1 - 1 = y.length + 1 + 1 := by omega
      have e2 : w.length + (1 + 1) + 2 * Nat.min data.length ((y.length + 1 - 1) / 2) =
          w.length + 2 * Nat.min (data.length + 1) ((y.length + 1 + 1) / 2) := by
        rw [show (y.length + 1 + 1) / 2 = (y.length + 1 - 1) / 2 + 1 by omega]
        simp only [Nat.min_def]
        split <;> split <;> omega
      rw [e1, e2]
      simp only [List.take_succ_cons, List.length_cons, List.drop_succ_cons, Nat.add_sub_cancel, List.cons_append]

/-- **C49**, exactly: for at least one byte the text is the first `size - 1` characters of the hexadecimal text, the
result counts only whole bytes. -/
theorem C49_partial_exact (buf : Bytes) (size : Nat) (data : Bytes) (upper : Bool) (hs : 0 < size) (hl : size ≤ buf.length)
    (hd : data ≠ []) :
    ∃ d, printfHex (some buf) size (some data) upper = .ok (some d, 2 * Nat.min data.length ((size - 1) / 2)) ∧
      d.length = buf.length ∧ d.drop size = buf.drop size ∧ cstr d = (hexText upper data).take (size - 1) := by
  have hy : (buf.take size).length = size := by rw [List.length_take]; omega
  have hyne : buf.take size ≠ [] := fun e => by rw [e] at hy; simp at hy; omega
  have h := hexLoop_spec upper (buf.drop size) data [] (buf.take size) hyne (.inl hd)
  simp only [List.nil_append, List.length_nil, Nat.zero_add, hy, List.take_append_drop] at h
  unfold printfHex
  simp only [show size ≠ 0 by omega, if_false, h, bind'_ok]
  generalize ht : (hexText upper data).take (size - 1) = t
  have htl : t.length ≤ size - 1 := by rw [← ht, List.length_take]; omega
  have htz : (0 : UInt8) ∉ t := fun e => hexText_no_zero upper data ((List.take_sublist (size - 1) _).mem (ht ▸ e))
  have hlen : (t ++ 0 :: ((buf.take size).drop (t.length + 1) ++ buf.drop size)).length = buf.length := by
    simp only [List.length_append, List.length_cons, List.length_drop, hy]
    omega
  rw [wr_lt _ (by rw [hlen]; omega), bind'_ok]
  refine ⟨_, rfl, by rw [List.length_set, hlen], ?_, ?_⟩
  · rw [List.drop_set_of_lt (by omega)]
    have : t ++ 0 :: ((buf.take size).drop (t.length + 1) ++ buf.drop size) = t ++ 0 :: buf.drop (t.length + 1) := by
      congr 2
      conv => rhs; rw [← List.take_append_drop size buf]
      rw [List.drop_append_of_le_length (by omega)]
    rw [this]
    exact drop_past t 0 buf (by omega)
  · by_cases he : t.length = size - 1
    · rw [← he, List.set_append, if_neg (by omega), Nat.sub_self]
      exact cstr_append_zero htz _
    · rw [List.set_append, if_neg (by omega), show size - 1 - t.length = (size - 2 - t.length) + 1 by omega, List.set_cons_succ]
      exact cstr_append_zero htz _

/-- **C49** for at least one byte: text and terminator are right for every size, the count is right exactly when the size is odd or
holds the whole text. -/
theorem C49_partial (buf : Bytes) (size : Nat) (data : Bytes) (upper : Bool) (hs : 0 < size) (hl : size ≤ buf.length)
    (hd : data ≠ []) :
    ∃ d n, printfHex (some buf) size (some data) upper = .ok (some d, n) ∧ d.length = buf.length ∧
      d.drop size = buf.drop size ∧ (cstr d).length < size ∧ cstr d <+: hexText upper data ∧
      (n = (cstr d).length ↔ size % 2 = 1 ∨ 2 * data.length < size) := by
  obtain ⟨d, h1, h2, h3, h4⟩ := C49_partial_exact buf size data upper hs hl hd
  have hlen : (cstr d).length = Nat.min (size - 1) (2 * data.length) := by
    rw [h4, List.length_take, hexText_length]
  refine ⟨d, _, h1, h2, h3, ?_, h4 ▸ List.take_prefix _ _, ?_⟩
  · rw [hlen]
    have : Nat.min (size - 1) (2 * data.length) ≤ size - 1 := Nat.min_le_left _ _
    omega
  · rw [hlen]
    simp only [Nat.min_def]
    split <;> split <;> omega

/-- A text cut in the middle of a byte is longer than reported. -/
theorem C49_violated_count : printfHex (some [1, 1]) 2 (some [171]) true = .ok (some (str "A" ++ [0]), 0) := by decide

/-- Nothing is written at the start for no data: the text is what the buffer held before. -/
theorem C49_violated_empty : printfHex (some [65, 66, 67]) 3 (some []) true = .ok (some [65, 66, 0], 0) := by decide

/-- The code violates C49. -/
theorem C49_violated : ¬ C49_statement := by
  intro h
  obtain ⟨d, n, h1, -, -, -, -, h2⟩ := h [1, 1] 2 [171] true (by decide) (by decide)
  rw [C49_violated_count] at h1
  cases h1
  revert h2
  decide

/-- The only call (/repo/src/brski/pledge/pledge_request.cpp:243): eight random bytes give 15 characters. -/
example : printfHex (some (List.replicate 16 7)) 16 (some [1, 2, 3, 4, 5, 6, 7, 255]) true =
    .ok (some (str "01020304050607F" ++ [0]), 14) := by decide

/-! ## C48: standard input -/

/-- **C48** as stated: input that fits with its NUL is kept exactly, longer input is refused, whatever the 4096 bytes
held before. -/
def C48_statement : Prop :=
  ∀ inbuf input : Bytes, inbuf.length = 4096 →
    (input.length < 4096 → ∃ rest, readVoucherText inbuf input = .ok (some (input ++ 0 :: rest))) ∧
    (4096 ≤ input.length → readVoucherText inbuf input = .ok none)

theorem readStdin_spec : ∀ (input w y : Bytes), w.length + y.length = 4096 →
    readStdin input w.length (w ++ y) =
      if input.length ≤ y.length then .ok (w ++ (input ++ y.drop input.length), some (w.length + input.length)) else .ub := by
  intro input
  induction input with
  | nil => intro w y _; simp [readStdin]
  | cons c input ih =>
    intro w y h
    cases y with
    | nil =>
      have := wr_end w c
      simp [readStdin, this]
    | cons x y =>
      have := ih (w ++ [c]) y (by simp at h ⊢; omega)
      simp only [List.append_assoc, List.singleton_append, List.length_append, List.length_singleton] at this
      simp only [List.length_cons] at h
      rw [readStdin, wr_at, bind'_ok, if_neg (by unfold maxStdin; omega), this]
      simp [Nat.add_comm, Nat.add_left_comm]

/-- **C48**, exactly: the input is read when it is shorter than the buffer, and otherwise the buffer is overrun. -/
theorem C48_partial (inbuf input : Bytes) (h : inbuf.length = 4096) :
    readVoucherText inbuf input =
      if input.length < 4096 then .ok (some (input ++ 0 :: inbuf.drop (input.length + 1))) else .ub := by
  have hr := readStdin_spec input [] inbuf (by simpa using h)
  simp only [List.nil_append, List.length_nil, Nat.zero_add, h] at hr
  unfold readVoucherText
  rw [hr]
  by_cases hl : input.length < 4096
  · rw [if_pos (by omega), if_pos hl, bind'_ok]
    have hd : inbuf.drop input.length = inbuf[input.length] :: inbuf.drop (input.length + 1) :=
      List.drop_eq_getElem_cons (by omega)
    simp only [hd, wr_at, bind'_ok]
  · rw [if_neg hl]
    by_cases he : input.length ≤ 4096
    · rw [if_pos he, bind'_ok]
      have : inbuf.drop input.length = [] := List.drop_eq_nil_of_le (by omega)
      simp only [this, List.append_nil, wr_end, bind'_ub]
    · rw [if_neg he]
      rfl

/-- The code violates C48: no input is ever refused, input of 4096 bytes or more overruns the buffer. -/
theorem C48_violated_overrun (inbuf input : Bytes) (h : inbuf.length = 4096) (hl : 4096 ≤ input.length) :
    readVoucherText inbuf input = .ub := by
  rw [C48_partial inbuf input h, if_neg (by omega)]

/-- The code violates C48. -/
theorem C48_violated : ¬ C48_statement := by
  intro h
  have := (h (List.replicate 4096 0) (List.replicate 4096 65) List.length_replicate).2 (by rw [List.length_replicate]; omega)
  rw [C48_violated_overrun _ _ List.length_replicate (by rw [List.length_replicate]; omega)] at this
  cases this

/-- Non-vacuity: a short text is read. -/
example (rest : Bytes) (h : rest.length = 4094) : readVoucherText (1 :: 2 :: rest) (str "A") = .ok (some (str "A" ++ 0 :: rest)) := by
  rw [C48_partial _ _ (by simp [h]), if_pos (by decide)]
  rfl

end Brski.Props
