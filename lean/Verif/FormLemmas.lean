import Verif.Form
import Verif.CutForm
import Verif.PropsScan

/-!
# The buffer of the parser for multipart content (lemmas)
-/

namespace Brski.Form
open Outcome Routes Scan Cut Props

/-! ## The buffer -/

/-- The part of the buffer that is in use. -/
def Holds (b : Buf) (v : Bytes) : Prop := ∃ a z, b = ⟨a ++ (v ++ z), a.length, a.length + v.length⟩

theorem holds_size {b : Buf} {v : Bytes} (h : Holds b v) : b.size = .ok v.length := by
  obtain ⟨a, z, rfl⟩ := h
  simp [Buf.size]

theorem holds_erase {b : Buf} {v : Bytes} (h : Holds b v) {n : Nat} (hn : n ≤ v.length) : Holds (b.erase n) (v.drop n) := by
  obtain ⟨a, z, rfl⟩ := h
  refine ⟨a ++ v.take n, z, ?_⟩
  have e : a ++ v.take n ++ (v.drop n ++ z) = a ++ (v ++ z) := by
    rw [List.append_assoc, ← List.append_assoc (v.take n), List.take_append_drop]
  rw [e]
  simp only [Buf.erase, List.length_append, List.length_take, List.length_drop, Nat.min_eq_left hn]
  congr 1
  omega

theorem charAt_app (a : Bytes) (c : UInt8) (b : Bytes) : charAt (a ++ c :: b) a.length = .ok c := by simp [charAt]

theorem startLoop_eq : ∀ (s a v : Bytes), s.length ≤ v.length → startLoop (a ++ v) a.length s = .ok (s.isPrefixOf v)
  | [], a, v, _ => by simp [startLoop]
  | c :: s, a, [], h => by simp at h
  | c :: s, a, x :: v, h => by
    rw [startLoop, charAt_app, bind'_ok, List.isPrefixOf_cons₂]
    by_cases hx : x = c
    · subst hx
      have := startLoop_eq s (a ++ [x]) v (by simpa using h)
      simp only [List.append_assoc, List.cons_append, List.nil_append, List.length_append, List.length_cons, List.length_nil] at this
      simp [this]
    · rw [if_pos hx]
      simp [Ne.symm hx]

theorem isPrefixOf_part {s v : Bytes} (h : s.length ≤ v.length) (z : Bytes) : s.isPrefixOf (v ++ z) = s.isPrefixOf v := by
  rw [Bool.eq_iff_iff, List.isPrefixOf_iff_prefix, List.isPrefixOf_iff_prefix]
  exact ⟨fun h1 => List.prefix_of_prefix_length_le h1 (List.prefix_append _ _) h, fun h1 => h1.trans (List.prefix_append _ _)⟩

theorem isPrefixOf_long {s v : Bytes} (h : v.length < s.length) : s.isPrefixOf v = false := by
  rw [Bool.eq_false_iff]
  intro hp
  have := (List.isPrefixOf_iff_prefix.1 hp).length_le
  omega

theorem startWith_eq (a v z s : Bytes) : startWith (a ++ (v ++ z)) a.length (a.length + v.length) s = .ok (s.isPrefixOf v) := by
  rw [startWith, if_pos (by omega)]
  by_cases h : a.length + v.length - a.length < s.length
  · rw [if_pos h, isPrefixOf_long (by omega)]
  · rw [if_neg h, startLoop_eq _ _ _ (by rw [List.length_append]; omega), isPrefixOf_part (by omega)]

theorem holds_start {b : Buf} {v : Bytes} (h : Holds b v) (s : Bytes) : b.startWith s = .ok (s.isPrefixOf v) := by
  obtain ⟨a, z, rfl⟩ := h
  exact startWith_eq a v z s

theorem holds_head {b : Buf} {v : Bytes} (h : Holds b v) {n : Nat} (hn : n ≤ v.length) : b.head n = .ok (v.take n) := by
  obtain ⟨a, z, rfl⟩ := h
  rw [Buf.head, if_pos (by simp), List.drop_left, List.take_append_of_le_length hn]

theorem holds_bytes {b : Buf} {v : Bytes} (h : Holds b v) {n : Nat} (hn : n ≤ v.length) : b.bytes n = .ok (v.take n) := by
  obtain ⟨a, z, rfl⟩ := h
  rw [Buf.bytes, slice, if_pos (by simp; omega), List.drop_left, List.take_append_of_le_length (by dsimp only; omega)]
  dsimp only
  rw [Nat.add_sub_cancel_left]

theorem nextAt_eq (c : UInt8) (z : Bytes) : ∀ (w a : Bytes),
    (c ∉ w ∧ nextAt (a ++ (w ++ z)) (a.length + w.length) c a.length = .ok none) ∨
      ∃ w1 w2, w = w1 ++ c :: w2 ∧ c ∉ w1 ∧ nextAt (a ++ (w ++ z)) (a.length + w.length) c a.length = .ok (some (a.length + w1.length))
  | [], a => .inl ⟨List.not_mem_nil, by rw [nextAt]; simp⟩
  | x :: w, a => by
    rw [nextAt, dif_pos (by simp), List.cons_append, charAt_app, bind'_ok]
    by_cases hx : x = c
    · subst hx
      exact .inr ⟨[], w, rfl, List.not_mem_nil, by simp⟩
    · rw [if_neg hx]
      have e : a ++ x :: (w ++ z) = (a ++ [x]) ++ (w ++ z) := by simp
      have l1 : a.length + (x :: w).length = (a ++ [x]).length + w.length := by simp; omega
      have l2 : a.length + 1 = (a ++ [x]).length := by simp
      rw [e, l1, l2]
      rcases nextAt_eq c z w (a ++ [x]) with ⟨h1, h2⟩ | ⟨w1, w2, h1, h2, h3⟩
      · exact .inl ⟨fun h => by rcases List.mem_cons.1 h with h | h; exact hx h.symm; exact h1 h, h2⟩
      · refine .inr ⟨x :: w1, w2, by rw [h1]; rfl, fun h => by rcases List.mem_cons.1 h with h | h; exact hx h.symm; exact h2 h, ?_⟩
        rw [h3]
        simp; omega

theorem findAt_skip {c : UInt8} {s : Bytes} : ∀ (w1 w2 : Bytes), c ∉ w1 → findAt (c :: s) (w1 ++ w2) = w1.length + findAt (c :: s) w2
  | [], w2, _ => by simp
  | x :: w1, w2, h => by
    rw [List.cons_append, findAt, if_neg (by
      rw [List.isPrefixOf_cons₂]
      simp only [Bool.and_eq_true, beq_iff_eq]
      rintro ⟨e, _⟩
      exact h (by rw [e]; exact List.mem_cons_self)), findAt_skip w1 w2 fun hm => h (List.mem_cons_of_mem _ hm)]
    simp only [List.length_cons]
    omega

theorem findAt_long {s : Bytes} : ∀ w : Bytes, w.length < s.length → findAt s w = w.length
  | [], _ => rfl
  | x :: w, h => by
    rw [findAt, if_neg (by rw [isPrefixOf_long h]; simp), findAt_long w (by simp at h; omega)]
    rfl

theorem findLoop_eq (a z s : Bytes) (c : UInt8) : ∀ (k : Nat) (u w : Bytes), w.length < k →
    findLoop ⟨a ++ ((u ++ w) ++ z), a.length, a.length + (u ++ w).length⟩ c (c :: s) k (a.length + u.length) = .ok (u.length + findAt (c :: s) w)
  | 0, _, w, h => by omega
  | k + 1, u, w, h => by
    have hsize : Buf.size ⟨a ++ ((u ++ w) ++ z), a.length, a.length + (u ++ w).length⟩ = .ok (u.length + w.length) := by
      simp [Buf.size]
    rw [findLoop]
    dsimp only
    by_cases hw : w = []
    · subst hw
      rw [if_neg (by simp), hsize]
      rfl
    · have hpos : 0 < w.length := List.length_pos_iff.2 hw
      have hlen : (u ++ w).length = u.length + w.length := List.length_append
      rw [if_pos (by rw [hlen]; omega)]
      have e : a ++ ((u ++ w) ++ z) = (a ++ u) ++ (w ++ z) := by simp
      have l1 : a.length + (u ++ w).length = (a ++ u).length + w.length := by simp; omega
      have l2 : a.length + u.length = (a ++ u).length := by simp
      rcases nextAt_eq c z w (a ++ u) with ⟨h1, h2⟩ | ⟨w1, w2, h1, h2, h3⟩
      · rw [e, l1, l2, h2, bind'_ok, ← e, ← l1, hsize]
        have := findAt_skip (s := s) w [] h1
        rw [List.append_nil] at this
        rw [this]
        simp [findAt]
      · rw [e, l1, l2, h3, bind'_ok]
        dsimp only
        have hl : w.length = w1.length + (w2.length + 1) := by rw [h1]; simp
        rw [if_pos (by omega)]
        have hf : findAt (c :: s) w = w1.length + findAt (c :: s) (c :: w2) := by rw [h1]; exact findAt_skip w1 _ h2
        by_cases hs : (c :: s).length > (a ++ u).length + w.length - ((a ++ u).length + w1.length)
        · rw [if_pos hs, ← e, ← l1, hsize, hf, findAt_long (c :: w2) (by simp only [List.length_cons] at hs ⊢; omega), hl]
          rfl
        · rw [if_neg hs]
          have e2 : a ++ u ++ (w ++ z) = (a ++ u ++ w1) ++ ((c :: w2) ++ z) := by rw [h1]; simp
          have l3 : (a ++ u).length + w.length = (a ++ u ++ w1).length + (c :: w2).length := by
            rw [hl]; simp only [List.length_append, List.length_cons]; omega
          have l4 : (a ++ u).length + w1.length = (a ++ u ++ w1).length := by simp only [List.length_append]
          rw [show startWith (a ++ u ++ (w ++ z)) ((a ++ u).length + w1.length) ((a ++ u).length + w.length) (c :: s) =
            .ok ((c :: s).isPrefixOf (c :: w2)) by rw [e2, l3, l4]; exact startWith_eq _ _ _ _, bind'_ok]
          rw [hf, findAt]
          by_cases hp : (c :: s).isPrefixOf (c :: w2) = true
          · rw [if_pos hp, if_pos hp, if_pos (by simp only [List.length_append]; omega)]
            simp only [List.length_append]
            congr 1
            omega
          · rw [if_neg hp, if_neg hp]
            have e3 : u ++ w = (u ++ w1 ++ [c]) ++ w2 := by rw [h1]; simp
            have ih := findLoop_eq a z s c k (u ++ w1 ++ [c]) w2 (by omega)
            rw [← e3] at ih
            have l5 : (a ++ u).length + w1.length + 1 = a.length + (u ++ w1 ++ [c]).length := by
              simp only [List.length_append, List.length_cons, List.length_nil]; omega
            rw [l5, ← e, ← l1, ih]
            simp only [List.length_append, List.length_cons, List.length_nil]
            congr 1
            omega

theorem holds_find {b : Buf} {v : Bytes} (h : Holds b v) {s : Bytes} (hs : s ≠ []) : b.find s = .ok (findAt s v) := by
  obtain ⟨a, z, rfl⟩ := h
  cases s with
  | nil => exact absurd rfl hs
  | cons c s =>
    have := findLoop_eq a z s c (v.length + 1) [] v (by omega)
    simp only [List.nil_append, List.length_nil, Nat.add_zero, Nat.zero_add] at this
    rw [Buf.find]
    dsimp only
    rw [show a.length + v.length + 1 - a.length = v.length + 1 by omega]
    exact this

theorem shiftLoop_eq (spos : Nat) : ∀ (n i : Nat) (d : Bytes), spos + i + n ≤ d.length →
    ∃ d', shiftLoop spos n i d = .ok d' ∧ d'.length = d.length ∧ d'.take (i + n) = d.take i ++ (d.drop (spos + i)).take n
  | 0, i, d, _ => ⟨d, rfl, rfl, by simp⟩
  | n + 1, i, d, h => by
    have hlt : spos + i < d.length := by omega
    have hc : charAt d (spos + i) = .ok d[spos + i] := by simp [charAt, hlt]
    obtain ⟨d', h1, h2, h3⟩ := shiftLoop_eq spos n (i + 1) (d.set i d[spos + i]) (by rw [List.length_set]; omega)
    refine ⟨d', ?_, by rw [h2, List.length_set], ?_⟩
    · rw [shiftLoop, hc, bind'_ok, setAt, if_pos (by omega), bind'_ok, h1]
    · rw [show i + (n + 1) = i + 1 + n by omega, h3, List.drop_set_of_lt (by omega), List.take_set, List.take_succ_eq_append_getElem (by omega),
        List.set_append_right _ _ (by rw [List.length_take]; omega)]
      rw [show i - (d.take i).length = 0 by rw [List.length_take]; omega, List.set_cons_zero, List.append_assoc]
      congr 1
      rw [show spos + (i + 1) = spos + i + 1 by omega, ← List.getElem_cons_drop hlt]
      rfl

theorem copyLoop_eq : ∀ (x : Bytes) (i : Nat) (d : Bytes), i + x.length ≤ d.length →
    copyLoop x i d = .ok (d.take i ++ x ++ d.drop (i + x.length))
  | [], i, d, _ => by simp [copyLoop]
  | c :: x, i, d, h => by
    simp only [List.length_cons] at h
    rw [copyLoop, setAt, if_pos (by omega), bind'_ok, copyLoop_eq x (i + 1) _ (by rw [List.length_set]; omega)]
    rw [List.drop_set_of_lt (by omega), List.take_set, List.take_succ_eq_append_getElem (by omega),
      List.set_append_right _ _ (by rw [List.length_take]; omega), show i - (d.take i).length = 0 by rw [List.length_take]; omega,
      List.set_cons_zero]
    simp only [List.append_assoc, List.cons_append, List.nil_append, List.length_cons]
    rw [show i + 1 + x.length = i + (x.length + 1) by omega]

theorem holds_append {b : Buf} {v : Bytes} (h : Holds b v) (x : Bytes) : ∃ b', b.append x = .ok b' ∧ Holds b' (v ++ x) := by
  have hs := holds_size h
  obtain ⟨a, z, rfl⟩ := h
  have hd : ∃ d, (if v.length > 0 ∧ a.length > 0 then shiftLoop a.length v.length 0 (a ++ (v ++ z)) else .ok (a ++ (v ++ z))) = .ok d ∧
      d.take v.length = v := by
    by_cases hc : v.length > 0 ∧ a.length > 0
    · rw [if_pos hc]
      obtain ⟨d', h1, _, h3⟩ := shiftLoop_eq a.length v.length 0 (a ++ (v ++ z)) (by simp)
      refine ⟨d', h1, ?_⟩
      simpa using h3
    · rw [if_neg hc]
      refine ⟨_, rfl, ?_⟩
      by_cases hv : v = []
      · subst hv; simp
      · have : a = [] := by
          have := List.length_pos_iff.2 hv
          exact List.length_eq_zero_iff.1 (by omega)
        subst this
        simp
  obtain ⟨d, h1, h2⟩ := hd
  have hvl : v.length ≤ d.length := by
    have := congrArg List.length h2
    rw [List.length_take] at this
    omega
  unfold Buf.append
  rw [hs, bind'_ok]
  dsimp only
  rw [h1, bind'_ok]
  generalize he : (if v.length + x.length > d.length then d ++ List.replicate (v.length + x.length - d.length) 0 else d) = e
  have hel : v.length + x.length ≤ e.length ∧ e.take v.length = v := by
    rw [← he]
    split
    · refine ⟨by simp only [List.length_append, List.length_replicate]; omega, ?_⟩
      rw [List.take_append_of_le_length hvl, h2]
    · exact ⟨by omega, h2⟩
  rw [copyLoop_eq x _ e hel.1, bind'_ok, hel.2]
  refine ⟨_, rfl, [], e.drop (v.length + x.length), ?_⟩
  simp

end Brski.Form
