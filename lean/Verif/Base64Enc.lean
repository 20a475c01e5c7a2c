import Verif.Base64Lemmas

/-!
# The encoder computes the RFC 4648 text
-/

namespace Brski.Base64
open Outcome Spec

theorem s1 : ∀ a : UInt8, ((a >>> 2) &&& 0x3f).toNat = a.toNat / 4 :=
  forall_uint8 (by decide +kernel)
theorem s4 : ∀ a : UInt8, (a &&& 0x3f).toNat = a.toNat % 64 :=
  forall_uint8 (by decide +kernel)
theorem and3 : ∀ a : UInt8, a &&& 0x03 = UInt8.ofNat (a.toNat % 4) :=
  forall_uint8 (by decide +kernel)
theorem and15 : ∀ a : UInt8, a &&& 0x0f = UInt8.ofNat (a.toNat % 16) :=
  forall_uint8 (by decide +kernel)
theorem shr4 : ∀ a : UInt8, a >>> 4 = UInt8.ofNat (a.toNat / 16) :=
  forall_uint8 (by decide +kernel)
theorem shr6 : ∀ a : UInt8, a >>> 6 = UInt8.ofNat (a.toNat / 64) :=
  forall_uint8 (by decide +kernel)

theorem s2_tab : ∀ x : Nat, x < 4 → ∀ y : Nat, y < 16 →
    (((UInt8.ofNat x <<< 4) ||| UInt8.ofNat y) &&& 0x3f).toNat = x * 16 + y := by
  decide +kernel
theorem s3_tab : ∀ x : Nat, x < 16 → ∀ y : Nat, y < 4 →
    (((UInt8.ofNat x <<< 2) ||| UInt8.ofNat y) &&& 0x3f).toNat = x * 4 + y := by
  decide +kernel
theorem s2z_tab : ∀ x : Nat, x < 4 → ((UInt8.ofNat x <<< 4) &&& 0x3f).toNat = x * 16 := by
  decide +kernel
theorem s3z_tab : ∀ x : Nat, x < 16 → ((UInt8.ofNat x <<< 2) &&& 0x3f).toNat = x * 4 := by
  decide +kernel

theorem s2 (a b : UInt8) :
    ((((a &&& 0x03) <<< 4) ||| (b >>> 4)) &&& 0x3f).toNat = a.toNat % 4 * 16 + b.toNat / 16 := by
  have := b.toNat_lt
  rw [and3, shr4, s2_tab _ (by omega) _ (by omega)]
theorem s3 (a b : UInt8) :
    ((((a &&& 0x0f) <<< 2) ||| (b >>> 6)) &&& 0x3f).toNat = a.toNat % 16 * 4 + b.toNat / 64 := by
  have := b.toNat_lt
  rw [and15, shr6, s3_tab _ (by omega) _ (by omega)]
theorem s2z (a : UInt8) : (((a &&& 0x03) <<< 4) &&& 0x3f).toNat = a.toNat % 4 * 16 := by
  rw [and3, s2z_tab _ (by omega)]
theorem s3z (a : UInt8) : (((a &&& 0x0f) <<< 2) &&& 0x3f).toNat = a.toNat % 16 * 4 := by
  rw [and15, s3z_tab _ (by omega)]

/-! ## Bit groups -/

theorem g1 : ∀ a : UInt8, bitsVal [a.toNat.testBit 7, a.toNat.testBit 6, a.toNat.testBit 5,
    a.toNat.testBit 4, a.toNat.testBit 3, a.toNat.testBit 2] = a.toNat / 4 :=
  forall_uint8 (by decide +kernel)
theorem g4 : ∀ a : UInt8, bitsVal [a.toNat.testBit 5, a.toNat.testBit 4, a.toNat.testBit 3,
    a.toNat.testBit 2, a.toNat.testBit 1, a.toNat.testBit 0] = a.toNat % 64 :=
  forall_uint8 (by decide +kernel)
theorem lo2 : ∀ a : UInt8, bitsVal [a.toNat.testBit 1, a.toNat.testBit 0] = a.toNat % 4 :=
  forall_uint8 (by decide +kernel)
theorem lo4 : ∀ a : UInt8, bitsVal [a.toNat.testBit 3, a.toNat.testBit 2, a.toNat.testBit 1,
    a.toNat.testBit 0] = a.toNat % 16 :=
  forall_uint8 (by decide +kernel)
theorem hi4 : ∀ a : UInt8, bitsVal [a.toNat.testBit 7, a.toNat.testBit 6, a.toNat.testBit 5,
    a.toNat.testBit 4] = a.toNat / 16 :=
  forall_uint8 (by decide +kernel)
theorem hi2 : ∀ a : UInt8, bitsVal [a.toNat.testBit 7, a.toNat.testBit 6] = a.toNat / 64 :=
  forall_uint8 (by decide +kernel)

theorem bitsVal_24 (x y a b c d : Bool) : bitsVal [x, y, a, b, c, d] =
    bitsVal [x, y] * 16 + bitsVal [a, b, c, d] := by
  cases x <;> cases y <;> cases a <;> cases b <;> cases c <;> cases d <;> rfl
theorem bitsVal_42 (x y a b c d : Bool) : bitsVal [x, y, a, b, c, d] =
    bitsVal [x, y, a, b] * 4 + bitsVal [c, d] := by
  cases x <;> cases y <;> cases a <;> cases b <;> cases c <;> cases d <;> rfl

theorem g2 (a b : UInt8) : bitsVal [a.toNat.testBit 1, a.toNat.testBit 0, b.toNat.testBit 7,
    b.toNat.testBit 6, b.toNat.testBit 5, b.toNat.testBit 4] =
    a.toNat % 4 * 16 + b.toNat / 16 := by rw [bitsVal_24, lo2, hi4]
theorem g3 (a b : UInt8) : bitsVal [a.toNat.testBit 3, a.toNat.testBit 2, a.toNat.testBit 1,
    a.toNat.testBit 0, b.toNat.testBit 7, b.toNat.testBit 6] =
    a.toNat % 16 * 4 + b.toNat / 64 := by rw [bitsVal_42, lo4, hi2]
theorem g2z (a : UInt8) : bitsVal [a.toNat.testBit 1, a.toNat.testBit 0, false,
    false, false, false] = a.toNat % 4 * 16 := by rw [bitsVal_24, lo2]; simp [bitsVal]
theorem g3z (a : UInt8) : bitsVal [a.toNat.testBit 3, a.toNat.testBit 2, a.toNat.testBit 1,
    a.toNat.testBit 0, false, false] = a.toNat % 16 * 4 := by rw [bitsVal_42, lo4]; simp [bitsVal]

theorem sextets_step (b0 b1 b2 b3 b4 b5 : Bool) (r : List Bool) :
    sextets (b0 :: b1 :: b2 :: b3 :: b4 :: b5 :: r) =
      bitsVal [b0, b1, b2, b3, b4, b5] :: sextets r := by
  rw [sextets]; simp

theorem sextets_nil : sextets [] = [] := by rw [sextets]

theorem sextets_three (a b c : UInt8) (r : List Bool) :
    sextets (byteBits a ++ (byteBits b ++ (byteBits c ++ r))) =
      a.toNat / 4 :: (a.toNat % 4 * 16 + b.toNat / 16) :: (b.toNat % 16 * 4 + c.toNat / 64) ::
        (c.toNat % 64) :: sextets r := by
  simp only [byteBits, List.map_cons, List.map_nil, List.cons_append, List.nil_append,
    sextets_step, g1, g2, g3, g4]

theorem sextets_two (a b : UInt8) : sextets (byteBits a ++ byteBits b) =
    [a.toNat / 4, a.toNat % 4 * 16 + b.toNat / 16, b.toNat % 16 * 4] := by
  simp only [byteBits, List.map_cons, List.map_nil, List.cons_append, List.nil_append,
    sextets_step, g1, g2]
  rw [sextets]
  simp only [List.cons_append, List.nil_append, List.take_succ_cons, List.take_zero,
    List.replicate, List.drop_succ_cons, List.drop_nil, sextets_nil, g3z]

theorem sextets_one (a : UInt8) : sextets (byteBits a) = [a.toNat / 4, a.toNat % 4 * 16] := by
  simp only [byteBits, List.map_cons, List.map_nil, sextets_step, g1]
  rw [sextets]
  simp only [List.cons_append, List.nil_append, List.take_succ_cons, List.take_zero,
    List.replicate, List.drop_succ_cons, List.drop_nil, sextets_nil, g2z]

theorem sextets_length_mod (l : Bytes) (n : Nat) (h : l.length = n) :
    (sextets (l.flatMap byteBits)).length = (8 * n + 5) / 6 := by
  induction n using Nat.strongRecOn generalizing l with
  | ind n ih =>
    match l with
    | [] => simp [sextets_nil] at *; omega
    | [a] => simp [sextets_one] at *; omega
    | [a, b] => simp [sextets_two] at *; omega
    | a :: b :: c :: r =>
      have := ih r.length (by simp at h; omega) r rfl
      simp only [List.flatMap_cons, sextets_three, List.length_cons, this]
      simp at h; omega

theorem quad_eq (a b c : UInt8) : quad a b c =
    [alphabet (a.toNat / 4), alphabet (a.toNat % 4 * 16 + b.toNat / 16),
     alphabet (b.toNat % 16 * 4 + c.toNat / 64), alphabet (c.toNat % 64)] := by
  rw [quad, s1, s2, s3, s4]

theorem rfc_three (a b c : UInt8) (r : Bytes) :
    rfc4648 (a :: b :: c :: r) = quad a b c ++ rfc4648 r := by
  simp only [rfc4648, List.flatMap_cons, sextets_three, quad_eq, List.map_cons,
    List.length_cons, List.cons_append, List.nil_append, List.cons.injEq, true_and]
  congr 2
  omega

theorem enc_eq_rfc (l : Bytes) : enc l = rfc4648 l := by
  fun_induction enc l with
  | case1 a b c r ih => rw [rfc_three, ih]
  | case2 a b =>
    rw [s1, s2, s3z]
    simp [rfc4648, sextets_two]
  | case3 a =>
    rw [s1, s2z]
    simp [rfc4648, sextets_one, List.replicate]
  | case4 => simp [rfc4648, sextets_nil]

theorem encOlen_eq {n : Nat} (h : n < sizeMax / 4) :
    encOlen n true = (n * 4 / 3 + 4) + (n * 4 / 3 + 4) / 72 + 1 := by
  unfold sizeMax at h
  unfold encOlen
  rw [szWrap_of_lt (n := n * 4) (by omega), szWrap_of_lt (n := n * 4 / 3 + 4) (by omega)]
  simp only [if_true]
  rw [szWrap_of_lt (n := n * 4 / 3 + 4 + _) (by omega), szWrap_of_lt (by omega)]

theorem genEncode_spec (al : Allocator) (src : Bytes) :
    genEncode al src true = .ok none ∨
    ∃ o, genEncode al src true = .ok (some (o, (rfc4648 src).length)) ∧
      o.take (rfc4648 src).length = rfc4648 src ∧ o[(rfc4648 src).length]? = some 0 := by
  unfold genEncode
  split
  · exact .inl rfl
  · rename_i h
    have h' : src.length < sizeMax / 4 := by omega
    split
    · exact .inl rfl
    · split
      · exact .inl rfl
      · rename_i buf hb
        have hl := al.length_eq _ _ hb
        rw [encOlen_eq h'] at hl
        obtain ⟨o, h1, h2, h3, h4⟩ := encRun_spec src { inp := 0, out := buf, pos := 0 } (by
          simp only [List.drop_zero, enc_length, Nat.zero_add]
          omega)
        simp only [List.drop_zero, Nat.zero_add, enc_eq_rfc, List.take_zero, List.nil_append] at h1 h3 h4
        exact .inr ⟨o, h1, h3, h4⟩

/-- The encoder fails only when the size limit is exceeded or memory is exhausted. -/
theorem genEncode_succ (al : Allocator) (src : Bytes) (h : src.length < sizeMax / 4)
    (ha : al.malloc (encOlen src.length true) ≠ none) :
    genEncode al src true ≠ .ok none := by
  unfold genEncode
  rw [if_neg (by omega), if_neg (by rw [encOlen_eq h]; omega)]
  split
  · contradiction
  · rename_i buf hb
    have hl := al.length_eq _ _ hb
    rw [encOlen_eq h] at hl
    obtain ⟨o, h1, h2, h3, h4⟩ := encRun_spec src { inp := 0, out := buf, pos := 0 } (by
      simp only [List.drop_zero, enc_length, Nat.zero_add]
      omega)
    intro hc
    have := h1.symm.trans hc
    simp at this

end Brski.Base64
