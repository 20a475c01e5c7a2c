import Verif.Base64
import Verif.SpecBase64

/-!
# Helper lemmas for the base64 codec
-/

namespace Brski.Base64
open Outcome Spec

/-! ## Lifting a complete table check to all bytes -/

theorem forall_uint8 {P : UInt8 → Prop} (h : ∀ n : Nat, n < 256 → P (UInt8.ofNat n)) :
    ∀ x, P x := by
  intro x
  have := h x.toNat (UInt8.toNat_lt x)
  simpa using this

theorem table_lookup : ∀ n : Nat, n < 64 → rd table n = .ok (alphabet n) := by decide +kernel

theorem and63_lt : ∀ x : UInt8, (x &&& 0x3f).toNat < 64 :=
  forall_uint8 (by decide +kernel)

theorem tab_mask (x : UInt8) : tab (x &&& 0x3f) = .ok (alphabet (x &&& 0x3f).toNat) :=
  table_lookup _ (and63_lt x)

/-! ## Functional form of the encoder -/

/-- The four characters of a full group (used in proofs;
/repo/src/voucher/serialize.c:146-149). -/
def quad (a b c : UInt8) : Bytes :=
  [alphabet ((a >>> 2) &&& 0x3f).toNat,
   alphabet ((((a &&& 0x03) <<< 4) ||| (b >>> 4)) &&& 0x3f).toNat,
   alphabet ((((b &&& 0x0f) <<< 2) ||| (c >>> 6)) &&& 0x3f).toNat,
   alphabet (c &&& 0x3f).toNat]

/-- Functional encoder (used in proofs; /repo/src/voucher/serialize.c:145-168). -/
def enc : Bytes → Bytes
  | a :: b :: c :: r => quad a b c ++ enc r
  | [a, b] =>
    [alphabet ((a >>> 2) &&& 0x3f).toNat,
     alphabet ((((a &&& 0x03) <<< 4) ||| (b >>> 4)) &&& 0x3f).toNat,
     alphabet (((b &&& 0x0f) <<< 2) &&& 0x3f).toNat, 61]
  | [a] =>
    [alphabet ((a >>> 2) &&& 0x3f).toNat,
     alphabet (((a &&& 0x03) <<< 4) &&& 0x3f).toNat, 61, 61]
  | [] => []

theorem enc_length (l : Bytes) : (enc l).length = 4 * ((l.length + 2) / 3) := by
  fun_induction enc l <;> simp_all [quad] <;> omega

theorem take_set_succ (b : Bytes) (i : Nat) (v : UInt8) (h : i < b.length) :
    (b.set i v).take (i + 1) = b.take i ++ [v] := by
  rw [List.take_add_one, List.take_set_of_le (Nat.le_refl i)]
  simp [h]

theorem drop_cons3 {l : Bytes} {i : Nat} (h : l.length - i ≥ 3) :
    ∃ a b c, l[i]? = some a ∧ l[i+1]? = some b ∧ l[i+2]? = some c ∧
      l.drop i = a :: b :: c :: l.drop (i+3) := by
  refine ⟨l[i], l[i+1], l[i+2], ?_, ?_, ?_, ?_⟩
  · simp
  · simp
  · simp
  · rw [List.drop_eq_getElem_cons (by omega), List.drop_eq_getElem_cons (i := i+1) (by omega),
      List.drop_eq_getElem_cons (i := i+2) (by omega)]

/-- What remains after the main loop (used in proofs;
/repo/src/voucher/serialize.c:153-173). -/
def encFinish (src : Bytes) (s : EncSt) : Outcome (Option (Bytes × Nat)) :=
  (encTail src true s).bind fun s =>
  (wr s.out s.pos 0).bind fun o =>
  .ok (some (o, s.pos))

theorem encFinish_spec (src : Bytes) (s : EncSt) (hr : src.length - s.inp < 3)
    (h2 : s.pos + (enc (src.drop s.inp)).length < s.out.length) :
    ∃ o, encFinish src s = .ok (some (o, s.pos + (enc (src.drop s.inp)).length)) ∧
      o.length = s.out.length ∧
      o.take (s.pos + (enc (src.drop s.inp)).length) = s.out.take s.pos ++ enc (src.drop s.inp) ∧
      o[s.pos + (enc (src.drop s.inp)).length]? = some 0 := by
  obtain ⟨inp, out, pos⟩ := s
  simp only at *
  have hdl : (src.drop inp).length = src.length - inp := by simp
  match hd : src.drop inp with
  | [] =>
    rw [hd] at hdl h2
    simp [enc] at *
    have : src.length - inp = 0 := by omega
    refine ⟨out.set pos 0, ?_, ?_, ?_, ?_⟩
    · simp [encFinish, encTail, this, wr_lt, h2]
    · simp
    · rw [List.take_set_of_le (Nat.le_refl _)]
    · simp [h2]
  | [a] =>
    rw [hd] at hdl h2
    simp [enc] at hdl h2 ⊢
    have hl : src.length - inp = 1 := by omega
    have ha : src[inp]? = some a := by
      have := List.getElem?_drop (xs := src) (i := inp) (j := 0); simp [hd] at this; simp [← this]
    refine ⟨((((out.set pos (alphabet ((a >>> 2) &&& 0x3f).toNat)).set (pos+1)
      (alphabet (((a &&& 0x03) <<< 4) &&& 0x3f).toNat)).set (pos+2) eqc).set (pos+3) eqc).set (pos+4) 0, ?_, ?_, ?_, ?_⟩
    · have h0 : pos < out.length := by omega
      have h1 : pos + 1 < out.length := by omega
      have h2 : pos + 2 < out.length := by omega
      have h3 : pos + 3 < out.length := by omega
      have h4 : pos + 4 < out.length := by omega
      simp [encFinish, encTail, hl, rd_some ha, tab_mask, EncSt.put, wr, h0, h1, h2, h3, h4]
    · simp
    · rw [List.take_set_of_le (Nat.le_refl _), take_set_succ _ _ _ (by first | omega | (simp; omega)),
        take_set_succ _ _ _ (by first | omega | (simp; omega)), take_set_succ _ _ _ (by first | omega | (simp; omega)),
        take_set_succ _ _ _ (by first | omega | (simp; omega))]
      simp [eqc]
    · simp [h2]
  | [a, b] =>
    rw [hd] at hdl h2
    simp [enc] at hdl h2 ⊢
    have hl : src.length - inp = 2 := by omega
    have ha : src[inp]? = some a := by
      have := List.getElem?_drop (xs := src) (i := inp) (j := 0); simp [hd] at this; simp [← this]
    have hb : src[inp+1]? = some b := by
      have := List.getElem?_drop (xs := src) (i := inp) (j := 1); simp [hd] at this; simp [← this]
    refine ⟨((((out.set pos (alphabet ((a >>> 2) &&& 0x3f).toNat)).set (pos+1)
      (alphabet ((((a &&& 0x03) <<< 4) ||| (b >>> 4)) &&& 0x3f).toNat)).set (pos+2)
      (alphabet (((b &&& 0x0f) <<< 2) &&& 0x3f).toNat)).set (pos+3) eqc).set (pos+4) 0, ?_, ?_, ?_, ?_⟩
    · have h0 : pos < out.length := by omega
      have h1 : pos + 1 < out.length := by omega
      have h2 : pos + 2 < out.length := by omega
      have h3 : pos + 3 < out.length := by omega
      have h4 : pos + 4 < out.length := by omega
      simp [encFinish, encTail, hl, rd_some ha, rd_some hb, tab_mask, EncSt.put, wr, h0, h1, h2, h3, h4]
    · simp
    · rw [List.take_set_of_le (Nat.le_refl _), take_set_succ _ _ _ (by first | omega | (simp; omega)),
        take_set_succ _ _ _ (by first | omega | (simp; omega)), take_set_succ _ _ _ (by first | omega | (simp; omega)),
        take_set_succ _ _ _ (by first | omega | (simp; omega))]
      simp [eqc]
    · simp [h2]
  | a :: b :: c :: r =>
    rw [hd] at hdl; simp at hdl; omega

theorem encRun_spec (src : Bytes) (s : EncSt)
    (h2 : s.pos + (enc (src.drop s.inp)).length < s.out.length) :
    ∃ o, (encLoop src s).bind (encFinish src) =
        .ok (some (o, s.pos + (enc (src.drop s.inp)).length)) ∧
      o.length = s.out.length ∧
      o.take (s.pos + (enc (src.drop s.inp)).length) = s.out.take s.pos ++ enc (src.drop s.inp) ∧
      o[s.pos + (enc (src.drop s.inp)).length]? = some 0 := by
  induction hn : src.length - s.inp using Nat.strongRecOn generalizing s with
  | ind n ih =>
    unfold encLoop
    split
    · rename_i h
      obtain ⟨a, b, c, ha, hb, hc, hd⟩ := drop_cons3 h
      rw [hd] at h2 ⊢
      simp only [enc, List.length_append, quad, List.length_cons, List.length_nil] at h2 ⊢
      simp only [rd_some ha, rd_some hb, rd_some hc, tab_mask, bind'_ok]
      rw [wr_lt _ (by omega)]; simp only [bind'_ok]
      rw [wr_lt _ (by first | omega | (simp; omega))]; simp only [bind'_ok]
      rw [wr_lt _ (by first | omega | (simp; omega))]; simp only [bind'_ok]
      rw [wr_lt _ (by first | omega | (simp; omega))]; simp only [bind'_ok]
      have := ih (src.length - (s.inp + 3)) (by omega)
        { inp := s.inp + 3, pos := s.pos + 4,
          out := (((s.out.set s.pos (alphabet ((a >>> 2) &&& 0x3f).toNat)).set (s.pos + 1)
            (alphabet ((((a &&& 0x03) <<< 4) ||| (b >>> 4)) &&& 0x3f).toNat)).set (s.pos + 2)
            (alphabet ((((b &&& 0x0f) <<< 2) ||| (c >>> 6)) &&& 0x3f).toNat)).set (s.pos + 3)
            (alphabet (c &&& 0x3f).toNat) }
        (by first | omega | (simp; omega)) rfl
      obtain ⟨o, h1, h3, h4, h5⟩ := this
      simp only at h1 h3 h4 h5
      refine ⟨o, ?_, ?_, ?_, ?_⟩
      · rw [h1]; congr 3; omega
      · simpa using h3
      · rw [show s.pos + (4 + (enc (List.drop (s.inp + 3) src)).length) =
          s.pos + 4 + (enc (List.drop (s.inp + 3) src)).length by omega, h4]
        rw [take_set_succ _ _ _ (by first | omega | (simp; omega)), take_set_succ _ _ _ (by first | omega | (simp; omega)),
          take_set_succ _ _ _ (by first | omega | (simp; omega)), take_set_succ _ _ _ (by omega)]
        simp
      · rw [← h5]; congr 1; omega
    · rename_i h
      exact encFinish_spec src s (by omega) h2

end Brski.Base64
