import Verif.Base64Enc

/-!
# Helper lemmas about the base64 decoder
-/

namespace Brski.Base64
open Outcome Spec

/-- Value of a character in the inverse table (used in proofs;
/repo/src/voucher/serialize.c:185-189). -/
def dv (c : UInt8) : UInt8 := dtable[c.toNat]?.getD 0

theorem dtable_length : dtable.length = 256 := by decide +kernel

theorem dt_eq (c : UInt8) : dt c = .ok (dv c) := by
  have h : c.toNat < dtable.length := by rw [dtable_length]; exact c.toNat_lt
  simp [dt, dv, rd_lt h, List.getElem?_eq_getElem h]

theorem dv_valid : ∀ c : UInt8, (dv c ≠ 0x80) ↔ isB64Char c = true :=
  forall_uint8 (by decide +kernel)

theorem dv_eqc : dv eqc = 0 := by decide +kernel

/-- Functional form of the decoding loop over the meaningful characters (used in
proofs; /repo/src/voucher/serialize.c:213-250).  `none` is the padding error. -/
def decBlocks : Bytes → Option Bytes
  | a :: b :: c :: d :: r =>
    let pad := [a, b, c, d].count eqc
    let bs := [(dv a <<< 2) ||| (dv b >>> 4), (dv b <<< 4) ||| (dv c >>> 2), (dv c <<< 6) ||| dv d]
    if pad = 0 then (decBlocks r).map (bs ++ ·)
    else if pad = 1 then some (bs.take 2)
    else if pad = 2 then some (bs.take 1)
    else none
  | _ => some []

theorem countLoop_spec (src : Bytes) (i k : Nat) :
    countLoop src i k = .ok (k + ((src.drop i).filter isB64Char).length) := by
  induction hn : src.length - i using Nat.strongRecOn generalizing i k with
  | ind n ih =>
    unfold countLoop
    split
    · rename_i h
      rw [rd_lt h]
      simp only [bind'_ok, dt_eq]
      rw [ih (src.length - (i + 1)) (by omega) (i + 1) _ rfl]
      rw [List.drop_eq_getElem_cons h, List.filter_cons]
      by_cases hv : isB64Char src[i] = true
      · simp [hv, (dv_valid _).2 hv]; omega
      · have : dv src[i] = 0x80 := by
          by_cases hx : dv src[i] = 0x80
          · exact hx
          · exact absurd ((dv_valid _).1 hx) hv
        simp [hv, this]
    · rename_i h
      rw [List.drop_eq_nil_of_le (by omega)]; simp

theorem take_set_two (o : Bytes) (p : Nat) (x y z : UInt8) (h : p + 2 < o.length) :
    (((o.set p x).set (p+1) y).set (p+2) z).take (p + 3) = o.take p ++ [x, y, z] := by
  rw [take_set_succ _ _ _ (by simp; omega), take_set_succ _ _ _ (by simp; omega),
    take_set_succ _ _ _ (by omega)]
  simp

theorem list4 {l : Bytes} (h : l.length = 4) : ∃ a b c d, l = [a, b, c, d] := by
  match l, h with
  | [a, b, c, d], _ => exact ⟨a, b, c, d, rfl⟩

/-- Relation between the functional result and the outcome of the loop started at
output offset `pos` of `out` (used in proofs; /repo/src/voucher/serialize.c:213-252). -/
def DecRel (out : Bytes) (pos : Nat) (r : Outcome DecRes) : Option Bytes → Prop
  | none => r = .ok .freed
  | some bs => ∃ o, r = .ok (.done o (pos + bs.length)) ∧
      o.take (pos + bs.length) = out.take pos ++ bs

/-- Refinement of the decoding loop to `decBlocks`. `acc` are the meaningful
characters of the block being assembled. -/
theorem decLoop_spec (src : Bytes) (ep : Nat) (i : Nat) (s : DecSt) (acc : Bytes) (k : Nat)
    (hb : s.block.length = 4) (hacc : acc.length < 4) (hc : s.count = acc.length)
    (hblk : s.block.take s.count = acc.map dv) (hpad : s.pad = acc.count eqc)
    (hk : acc.length + (((src ++ List.replicate ep eqc).drop i).filter isB64Char).length = 4 * k)
    (hroom : s.pos + 3 * k ≤ s.out.length) :
    DecRel s.out s.pos (decLoop src (src.length + ep) i s)
      (decBlocks (acc ++ ((src ++ List.replicate ep eqc).drop i).filter isB64Char)) := by
  induction hn : src.length + ep - i using Nat.strongRecOn generalizing i s acc k with
  | ind n ih =>
    unfold decLoop
    split
    · rename_i h
      have hlen : i < (src ++ List.replicate ep eqc).length := by simp; omega
      have hval : (if i ≥ src.length then Outcome.ok eqc else rd src i) =
          .ok (src ++ List.replicate ep eqc)[i] := by
        split
        · rename_i h1
          rw [List.getElem_append_right (by omega)]
          simp
        · rename_i h1
          rw [rd_lt (by omega), List.getElem_append_left (by omega)]
      rw [hval]
      simp only [bind'_ok, dt_eq]
      rw [List.drop_eq_getElem_cons hlen, List.filter_cons] at hk ⊢
      generalize (src ++ List.replicate ep eqc)[i] = v at *
      by_cases hv : isB64Char v = true
      · have hv' := (dv_valid _).2 hv
        rw [if_neg hv', if_pos hv] at *
        rw [wr_lt _ (by omega)]
        simp only [bind'_ok]
        have htk : (s.block.set s.count (dv v)).take (s.count + 1) = (acc ++ [v]).map dv := by
          rw [take_set_succ _ _ _ (by omega), hblk]; simp
        have hpd : (if v = eqc then s.pad + 1 else s.pad) = (acc ++ [v]).count eqc := by
          rw [List.count_append, hpad, List.count_singleton]
          by_cases hx : v = eqc <;> simp [hx]
        rw [hpd]
        split
        · rename_i h4
          -- block complete
          have h4' : (acc ++ [v]).length = 4 := by simp; omega
          have h5 : (s.block.set s.count (dv v)) = (acc ++ [v]).map dv := by
            rw [← htk, List.take_of_length_le (by simp; omega)]
          rw [h5]
          obtain ⟨a, b, c, d, habcd⟩ := list4 h4'
          rw [habcd, List.append_cons acc v, habcd]
          have hk1 : 1 ≤ k := by simp at hk; omega
          simp only [List.map_cons, List.map_nil, rd, List.getElem?_cons_zero,
            List.getElem?_cons_succ, bind'_ok]
          rw [wr_lt _ (by omega)]; simp only [bind'_ok]
          rw [wr_lt _ (by simp; omega)]; simp only [bind'_ok]
          rw [wr_lt _ (by simp; omega)]; simp only [bind'_ok]
          simp only [List.cons_append, List.nil_append, decBlocks]
          by_cases hp0 : List.count eqc [a, b, c, d] = 0
          · simp only [hp0, ne_eq, not_true_eq_false, if_false, if_true]
            have := ih (src.length + ep - (i + 1)) (by omega) (i + 1)
              { out := ((s.out.set s.pos (dv a <<< 2 ||| dv b >>> 4)).set (s.pos + 1)
                  (dv b <<< 4 ||| dv c >>> 2)).set (s.pos + 2) (dv c <<< 6 ||| dv d),
                pos := s.pos + 3, block := [dv a, dv b, dv c, dv d], count := 0, pad := 0 }
              [] (k - 1) (by simp) (by simp) (by simp) (by simp) (by simp)
              (by simp at hk ⊢; omega) (by simp; omega) rfl
            simp only [List.nil_append] at this
            cases hd : decBlocks (List.filter isB64Char (List.drop (i + 1) (src ++ List.replicate ep eqc))) with
            | none => simpa [hd, DecRel] using this
            | some bs =>
              simp only [hd, DecRel] at this
              obtain ⟨o, h6, h7⟩ := this
              simp only [Option.map_some, DecRel, List.length_cons]
              refine ⟨o, ?_, ?_⟩
              · rw [h6]; congr 2; omega
              · rw [show s.pos + (bs.length + 1 + 1 + 1) = s.pos + 3 + bs.length by omega, h7,
                  take_set_two _ _ _ _ _ (by omega)]
                simp
          · simp only [hp0, ne_eq, not_false_eq_true, if_true, if_false]
            by_cases hp1 : List.count eqc [a, b, c, d] = 1
            · simp only [hp1, DecRel, if_true, List.take_succ_cons, List.take_zero, List.length_cons,
                List.length_nil]
              refine ⟨_, rfl, ?_⟩
              rw [List.take_set_of_le (by omega), show s.pos + (0+1+1) = s.pos + 1 + 1 by omega,
                take_set_succ _ _ _ (by simp; omega), take_set_succ _ _ _ (by omega)]
              simp
            · by_cases hp2 : List.count eqc [a, b, c, d] = 2
              · simp only [hp2, DecRel, if_true, List.take_succ_cons, List.take_zero, List.length_cons,
                  List.length_nil, show (2:Nat) ≠ 1 by decide, if_false]
                refine ⟨_, rfl, ?_⟩
                rw [List.take_set_of_le (by omega), List.take_set_of_le (by omega),
                  show s.pos + (0+1) = s.pos + 1 by omega, take_set_succ _ _ _ (by omega)]
              · simp only [hp1, hp2, DecRel, if_false]
        · rename_i h4
          have := ih (src.length + ep - (i + 1)) (by omega) (i + 1)
            { s with block := s.block.set s.count (dv v), count := s.count + 1,
                     pad := (acc ++ [v]).count eqc }
            (acc ++ [v]) k (by simpa using hb) (by simp; omega) (by simp; omega) htk rfl
            (by simp at hk ⊢; omega) hroom rfl
          simpa using this
      · have hv' : dv v = 0x80 := by
          by_cases hx : dv v = 0x80
          · exact hx
          · exact absurd ((dv_valid _).1 hx) hv
        rw [if_pos hv', if_neg hv] at *
        exact ih (src.length + ep - (i + 1)) (by omega) (i + 1) s acc k hb hacc hc hblk hpad hk
          hroom rfl
    · rename_i h
      rw [List.drop_eq_nil_of_le (by simp; omega)] at hk ⊢
      simp only [List.filter_nil, List.append_nil] at hk ⊢
      have : acc = [] := by
        have : acc.length = 0 := by simp at hk; omega
        exact List.length_eq_zero_iff.1 this
      subst this
      simp [decBlocks, DecRel]

theorem filter_append_pad (src : Bytes) (ep : Nat) :
    (src ++ List.replicate ep eqc).filter isB64Char =
      src.filter isB64Char ++ List.replicate ep eqc := by
  rw [List.filter_append]
  congr 1
  rw [List.filter_replicate]
  have : isB64Char eqc = true := by decide +kernel
  simp [this]

/-- Number of implied padding characters (used in proofs;
/repo/src/voucher/serialize.c:202). -/
def implied (n : Nat) : Nat := (4 - n % 4) % 4

/-- Complete functional characterisation of the decoder.  The only facts used about
memory are that `malloc` returns a block of the requested size, and that an object
is smaller than `PTRDIFF_MAX`. -/
theorem genDecode_spec (al : Allocator) (blk src : Bytes) (hblk : blk.length = 4)
    (hsz : src.length < 2 ^ 63) :
    genDecode al blk src =
      (if src.filter isB64Char = [] then .ok (none, .null)
       else match al.malloc ((((src.filter isB64Char).length +
              implied (src.filter isB64Char).length) / 4) * 3) with
        | none => .ok (none, .null)
        | some _ =>
          match decBlocks (src.filter isB64Char ++
              List.replicate (implied (src.filter isB64Char).length) eqc) with
          | none => .ok (none, .dangling)
          | some bs => .ok (some bs.length, .owned bs)) := by
  have hle : (src.filter isB64Char).length ≤ src.length := List.length_filter_le _ _
  unfold genDecode
  rw [countLoop_spec]
  simp only [bind'_ok, Nat.zero_add, List.drop_zero]
  by_cases h0 : src.filter isB64Char = []
  · simp [h0]
  · have hpos : (src.filter isB64Char).length ≠ 0 := by
      intro h; exact h0 (List.length_eq_zero_iff.1 h)
    rw [if_neg hpos, if_neg h0]
    rw [← show implied (src.filter isB64Char).length = (4 - (src.filter isB64Char).length % 4) % 4
      from rfl]
    have him : implied (src.filter isB64Char).length < 4 := by unfold implied; omega
    have hdiv : ((src.filter isB64Char).length + implied (src.filter isB64Char).length) % 4 = 0 := by
      unfold implied; omega
    generalize hN : (src.filter isB64Char).length = N at *
    have w1 : szWrap (N + implied N) = N + implied N := szWrap_of_lt (by omega)
    have w2 : szWrap ((N + implied N) / 4 * 3) = (N + implied N) / 4 * 3 := szWrap_of_lt (by omega)
    have w3 : szWrap (src.length + implied N) = src.length + implied N := szWrap_of_lt (by omega)
    simp only [w1, w2, w3]
    cases hm : al.malloc ((N + implied N) / 4 * 3) with
    | none => rfl
    | some buf =>
      have hl := al.length_eq _ _ hm
      simp only
      have := decLoop_spec src (implied N) 0
        { out := buf, pos := 0, block := blk, count := 0, pad := 0 } [] ((N + implied N) / 4)
        hblk (by simp) (by simp) (by simp) (by simp)
        (by rw [List.drop_zero, filter_append_pad]; simp [hN]; omega) (by simp; omega)
      rw [List.drop_zero, filter_append_pad, List.nil_append] at this
      cases hd : decBlocks (src.filter isB64Char ++ List.replicate (implied N) eqc) with
      | none => simp only [hd, DecRel] at this; simp [this]
      | some bs =>
        simp only [hd, DecRel] at this
        obtain ⟨o, h1, h2⟩ := this
        simp only [Nat.zero_add, List.take_zero, List.nil_append] at h1 h2
        simp [h1, h2]

/-! ## Decoding what was encoded -/

theorem dv_alphabet : ∀ n : Nat, n < 64 → dv (alphabet n) = UInt8.ofNat n := by decide +kernel
theorem alphabet_ne : ∀ n : Nat, n < 64 → alphabet n ≠ eqc := by decide +kernel
theorem alphabet_valid : ∀ n : Nat, n < 64 → isB64Char (alphabet n) = true := by decide +kernel

theorem or1 : ∀ x : Nat, x < 64 → ∀ y : Nat, y < 4 →
    ((UInt8.ofNat x <<< 2) ||| UInt8.ofNat y) = UInt8.ofNat (x * 4 + y) := by decide +kernel
theorem or2 : ∀ x : Nat, x < 16 → ∀ y : Nat, y < 16 →
    ((UInt8.ofNat x <<< 4) ||| UInt8.ofNat y) = UInt8.ofNat (x * 16 + y) := by decide +kernel
theorem or3 : ∀ x : Nat, x < 4 → ∀ y : Nat, y < 64 →
    ((UInt8.ofNat x <<< 6) ||| UInt8.ofNat y) = UInt8.ofNat (x * 64 + y) := by decide +kernel
theorem sh4 : ∀ x : Nat, x < 64 → UInt8.ofNat x >>> 4 = UInt8.ofNat (x / 16) := by decide +kernel
theorem sh2 : ∀ x : Nat, x < 64 → UInt8.ofNat x >>> 2 = UInt8.ofNat (x / 4) := by decide +kernel
theorem shl4 : ∀ x : Nat, x < 64 → UInt8.ofNat x <<< 4 = UInt8.ofNat (x % 16) <<< 4 := by
  decide +kernel
theorem shl6 : ∀ x : Nat, x < 64 → UInt8.ofNat x <<< 6 = UInt8.ofNat (x % 4) <<< 6 := by
  decide +kernel

theorem byte0 (p q : Nat) (hp : p < 64) (hq : q < 64) :
    (dv (alphabet p) <<< 2) ||| (dv (alphabet q) >>> 4) = UInt8.ofNat (p * 4 + q / 16) := by
  rw [dv_alphabet _ hp, dv_alphabet _ hq, sh4 _ hq, or1 _ hp _ (by omega)]
theorem byte1 (p q : Nat) (hp : p < 64) (hq : q < 64) :
    (dv (alphabet p) <<< 4) ||| (dv (alphabet q) >>> 2) = UInt8.ofNat (p % 16 * 16 + q / 4) := by
  rw [dv_alphabet _ hp, dv_alphabet _ hq, sh2 _ hq, shl4 _ hp, or2 _ (by omega) _ (by omega)]
theorem byte2 (p q : Nat) (hp : p < 64) (hq : q < 64) :
    (dv (alphabet p) <<< 6) ||| (dv (alphabet q)) = UInt8.ofNat (p % 4 * 64 + q) := by
  rw [dv_alphabet _ hp, dv_alphabet _ hq, shl6 _ hp, or3 _ (by omega) _ (by omega)]

theorem ofNat_toNat_of {a : UInt8} {n : Nat} (h : n = a.toNat) : UInt8.ofNat n = a := by
  subst h; simp

theorem decBlocks_enc (l : Bytes) : decBlocks (enc l) = some l := by
  fun_induction enc l with
  | case1 a b c r ih =>
    have ha := a.toNat_lt; have hb := b.toNat_lt; have hc := c.toNat_lt
    simp only [quad_eq, List.cons_append, List.nil_append, decBlocks]
    have p1 := alphabet_ne (a.toNat / 4) (by omega)
    have p2 := alphabet_ne (a.toNat % 4 * 16 + b.toNat / 16) (by omega)
    have p3 := alphabet_ne (b.toNat % 16 * 4 + c.toNat / 64) (by omega)
    have p4 := alphabet_ne (c.toNat % 64) (by omega)
    rw [if_pos (by simp [p1, p2, p3, p4]), ih]
    rw [byte0 _ _ (by omega) (by omega), byte1 _ _ (by omega) (by omega),
      byte2 _ _ (by omega) (by omega)]
    simp only [Option.map_some, List.cons_append, List.nil_append]
    rw [ofNat_toNat_of (a := a) (by omega), ofNat_toNat_of (a := b) (by omega),
      ofNat_toNat_of (a := c) (by omega)]
  | case2 a b =>
    have ha := a.toNat_lt; have hb := b.toNat_lt
    simp only [s1, s2, s3z, decBlocks]
    have p1 := alphabet_ne (a.toNat / 4) (by omega)
    have p2 := alphabet_ne (a.toNat % 4 * 16 + b.toNat / 16) (by omega)
    have p3 := alphabet_ne (b.toNat % 16 * 4) (by omega)
    have hc : List.count eqc [alphabet (a.toNat / 4), alphabet (a.toNat % 4 * 16 + b.toNat / 16),
        alphabet (b.toNat % 16 * 4), 61] = 1 := by
      simp [List.count_cons, p1, p2, p3, eqc]
      simp [eqc] at p1 p2 p3
      simp [p1, p2, p3]
    rw [if_neg (by omega), if_pos hc]
    rw [byte0 _ _ (by omega) (by omega), byte1 _ _ (by omega) (by omega)]
    simp only [List.take_succ_cons, List.take_zero]
    rw [ofNat_toNat_of (a := a) (by omega), ofNat_toNat_of (a := b) (by omega)]
  | case3 a =>
    have ha := a.toNat_lt
    simp only [s1, s2z, decBlocks]
    have p1 := alphabet_ne (a.toNat / 4) (by omega)
    have p2 := alphabet_ne (a.toNat % 4 * 16) (by omega)
    have hc : List.count eqc [alphabet (a.toNat / 4), alphabet (a.toNat % 4 * 16), 61, 61] = 2 := by
      simp [List.count_cons, p1, p2, eqc]
      simp [eqc] at p1 p2
      simp [p1, p2]
    rw [if_neg (by omega), if_neg (by omega), if_pos hc]
    rw [byte0 _ _ (by omega) (by omega)]
    simp only [List.take_succ_cons, List.take_zero]
    rw [ofNat_toNat_of (a := a) (by omega)]
  | case4 => rfl

theorem enc_valid (l : Bytes) : (enc l).filter isB64Char = enc l := by
  rw [List.filter_eq_self]
  have h61 : isB64Char 61 = true := by decide +kernel
  fun_induction enc l with
  | case1 a b c r ih =>
    have ha := a.toNat_lt; have hb := b.toNat_lt; have hc := c.toNat_lt
    intro x hx
    simp only [quad_eq, List.cons_append, List.nil_append, List.mem_cons] at hx
    rcases hx with h | h | h | h | h
    · subst h; exact alphabet_valid _ (by omega)
    · subst h; exact alphabet_valid _ (by omega)
    · subst h; exact alphabet_valid _ (by omega)
    · subst h; exact alphabet_valid _ (by omega)
    · exact ih x h
  | case2 a b =>
    have ha := a.toNat_lt; have hb := b.toNat_lt
    intro x hx
    simp only [s1, s2, s3z, List.mem_cons, List.not_mem_nil, or_false] at hx
    rcases hx with h | h | h | h
    · subst h; exact alphabet_valid _ (by omega)
    · subst h; exact alphabet_valid _ (by omega)
    · subst h; exact alphabet_valid _ (by omega)
    · subst h; exact h61
  | case3 a =>
    have ha := a.toNat_lt
    intro x hx
    simp only [s1, s2z, List.mem_cons, List.not_mem_nil, or_false] at hx
    rcases hx with h | h | h | h
    · subst h; exact alphabet_valid _ (by omega)
    · subst h; exact alphabet_valid _ (by omega)
    · subst h; exact h61
    · subst h; exact h61
  | case4 => simp

end Brski.Base64
