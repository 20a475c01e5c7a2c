import Verif.Base64Dec

/-!
# Properties C01–C05, C57: base64 codec

`al`, `al₁`, `al₂` range over all behaviours of `malloc`; `blk` is the uninitialised
content of the decoder's 4-byte local array.
-/

namespace Brski.Props
open Outcome Spec Base64

/-- `malloc` never fails (hypothesis of success statements;
/repo/src/utils/os.h:75). -/
def NoOom (al : Allocator) : Prop := ∀ n, al.malloc n ≠ none

theorem noOom_zero : NoOom zeroAllocator := by intro n h; cases h

/-- **C02** (success part and content).  Encoding any byte array below the size limit
succeeds (memory permitting), yields exactly the RFC 4648 text followed by NUL, and
reports its length `4 * ceil (n/3)`. -/
theorem C02_encode_rfc4648 (al : Allocator) (hal : NoOom al) (bs : Bytes)
    (hlt : bs.length < sizeMax / 4) :
    ∃ buf n, array2base64str al bs = .ok (some (buf, n)) ∧
      n = 4 * ((bs.length + 2) / 3) ∧ buf.take n = rfc4648 bs ∧ buf[n]? = some 0 := by
  rcases genEncode_spec al bs with h | ⟨o, h1, h2, h3⟩
  · exact absurd h (genEncode_succ al bs hlt (hal _))
  · refine ⟨o, _, h1, ?_, h2, h3⟩
    rw [← enc_eq_rfc, enc_length]

/-- **C02**, all allocation outcomes: whenever the call reports success the text is the
RFC 4648 text. -/
theorem C02_encode_any_alloc (al : Allocator) (bs buf : Bytes) (n : Nat)
    (h : array2base64str al bs = .ok (some (buf, n))) :
    n = (rfc4648 bs).length ∧ buf.take n = rfc4648 bs ∧ buf[n]? = some 0 := by
  rcases genEncode_spec al bs with h' | ⟨o, h1, h2, h3⟩
  · exact absurd (h'.symm.trans h) (by simp)
  · have := h1.symm.trans h
    simp only [ok.injEq, Option.some.injEq, Prod.mk.injEq] at this
    obtain ⟨rfl, rfl⟩ := this
    exact ⟨rfl, h2, h3⟩

/-- non-vacuity of C02: "Man" is below the limit and encodes to "TWFu". -/
example : ([77, 97, 110] : Bytes).length < sizeMax / 4 ∧
    rfc4648 [77, 97, 110] = str "TWFu" := by
  refine ⟨by decide, ?_⟩
  rw [← enc_eq_rfc]; decide +kernel

/-- **C01** Encoding a non-empty byte array and decoding the text returns exactly the
original bytes and length. -/
theorem C01_roundtrip (al₁ al₂ : Allocator) (h1 : NoOom al₁) (h2 : NoOom al₂) (blk bs : Bytes)
    (hblk : blk.length = 4) (hne : bs ≠ []) (hlt : bs.length < sizeMax / 4) :
    ∃ buf n, array2base64str al₁ bs = .ok (some (buf, n)) ∧
      base64str2array al₂ blk (buf.take n) = .ok (some bs.length, .owned bs) := by
  obtain ⟨buf, n, he, hn, ht, -⟩ := C02_encode_rfc4648 al₁ h1 bs hlt
  refine ⟨buf, n, he, ?_⟩
  rw [ht, ← enc_eq_rfc]
  have hlen := enc_length bs
  have hpos : 0 < bs.length := by
    cases bs with
    | nil => exact absurd rfl hne
    | cons a l => simp
  have hs : (enc bs).length < 2 ^ 63 := by
    unfold sizeMax at hlt; omega
  unfold base64str2array
  rw [genDecode_spec al₂ blk _ hblk hs, enc_valid]
  have hne' : enc bs ≠ [] := by
    intro h; rw [h] at hlen; simp at hlen; omega
  rw [if_neg hne']
  have hi : implied (enc bs).length = 0 := by unfold implied; omega
  rw [hi]
  simp only [List.replicate_zero, List.append_nil, decBlocks_enc]
  split
  · rename_i h; exact absurd h (h2 _)
  · simp

/-- non-vacuity of C01. -/
example : NoOom zeroAllocator ∧ ([1, 0, 255, 7] : Bytes) ≠ [] ∧
    ([1, 0, 255, 7] : Bytes).length < sizeMax / 4 := ⟨noOom_zero, by decide, by decide⟩

/-- Companion of C01: the empty array is not recovered — its text is empty and the
decoder rejects it (this is why C01 excludes it). -/
theorem C01_empty_not_recovered (blk : Bytes) :
    (∃ buf, array2base64str zeroAllocator [] = .ok (some (buf, 0))) ∧
    base64str2array zeroAllocator blk [] = .ok (none, .null) := by
  constructor
  · exact ⟨(List.replicate 5 0), by decide +kernel⟩
  · unfold base64str2array genDecode countLoop; rfl

/-- **C03** (encoder).  The encoder has defined behaviour on every byte array and for
every allocation outcome: no access outside `src` or the allocated block. -/
theorem C03_encode_safe (al : Allocator) (bs : Bytes) : (array2base64str al bs).Defined := by
  rcases genEncode_spec al bs with h | ⟨o, h1, -⟩
  · exact ⟨_, h⟩
  · exact ⟨_, h1⟩

/-- **C03** (decoder).  The decoder has defined behaviour on every byte string that can
exist as a C object (smaller than `PTRDIFF_MAX`), for every allocation outcome. -/
theorem C03_decode_safe (al : Allocator) (blk src : Bytes) (hblk : blk.length = 4)
    (hsz : src.length < 2 ^ 63) : (base64str2array al blk src).Defined := by
  unfold base64str2array
  rw [genDecode_spec al blk src hblk hsz]
  split
  · exact ⟨_, rfl⟩
  · split
    · exact ⟨_, rfl⟩
    · split
      · exact ⟨_, rfl⟩
      · exact ⟨_, rfl⟩

/-- non-vacuity of C03: text with garbage and misplaced padding. -/
example : (str "A=B=*=C\n====").length < 2 ^ 63 := by decide

/-- **C04** Two texts with the same meaningful characters decode alike. -/
theorem C04_ignores_foreign (al : Allocator) (blk s t : Bytes) (hblk : blk.length = 4)
    (hs : s.length < 2 ^ 63) (ht : t.length < 2 ^ 63)
    (h : s.filter isB64Char = t.filter isB64Char) :
    base64str2array al blk s = base64str2array al blk t := by
  unfold base64str2array
  rw [genDecode_spec al blk s hblk hs, genDecode_spec al blk t hblk ht, h]

/-- **C04**, insertion form: inserting a foreign character anywhere changes nothing. -/
theorem C04_insert (al : Allocator) (blk s t : Bytes) (c : UInt8) (hblk : blk.length = 4)
    (hs : s.length + t.length + 1 < 2 ^ 63) (hc : isB64Char c = false) :
    base64str2array al blk (s ++ c :: t) = base64str2array al blk (s ++ t) := by
  apply C04_ignores_foreign al blk _ _ hblk
  · simp; omega
  · simp; omega
  · simp [List.filter_append, hc]

/-- **C04**, padding form: up to three missing trailing `'='` (those completing the last
group of four) are implied. -/
theorem C04_implied_padding (al : Allocator) (blk s : Bytes) (hblk : blk.length = 4)
    (hs : s.length + 3 < 2 ^ 63) (hne : s.filter isB64Char ≠ []) :
    base64str2array al blk (s ++ List.replicate ((4 - (s.filter isB64Char).length % 4) % 4) 61) =
      base64str2array al blk s := by
  unfold base64str2array
  rw [genDecode_spec al blk s hblk (by omega), genDecode_spec al blk _ hblk (by simp; omega)]
  have hf := filter_append_pad s ((4 - (s.filter isB64Char).length % 4) % 4)
  rw [show eqc = 61 from rfl] at hf
  rw [hf, if_neg hne, if_neg (by simp [hne])]
  have h1 : implied (s.filter isB64Char ++
      List.replicate ((4 - (s.filter isB64Char).length % 4) % 4) 61).length = 0 := by
    simp [implied]; omega
  rw [h1]
  have h2 : implied (s.filter isB64Char).length = (4 - (s.filter isB64Char).length % 4) % 4 := rfl
  rw [← h2]
  simp [show eqc = 61 from rfl]

/-- non-vacuity of C04: a line feed is foreign; "TW\nFu" and "TWFu" have the same
meaningful characters. -/
example : isB64Char 10 = false ∧
    (str "TW\nFu").filter isB64Char = (str "TWFu").filter isB64Char := by decide +kernel

/-! ## C05 -/

/-- Full statement of **C05**: a failed decode leaves the output pointer NULL
(specification of /repo/src/voucher/serialize.c:270-279). -/
def C05_statement : Prop :=
  ∀ (al : Allocator) (blk src : Bytes), blk.length = 4 → src.length < 2 ^ 63 →
    ∀ p, base64str2array al blk src = .ok (none, p) → p = .null

/-- **C05 is violated**: the one-character text `"A"` (likewise `"===="`) makes the decoder
free its block, return -1 and leave the caller's pointer dangling. -/
theorem C05_violated : ¬ C05_statement := by
  intro h
  have := h zeroAllocator [0, 0, 0, 0] (str "A") rfl (by decide) .dangling (by decide +kernel)
  exact absurd this (by decide)

theorem decBlocks_none_count {t : Bytes} (h : decBlocks t = none) : 3 ≤ t.count 61 := by
  fun_induction decBlocks t with
  | case1 a b c d r pad bs hp ih =>
    simp only [Option.map_eq_none_iff] at h
    have := ih h
    have h2 : (a :: b :: c :: d :: r).count 61 = [a, b, c, d].count 61 + r.count 61 := by
      rw [← List.count_append]; rfl
    omega
  | case2 => simp at h
  | case3 => simp at h
  | case4 a b c d r pad h0 h1 h2 =>
    have h3 : (a :: b :: c :: d :: r).count 61 = [a, b, c, d].count 61 + r.count 61 := by
      rw [← List.count_append]; rfl
    have : pad = [a, b, c, d].count 61 := rfl
    omega
  | case5 => simp at h

/-- **C05** partial: a failed decode leaves NULL whenever the text, completed with the
implied padding, contains fewer than three `'='`.  Missing: texts with three or more
(explicit or implied) padding characters, for which C05 is false. -/
theorem C05_partial (al : Allocator) (blk src : Bytes) (hblk : blk.length = 4)
    (hsz : src.length < 2 ^ 63)
    (hpad : src.count 61 + (4 - (src.filter isB64Char).length % 4) % 4 < 3) (p : OutPtr)
    (h : base64str2array al blk src = .ok (none, p)) : p = .null := by
  unfold base64str2array at h
  rw [genDecode_spec al blk src hblk hsz] at h
  split at h
  · simp at h; exact h.symm
  · split at h
    · simp at h; exact h.symm
    · split at h
      · rename_i hd
        have h3 := decBlocks_none_count hd
        rw [List.count_append, List.count_replicate] at h3
        have h4 : (src.filter isB64Char).count 61 ≤ src.count 61 :=
          List.Sublist.count_le _ List.filter_sublist
        have h5 : implied (src.filter isB64Char).length =
          (4 - (src.filter isB64Char).length % 4) % 4 := rfl
        split at h3 <;> omega
      · simp at h

/-- non-vacuity of C05_partial: a text without meaningful characters fails and meets the
hypothesis. -/
example : base64str2array zeroAllocator [0,0,0,0] (str "***") = .ok (none, .null) ∧
    (str "***").count 61 + (4 - ((str "***").filter isB64Char).length % 4) % 4 < 3 := by
  decide +kernel

/-! ## C57 -/

/-- Full statement of **C57**: whatever text is accepted is (after removal of foreign
characters) the RFC 4648 encoding of the returned bytes, possibly without its final
padding (specification of /repo/src/voucher/serialize.c:270-279). -/
def C57_statement : Prop :=
  ∀ (al : Allocator) (blk src : Bytes), blk.length = 4 → src.length < 2 ^ 63 →
    ∀ n bs, base64str2array al blk src = .ok (some n, .owned bs) →
      src.filter isB64Char = rfc4648 bs ∨
      src.filter isB64Char = (rfc4648 bs).filter (· ≠ 61)

/-- **C57 is violated**: `"A=BC"` (padding inside a group) is accepted as two bytes. -/
theorem C57_violated : ¬ C57_statement := by
  intro h
  have := h zeroAllocator [0, 0, 0, 0] (str "A=BC") rfl (by decide) 2 [0, 0] (by decide +kernel)
  rw [← enc_eq_rfc] at this
  revert this
  decide +kernel

/-- A second independent violation: everything after the first padded group is ignored
(`"AA==BBBB"` decodes to one byte). -/
theorem C57_violated_trailing : base64str2array zeroAllocator [0, 0, 0, 0] (str "AA==BBBB") =
    .ok (some 1, .owned [0]) := by decide +kernel

theorem alphabet_surj : ∀ c : UInt8, isB64Char c = true → c ≠ 61 →
    dv c < 64 ∧ alphabet (dv c).toNat = c :=
  forall_uint8 (by decide +kernel)

theorem enc_decBlocks (t : Bytes) (hv : ∀ c ∈ t, isB64Char c = true ∧ c ≠ 61)
    (hm : t.length % 4 = 0) : ∃ bs, decBlocks t = some bs ∧ enc bs = t := by
  fun_induction decBlocks t with
  | case1 a b c d r pad bs hp ih =>
    obtain ⟨bs', h1, h2⟩ := ih (fun x hx => hv x (by simp [hx])) (by simp at hm; omega)
    refine ⟨bs ++ bs', by simp [h1], ?_⟩
    obtain ⟨la, ea⟩ := alphabet_surj a (hv a (by simp)).1 (hv a (by simp)).2
    obtain ⟨lb, eb⟩ := alphabet_surj b (hv b (by simp)).1 (hv b (by simp)).2
    obtain ⟨lc, ec⟩ := alphabet_surj c (hv c (by simp)).1 (hv c (by simp)).2
    obtain ⟨ld, ed⟩ := alphabet_surj d (hv d (by simp)).1 (hv d (by simp)).2
    have la' : (dv a).toNat < 64 := by simpa [UInt8.lt_iff_toNat_lt] using la
    have lb' : (dv b).toNat < 64 := by simpa [UInt8.lt_iff_toNat_lt] using lb
    have lc' : (dv c).toNat < 64 := by simpa [UInt8.lt_iff_toNat_lt] using lc
    have ld' : (dv d).toNat < 64 := by simpa [UInt8.lt_iff_toNat_lt] using ld
    have e0 := byte0 _ _ la' lb'
    have e1 := byte1 _ _ lb' lc'
    have e2 := byte2 _ _ lc' ld'
    rw [ea, eb] at e0; rw [eb, ec] at e1; rw [ec, ed] at e2
    simp only [bs, List.cons_append, List.nil_append, enc, e0, e1, e2, quad_eq, h2]
    simp only [UInt8.toNat_ofNat', Nat.reducePow]
    have q1 : ((dv a).toNat * 4 + (dv b).toNat / 16) % 256 / 4 = (dv a).toNat := by omega
    have q2 : ((dv a).toNat * 4 + (dv b).toNat / 16) % 256 % 4 * 16 +
      ((dv b).toNat % 16 * 16 + (dv c).toNat / 4) % 256 / 16 = (dv b).toNat := by omega
    have q3 : ((dv b).toNat % 16 * 16 + (dv c).toNat / 4) % 256 % 16 * 4 +
      ((dv c).toNat % 4 * 64 + (dv d).toNat) % 256 / 64 = (dv c).toNat := by omega
    have q4 : ((dv c).toNat % 4 * 64 + (dv d).toNat) % 256 % 64 = (dv d).toNat := by omega
    rw [q1, q2, q3, q4, ea, eb, ec, ed]
  | case2 a b c d r pad bs h0 h1 =>
    exfalso
    apply h0
    simp only [pad, List.count_eq_zero]
    intro hm'
    simp only [List.mem_cons, List.not_mem_nil, or_false] at hm'
    rcases hm' with h | h | h | h
    · exact (hv a (by simp)).2 h.symm
    · exact (hv b (by simp)).2 h.symm
    · exact (hv c (by simp)).2 h.symm
    · exact (hv d (by simp)).2 h.symm
  | case3 a b c d r pad bs h0 =>
    exfalso
    apply h0
    simp only [pad, List.count_eq_zero]
    intro hm'
    simp only [List.mem_cons, List.not_mem_nil, or_false] at hm'
    rcases hm' with h | h | h | h
    · exact (hv a (by simp)).2 h.symm
    · exact (hv b (by simp)).2 h.symm
    · exact (hv c (by simp)).2 h.symm
    · exact (hv d (by simp)).2 h.symm
  | case4 a b c d r pad h0 =>
    exfalso
    apply h0
    simp only [pad, List.count_eq_zero]
    intro hm'
    simp only [List.mem_cons, List.not_mem_nil, or_false] at hm'
    rcases hm' with h | h | h | h
    · exact (hv a (by simp)).2 h.symm
    · exact (hv b (by simp)).2 h.symm
    · exact (hv c (by simp)).2 h.symm
    · exact (hv d (by simp)).2 h.symm
  | case5 t ht =>
    refine ⟨[], rfl, ?_⟩
    match t, ht, hm with
    | [], _, _ => rfl
    | [a], _, hm => simp at hm
    | [a, b], _, hm => simp at hm
    | [a, b, c], _, hm => simp at hm
    | a :: b :: c :: d :: r, ht, _ => exact absurd rfl (ht a b c d r)

/-- **C57** partial: a text whose meaningful characters contain no `'='` and form complete
groups of four is accepted and is exactly the RFC 4648 text of the result (so the decoder
is injective there).  Missing: texts with padding. -/
theorem C57_partial (al : Allocator) (hal : NoOom al) (blk src : Bytes) (hblk : blk.length = 4)
    (hsz : src.length < 2 ^ 63) (hne : src.filter isB64Char ≠ []) (hpad : 61 ∉ src)
    (hm : (src.filter isB64Char).length % 4 = 0) :
    ∃ bs, base64str2array al blk src = .ok (some bs.length, .owned bs) ∧
      rfc4648 bs = src.filter isB64Char := by
  obtain ⟨bs, h1, h2⟩ := enc_decBlocks (src.filter isB64Char) (by
    intro c hc
    rw [List.mem_filter] at hc
    exact ⟨hc.2, fun h => hpad (h ▸ hc.1)⟩) hm
  refine ⟨bs, ?_, by rw [← enc_eq_rfc, h2]⟩
  unfold base64str2array
  rw [genDecode_spec al blk src hblk hsz, if_neg hne]
  have hi : implied (src.filter isB64Char).length = 0 := by unfold implied; omega
  simp only [hi, List.replicate_zero, List.append_nil, h1]
  split
  · rename_i h; exact absurd h (hal _)
  · simp

/-- non-vacuity of C57_partial. -/
example : (str "TW\nFu").filter isB64Char ≠ [] ∧ 61 ∉ str "TW\nFu" ∧
    ((str "TW\nFu").filter isB64Char).length % 4 = 0 := by decide +kernel

end Brski.Props
