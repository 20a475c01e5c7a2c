import Verif.PropsBase64

/-!
# C05 and C57: exactly which base64 texts are accepted, with which result

The specification speaks only of RFC 4648 texts, of groups of four characters and of the
number such a group stands for.
-/

namespace Brski.Props
open Outcome Spec Base64

/-- The meaningful characters of a text, completed with `'='` to groups of four
(specification for /repo/src/voucher/serialize.c:196-236). -/
def completed (src : Bytes) : Bytes :=
  src.filter isB64Char ++ List.replicate ((4 - (src.filter isB64Char).length % 4) % 4) 61

/-- The place of a character in the alphabet of RFC 4648; `'='` counts as nought
(specification for /repo/src/voucher/serialize.c:191-194). -/
def place (c : UInt8) : Nat :=
  if c = 61 then 0 else ((List.range 64).find? fun n => alphabet n == c).getD 0

/-- The three bytes of the number below 2^24 a group of four characters stands for
(specification for /repo/src/voucher/serialize.c:227-229). -/
def threeBytes (g : Bytes) : Bytes :=
  let n := g.foldl (fun n c => n * 64 + place c) 0
  [UInt8.ofNat (n / 65536), UInt8.ofNat (n / 256 % 256), UInt8.ofNat (n % 256)]

/-- `t` starts with complete unpadded groups which are the RFC 4648 text of `bs`, and
then comes the group `g` holding `k` padding characters, `k` at least one; whatever
follows is arbitrary (specification for /repo/src/voucher/serialize.c:213-250). -/
def FirstPadded (t bs g : Bytes) (k : Nat) : Prop :=
  bs.length % 3 = 0 ∧ g.length = 4 ∧ k = g.count 61 ∧ 1 ≤ k ∧
    ∃ rest, t = rfc4648 bs ++ g ++ rest

/-- A completed text is read as `bs`: either it is the padding-free RFC 4648 text of
`bs`, or its first padded group holds one or two `'='`, anywhere in the group, and gives
two or one bytes (specification for /repo/src/voucher/serialize.c:213-250). -/
def ReadAs (t bs : Bytes) : Prop :=
  (bs.length % 3 = 0 ∧ t = rfc4648 bs) ∨
  ∃ pre g k, FirstPadded t pre g k ∧ k ≤ 2 ∧ bs = pre ++ (threeBytes g).take (3 - k)

/-- The first padded group of a completed text holds three or four `'='`
(specification for /repo/src/voucher/serialize.c:238-244). -/
def OverPadded (t : Bytes) : Prop := ∃ pre g k, FirstPadded t pre g k ∧ 3 ≤ k

theorem place_dv : ∀ c : UInt8, isB64Char c = true → place c = (dv c).toNat ∧ (dv c).toNat < 64 :=
  forall_uint8 (by decide +kernel)

theorem threeBytes_dv (a b c d : UInt8) (ha : isB64Char a = true) (hb : isB64Char b = true)
    (hc : isB64Char c = true) (hd : isB64Char d = true) :
    [(dv a <<< 2) ||| (dv b >>> 4), (dv b <<< 4) ||| (dv c >>> 2), (dv c <<< 6) ||| dv d] =
      threeBytes [a, b, c, d] := by
  obtain ⟨pa, la⟩ := place_dv a ha
  obtain ⟨pb, lb⟩ := place_dv b hb
  obtain ⟨pc, lc⟩ := place_dv c hc
  obtain ⟨pd, ld⟩ := place_dv d hd
  have h0 := byte0 _ _ la lb
  have h1 := byte1 _ _ lb lc
  have h2 := byte2 _ _ lc ld
  simp only [dv_alphabet _ la, dv_alphabet _ lb, dv_alphabet _ lc, dv_alphabet _ ld,
    UInt8.ofNat_toNat] at h0 h1 h2
  rw [h0, h1, h2]
  simp only [threeBytes, List.foldl_cons, List.foldl_nil, pa, pb, pc, pd]
  have e0 : (dv a).toNat * 4 + (dv b).toNat / 16 =
    ((((0 * 64 + (dv a).toNat) * 64 + (dv b).toNat) * 64 + (dv c).toNat) * 64 + (dv d).toNat) / 65536 := by
    omega
  have e1 : (dv b).toNat % 16 * 16 + (dv c).toNat / 4 =
    ((((0 * 64 + (dv a).toNat) * 64 + (dv b).toNat) * 64 + (dv c).toNat) * 64 + (dv d).toNat) / 256 % 256 := by
    omega
  have e2 : (dv c).toNat % 4 * 64 + (dv d).toNat =
    ((((0 * 64 + (dv a).toNat) * 64 + (dv b).toNat) * 64 + (dv c).toNat) * 64 + (dv d).toNat) % 256 := by
    omega
  rw [e0, e1, e2]

/-- A padding-free group at the front is the RFC 4648 text of its three bytes. -/
theorem group_rfc (a b c d : UInt8) (bs : Bytes) (hv : ∀ x ∈ [a, b, c, d], isB64Char x = true)
    (h0 : [a, b, c, d].count 61 = 0) :
    rfc4648 (threeBytes [a, b, c, d] ++ bs) = [a, b, c, d] ++ rfc4648 bs := by
  have hne : ∀ x ∈ [a, b, c, d], x ≠ 61 := by
    intro x hx h
    rw [List.count_eq_zero] at h0
    exact h0 (h ▸ hx)
  obtain ⟨r, h1, h2⟩ := enc_decBlocks [a, b, c, d] (fun x hx => ⟨hv x hx, hne x hx⟩) (by simp)
  have hr : r = threeBytes [a, b, c, d] := by
    simp only [decBlocks, eqc, h0] at h1
    simp only [reduceIte, Option.map_some, List.append_nil, Option.some.injEq] at h1
    rw [← h1]
    exact threeBytes_dv a b c d (hv a (by simp)) (hv b (by simp)) (hv c (by simp)) (hv d (by simp))
  subst hr
  simp only [threeBytes, List.cons_append, List.nil_append] at h2 ⊢
  rw [rfc_three]
  simp only [enc, List.append_nil] at h2
  rw [h2]; rfl

/-- Complete unpadded groups at the front are decoded by themselves. -/
theorem decBlocks_front (pre r : Bytes) (hm : pre.length % 3 = 0) :
    decBlocks (rfc4648 pre ++ r) = (decBlocks r).map (pre ++ ·) := by
  rw [← enc_eq_rfc]
  fun_induction enc pre with
  | case1 a b c t ih =>
    have ha := a.toNat_lt; have hb := b.toNat_lt; have hc := c.toNat_lt
    simp only [quad_eq, List.cons_append, List.nil_append, decBlocks]
    have p1 := alphabet_ne (a.toNat / 4) (by omega)
    have p2 := alphabet_ne (a.toNat % 4 * 16 + b.toNat / 16) (by omega)
    have p3 := alphabet_ne (b.toNat % 16 * 4 + c.toNat / 64) (by omega)
    have p4 := alphabet_ne (c.toNat % 64) (by omega)
    rw [if_pos (by simp [p1, p2, p3, p4]), ih (by simp at hm; omega)]
    rw [byte0 _ _ (by omega) (by omega), byte1 _ _ (by omega) (by omega),
      byte2 _ _ (by omega) (by omega)]
    rw [ofNat_toNat_of (a := a) (by omega), ofNat_toNat_of (a := b) (by omega),
      ofNat_toNat_of (a := c) (by omega)]
    cases decBlocks r <;> simp
  | case2 a b => simp at hm
  | case3 a => simp at hm
  | case4 => simp

/-- A group with padding ends the decoding. -/
theorem decBlocks_padded (g rest : Bytes) (hl : g.length = 4)
    (hv : ∀ c ∈ g, isB64Char c = true) (hk : 1 ≤ g.count 61) :
    decBlocks (g ++ rest) =
      if g.count 61 ≤ 2 then some ((threeBytes g).take (3 - g.count 61)) else none := by
  match g, hl with
  | [a, b, c, d], _ =>
    have h3 := threeBytes_dv a b c d (hv a (by simp)) (hv b (by simp)) (hv c (by simp))
      (hv d (by simp))
    simp only [List.cons_append, List.nil_append, decBlocks, h3, eqc]
    rw [if_neg (by omega)]
    split
    · rename_i h; rw [if_pos (by omega), h]
    · split
      · rename_i h; rw [if_pos (by omega), h]
      · rw [if_neg (by omega)]

/-- The decoding loop reads a text only as specified. -/
theorem decBlocks_sound (t : Bytes) (hv : ∀ c ∈ t, isB64Char c = true) (hm : t.length % 4 = 0) :
    match decBlocks t with
    | some bs => ReadAs t bs
    | none => OverPadded t := by
  match t, hm with
  | [], _ => exact Or.inl ⟨rfl, by rw [← enc_eq_rfc]; rfl⟩
  | [_], hm => simp at hm
  | [_, _], hm => simp at hm
  | [_, _, _], hm => simp at hm
  | a :: b :: c :: d :: r, hm =>
    have hvg : ∀ x ∈ [a, b, c, d], isB64Char x = true := by
      intro x hx
      apply hv
      simp only [List.mem_cons, List.not_mem_nil, or_false] at hx ⊢
      rcases hx with h | h | h | h <;> simp [h]
    by_cases h0 : [a, b, c, d].count 61 = 0
    · have ih := decBlocks_sound r (fun x hx => hv x (by simp [hx])) (by simp at hm; omega)
      have hg := group_rfc a b c d [] hvg h0
      have he : rfc4648 [] = [] := by rw [← enc_eq_rfc]; rfl
      rw [he, List.append_nil] at hg
      have hd := decBlocks_front (threeBytes [a, b, c, d]) r (by simp [threeBytes])
      rw [List.append_nil] at hg
      rw [hg] at hd
      simp only [List.cons_append, List.nil_append] at hd
      rw [hd]
      have step : ∀ pre, pre.length % 3 = 0 →
          (threeBytes [a, b, c, d] ++ pre).length % 3 = 0 := by
        intro pre hp
        simp [threeBytes]; omega
      cases hr : decBlocks r with
      | none =>
        rw [hr] at ih
        obtain ⟨pre, g, k, ⟨q1, q2, q3, q4, rest, q5⟩, hk⟩ := ih
        refine ⟨threeBytes [a, b, c, d] ++ pre, g, k, ⟨step _ q1, q2, q3, q4, rest, ?_⟩, hk⟩
        rw [group_rfc a b c d pre hvg h0, q5]; simp
      | some bs =>
        rw [hr] at ih
        simp only [Option.map_some]
        rcases ih with ⟨q1, q2⟩ | ⟨pre, g, k, ⟨q1, q2, q3, q4, rest, q5⟩, hk, hb⟩
        · exact Or.inl ⟨step _ q1, by rw [group_rfc a b c d bs hvg h0, q2]; simp⟩
        · refine Or.inr ⟨threeBytes [a, b, c, d] ++ pre, g, k, ⟨step _ q1, q2, q3, q4, rest, ?_⟩,
            hk, by rw [hb]; simp⟩
          rw [group_rfc a b c d pre hvg h0, q5]; simp
    · have he : rfc4648 [] = [] := by rw [← enc_eq_rfc]; rfl
      have hf : FirstPadded (a :: b :: c :: d :: r) [] [a, b, c, d] ([a, b, c, d].count 61) :=
        ⟨rfl, rfl, rfl, by omega, r, by rw [he]; rfl⟩
      have hp := decBlocks_padded [a, b, c, d] r rfl hvg (by omega)
      simp only [List.cons_append, List.nil_append] at hp
      rw [hp]
      split
      · rename_i bs h
        split at h
        · rename_i hk
          cases h
          exact Or.inr ⟨[], _, _, hf, hk, rfl⟩
        · cases h
      · rename_i h
        split at h
        · cases h
        · exact ⟨[], _, _, hf, by omega⟩

/-- The decoding loop reads a text exactly as specified. -/
theorem decBlocks_reads (t : Bytes) (hv : ∀ c ∈ t, isB64Char c = true) (hm : t.length % 4 = 0) :
    (∀ bs, decBlocks t = some bs ↔ ReadAs t bs) ∧ (decBlocks t = none ↔ OverPadded t) := by
  have hs := decBlocks_sound t hv hm
  have hg : ∀ pre g k, FirstPadded t pre g k →
      decBlocks t = if k ≤ 2 then some (pre ++ (threeBytes g).take (3 - k)) else none := by
    rintro pre g k ⟨h1, h2, h3, h4, rest, h5⟩
    rw [h5, List.append_assoc, decBlocks_front pre _ h1,
      decBlocks_padded g rest h2 (fun c hc => hv c (by rw [h5]; simp [hc])) (by omega), ← h3]
    split <;> rfl
  refine ⟨fun bs => ⟨fun h => by rw [h] at hs; exact hs, ?_⟩, fun h => by rw [h] at hs; exact hs, ?_⟩
  · rintro (⟨h1, h2⟩ | ⟨pre, g, k, hf, hk, hb⟩)
    · rw [h2, ← enc_eq_rfc, decBlocks_enc]
    · rw [hg pre g k hf, if_pos hk, hb]
  · rintro ⟨pre, g, k, hf, hk⟩
    rw [hg pre g k hf, if_neg (by omega)]

theorem completed_valid (src : Bytes) :
    (∀ c ∈ completed src, isB64Char c = true) ∧ (completed src).length % 4 = 0 := by
  refine ⟨?_, by simp only [completed, List.length_append, List.length_replicate]; omega⟩
  intro c hc
  rcases List.mem_append.1 hc with h | h
  · exact (List.mem_filter.1 h).2
  · rw [(List.mem_replicate.1 h).2]; decide +kernel

/-- **C57**, exactly: with memory at hand, decoding a text that holds any meaningful
character succeeds with `bs` if and only if its meaningful characters, completed with
padding, are the padding-free RFC 4648 text of `bs` or have a first padded group with
one or two `'='`, which gives the last two bytes or the last byte of `bs`.  Padding
inside that group, set bits below the padding and text after it all pass. -/
theorem C57_exact (al : Allocator) (hal : NoOom al) (blk src : Bytes) (hblk : blk.length = 4)
    (hsz : src.length < 2 ^ 63) (hne : src.filter isB64Char ≠ []) (n : Nat) (bs : Bytes) :
    base64str2array al blk src = .ok (some n, .owned bs) ↔
      n = bs.length ∧ ReadAs (completed src) bs := by
  obtain ⟨hv, hm⟩ := completed_valid src
  have hr := (decBlocks_reads _ hv hm).1
  unfold base64str2array
  rw [genDecode_spec al blk src hblk hsz, if_neg hne]
  have hc : src.filter isB64Char ++ List.replicate (implied (src.filter isB64Char).length) eqc =
    completed src := rfl
  rw [hc]
  split
  · rename_i h; exact absurd h (hal _)
  · split
    · rename_i h
      simp only [bind'_ok, ok.injEq, Prod.mk.injEq, reduceCtorEq, false_and, false_iff, not_and]
      intro _ h2
      rw [(hr bs).2 h2] at h; cases h
    · rename_i bs' h
      simp only [bind'_ok, ok.injEq, Prod.mk.injEq, Option.some.injEq, OutPtr.owned.injEq]
      constructor
      · rintro ⟨rfl, rfl⟩; exact ⟨rfl, (hr bs').1 h⟩
      · rintro ⟨rfl, h2⟩
        have := h.symm.trans ((hr bs).2 h2)
        cases this
        exact ⟨rfl, rfl⟩

/-- **C05**, exactly: with memory at hand, the decoder fails and leaves the caller's
pointer at released memory if and only if the first padded group of the completed text
holds three or four `'='`; the only other failure is that of a text without any
meaningful character, and there the pointer is NULL. -/
theorem C05_exact (al : Allocator) (hal : NoOom al) (blk src : Bytes) (hblk : blk.length = 4)
    (hsz : src.length < 2 ^ 63) :
    (base64str2array al blk src = .ok (none, .dangling) ↔ OverPadded (completed src)) ∧
    (base64str2array al blk src = .ok (none, .null) ↔ src.filter isB64Char = []) := by
  obtain ⟨hv, hm⟩ := completed_valid src
  have hr := (decBlocks_reads _ hv hm).2
  unfold base64str2array
  rw [genDecode_spec al blk src hblk hsz]
  have hc : src.filter isB64Char ++ List.replicate (implied (src.filter isB64Char).length) eqc =
    completed src := rfl
  rw [hc]
  by_cases hne : src.filter isB64Char = []
  · rw [if_pos hne]
    have h0 : completed src = [] := by simp [completed, hne]
    rw [h0] at hr
    have : ¬ OverPadded (completed src) := by
      rw [h0, ← hr]; simp [decBlocks]
    simp [hne, this]
  · rw [if_neg hne]
    split
    · rename_i h; exact absurd h (hal _)
    · split
      · rename_i h
        simp [hne, hr.1 h]
      · rename_i bs' h
        have : ¬ OverPadded (completed src) := by
          rw [← hr, h]; simp
        simp [hne, this]

/-- Whatever memory is at hand, a failure that leaves the pointer at released memory has
a first padded group of three or four `'='` (**C05**, all allocation outcomes). -/
theorem C05_dangling (al : Allocator) (blk src : Bytes) (hblk : blk.length = 4)
    (hsz : src.length < 2 ^ 63) (p : OutPtr) (h : base64str2array al blk src = .ok (none, p)) :
    p = .null ∨ p = .dangling ∧ OverPadded (completed src) := by
  obtain ⟨hv, hm⟩ := completed_valid src
  have hr := (decBlocks_reads _ hv hm).2
  unfold base64str2array at h
  rw [genDecode_spec al blk src hblk hsz] at h
  have hc : src.filter isB64Char ++ List.replicate (implied (src.filter isB64Char).length) eqc =
    completed src := rfl
  rw [hc] at h
  split at h
  · simp at h; exact Or.inl h.symm
  · split at h
    · simp at h; exact Or.inl h.symm
    · split at h
      · rename_i hd
        simp at h
        exact Or.inr ⟨h.symm, hr.1 hd⟩
      · simp at h

/-- Concrete cases of C57_exact: padding inside a group, set bits below the padding
(`"AB=="`), and text after the padding all pass. -/
example : ReadAs (completed (str "A=BC")) [0, 0] ∧ ReadAs (completed (str "AB==")) [0] ∧
    ReadAs (completed (str "TWFuTQ==TWFu")) (str "ManM") ∧
    (str "A=BC").filter isB64Char ≠ [] := by
  refine ⟨?_, ?_, ?_, by decide +kernel⟩
  · exact ((decBlocks_reads _ (completed_valid _).1 (completed_valid _).2).1 _).1 (by decide +kernel)
  · exact ((decBlocks_reads _ (completed_valid _).1 (completed_valid _).2).1 _).1 (by decide +kernel)
  · exact ((decBlocks_reads _ (completed_valid _).1 (completed_valid _).2).1 _).1 (by decide +kernel)

/-- Concrete cases of C05_exact: `"A"`, `"TWFu===="` and `"TWFuT"` are over-padded once
completed, `"TWE="` is not. -/
example : OverPadded (completed (str "A")) ∧ OverPadded (completed (str "TWFu====")) ∧
    OverPadded (completed (str "TWFuT")) ∧ ¬ OverPadded (completed (str "TWE=")) := by
  refine ⟨?_, ?_, ?_, fun h => ?_⟩
  · exact (decBlocks_reads _ (completed_valid _).1 (completed_valid _).2).2.1 (by decide +kernel)
  · exact (decBlocks_reads _ (completed_valid _).1 (completed_valid _).2).2.1 (by decide +kernel)
  · exact (decBlocks_reads _ (completed_valid _).1 (completed_valid _).2).2.1 (by decide +kernel)
  · exact absurd ((decBlocks_reads _ (completed_valid _).1 (completed_valid _).2).2.2 h)
      (by decide +kernel)

end Brski.Props
