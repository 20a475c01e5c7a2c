import Verif.Server
import Verif.PropsMasa

/-!
# Lemmas about the HTTP handlers
-/

namespace Brski.Server
open Outcome Brski.Voucher VoucherJson Crypto BoolTime Request Base64 Brski.Props Brski.Spec

/-! ## Ownership of blocks -/

/-- The heap `h` is `h0` plus exactly one live block for each non-NULL pointer of `ps`. -/
structure Owns (h0 h : Heap) (ps : List (Option Nat)) : Prop where
  wf : h.Wf
  next : h0.next ≤ h.next
  nodup : (ps.filterMap id).Nodup
  live : ∀ p ∈ ps.filterMap id, h0.next ≤ p ∧ p < h.next ∧ h.blk p ≠ none
  rest : ∀ q, q ∉ ps.filterMap id → h.blk q = h0.blk q

theorem owns_nil {h0 : Heap} (hw : h0.Wf) : Owns h0 h0 [] :=
  ⟨hw, Nat.le_refl _, by simp, by simp, by simp⟩

theorem owns_perm {h0 h : Heap} {ps qs : List (Option Nat)} (hp : ps.Perm qs) (ho : Owns h0 h ps) : Owns h0 h qs := by
  have hq : (ps.filterMap id).Perm (qs.filterMap id) := hp.filterMap id
  exact ⟨ho.wf, ho.next, hq.nodup_iff.1 ho.nodup, fun p h => ho.live p (hq.mem_iff.2 h),
    fun q h => ho.rest q fun hm => h (hq.mem_iff.1 hm)⟩

theorem owns_none {h0 h : Heap} {ps : List (Option Nat)} : Owns h0 h (none :: ps) ↔ Owns h0 h ps := by
  constructor
  · intro ho
    exact ⟨ho.wf, ho.next, by simpa using ho.nodup, fun p h => ho.live p (by simpa using h),
      fun q h => ho.rest q (by simpa using h)⟩
  · intro ho
    exact ⟨ho.wf, ho.next, by simpa using ho.nodup, fun p h => ho.live p (by simpa using h),
      fun q h => ho.rest q (by simpa using h)⟩

theorem owns_alloc {h0 h : Heap} {ps : List (Option Nat)} (ho : Owns h0 h ps) (b : Bytes) :
    Owns h0 (h.alloc b).1 (some (h.alloc b).2 :: ps) := by
  have hnew : h.next ∉ ps.filterMap id := fun hm => by have := ho.live _ hm; omega
  refine ⟨Heap.alloc_wf ho.wf b, by have := ho.next; simp only [Heap.alloc]; omega, ?_, ?_, ?_⟩
  · simp only [Heap.alloc, List.filterMap_cons, id]
    exact List.nodup_cons.2 ⟨hnew, ho.nodup⟩
  · intro p hp
    simp only [Heap.alloc, List.filterMap_cons, id, List.mem_cons] at hp ⊢
    rcases hp with rfl | hp
    · exact ⟨ho.next, by omega, by simp⟩
    · have := ho.live p hp
      exact ⟨this.1, by omega, by rw [if_neg (by omega)]; exact this.2.2⟩
  · intro q hq
    simp only [Heap.alloc, List.filterMap_cons, id, List.mem_cons, not_or] at hq ⊢
    rw [if_neg hq.1]
    exact ho.rest q hq.2

theorem owns_burn {h0 h : Heap} {ps : List (Option Nat)} (ho : Owns h0 h ps) : Owns h0 (burn h).1 ps := by
  refine ⟨fun p hp => ?_, ?_, ho.nodup, fun p hp => ?_, ho.rest⟩
  · have := ho.wf p hp; simp only [burn]; omega
  · have := ho.next; simp only [burn]; omega
  · have := ho.live p hp; exact ⟨this.1, by simp only [burn]; omega, this.2.2⟩

theorem owns_free {h0 h : Heap} {ps : List (Option Nat)} {p : Option Nat} (hw0 : h0.Wf) (ho : Owns h0 h (p :: ps)) :
    ∃ h', h.freePtr p = .ok h' ∧ Owns h0 h' ps := by
  cases p with
  | none => exact ⟨h, rfl, owns_none.1 ho⟩
  | some p =>
    have hl := ho.live p (by simp)
    have hnd := ho.nodup
    simp only [List.filterMap_cons, id, List.nodup_cons] at hnd
    refine ⟨_, Heap.free_live hl.2.2, ?_, ho.next, hnd.2, ?_, ?_⟩
    · intro q hq
      simp only [Heap.Live] at hq
      split at hq
      · exact absurd rfl hq
      · exact ho.wf q hq
    · intro q hq
      have := ho.live q (by simp at hq ⊢; exact .inr hq)
      refine ⟨this.1, this.2.1, ?_⟩
      have hne : q ≠ p := fun e => hnd.1 (e ▸ hq)
      simp only [hne, if_false]
      exact this.2.2
    · intro q hq
      simp only
      split
      · rename_i e
        subst e
        cases hb : h0.blk q with
        | none => rfl
        | some b => exact absurd (hw0 q (by simp [Heap.Live, hb])) (by omega)
      · rename_i e
        exact ho.rest q (by simp only [List.filterMap_cons, id, List.mem_cons, not_or]; exact ⟨e, hq⟩)

theorem owns_freeAll {h0 : Heap} (hw0 : h0.Wf) (ps : List (Option Nat)) :
    ∀ {h : Heap}, Owns h0 h ps → ∃ h', freeAll h ps = .ok h' ∧ Owns h0 h' [] := by
  induction ps with
  | nil => intro h ho; exact ⟨h, rfl, ho⟩
  | cons p ps ih =>
    intro h ho
    obtain ⟨h1, e1, o1⟩ := owns_free hw0 ho
    obtain ⟨h2, e2, o2⟩ := ih o1
    exact ⟨h2, by rw [freeAll, e1, bind'_ok, e2], o2⟩

theorem owns_blk {h0 h : Heap} (ho : Owns h0 h []) : h.blk = h0.blk := funext fun q => ho.rest q (by simp)

/-! ## Dangling pointers -/

/-- `p` was handed out and released. -/
def Stale (h : Heap) (p : Nat) : Prop := h.blk p = none ∧ p < h.next

theorem stale_alloc {h : Heap} {p : Nat} (hs : Stale h p) (b : Bytes) : Stale (h.alloc b).1 p := by
  have := hs.2
  refine ⟨?_, by simp only [Heap.alloc]; omega⟩
  rw [Heap.alloc_blk, if_neg (by omega)]
  exact hs.1

theorem stale_burn {h : Heap} {p : Nat} (hs : Stale h p) : Stale (burn h).1 p :=
  ⟨hs.1, by have := hs.2; simp only [burn]; omega⟩

theorem stale_free {h h' : Heap} {p : Nat} {q : Option Nat} (hs : Stale h p) (e : h.freePtr q = .ok h') :
    Stale h' p := by
  cases q with
  | none => cases e; exact hs
  | some q =>
    obtain ⟨-, rfl⟩ := Heap.free_ok_inv e
    refine ⟨?_, hs.2⟩
    simp only
    split
    · rfl
    · exact hs.1

theorem freeAll_stale {p : Nat} (ps : List (Option Nat)) :
    ∀ {h : Heap}, Stale h p → some p ∈ ps → freeAll h ps = .ub := by
  induction ps with
  | nil => intro h _ hm; cases hm
  | cons q ps ih =>
    intro h hs hm
    rw [freeAll]
    cases e : h.freePtr q with
    | ub => rfl
    | ok h' =>
      rw [bind'_ok]
      rcases List.mem_cons.1 hm with rfl | hm
      · simp [Heap.freePtr, Heap.free, hs.1] at e
      · exact ih (stale_free hs e) hm

theorem stale_of_burn {h : Heap} (hw : h.Wf) : Stale (burn h).1 (burn h).2 :=
  ⟨by have := Heap.alloc_fresh hw; simpa [burn] using this, by simp [burn]⟩

/-! ## Decoding of the body -/

/-- The base64 characters of the body, completed with the implied padding. -/
def padded (t : Bytes) : Bytes :=
  t.filter isB64Char ++ List.replicate (implied (t.filter isB64Char).length) eqc

/-- The three ways the decoder leaves the body. -/
theorem decodeBody_cases (al : Allocator) (blk : Bytes) (hblk : blk.length = 4) (h : Heap) (body : Bytes)
    (hsz : (cstr body).length < 2 ^ 63) :
    (∃ c, base64str2array al blk (cstr body) = .ok (some c.length, .owned c) ∧
      decodeBody al blk h body = .ok ⟨(h.alloc c).1, some c.length, some (h.alloc c).2, c⟩) ∨
    (base64str2array al blk (cstr body) = .ok (none, .null) ∧
      decodeBody al blk h body = .ok ⟨h, none, none, []⟩) ∨
    (base64str2array al blk (cstr body) = .ok (none, .dangling) ∧
      decodeBody al blk h body = .ok ⟨(burn h).1, none, some (burn h).2, []⟩) := by
  have hg := genDecode_spec al blk (cstr body) hblk hsz
  unfold decodeBody
  have hb : base64str2array al blk (cstr body) = genDecode al blk (cstr body) := by
    unfold base64str2array
    rw [hg]
    split
    · rfl
    · split
      · rfl
      · split <;> rfl
  rw [hb, hg]
  split
  · exact .inr (.inl ⟨rfl, rfl⟩)
  · split
    · exact .inr (.inl ⟨rfl, rfl⟩)
    · split
      · exact .inr (.inr ⟨rfl, rfl⟩)
      · rename_i bs _
        exact .inl ⟨bs, rfl, rfl⟩

/-- The text put into a response is exactly the encoding. -/
theorem cstr_encoded {al : Allocator} {bs buf : Bytes} {n : Nat}
    (h : array2base64str al bs = .ok (some (buf, n))) : cstr buf = rfc4648 bs := by
  obtain ⟨hn, ht, h0⟩ := C02_encode_any_alloc al bs buf n h
  have hz : ∀ c ∈ rfc4648 bs, c ≠ 0 := by
    rw [← enc_eq_rfc]
    intro c hc e
    have := List.filter_eq_self.1 (enc_valid bs) c hc
    rw [e] at this
    exact absurd this (by decide +kernel)
  have hlt : n < buf.length := by
    cases Nat.lt_or_ge n buf.length with
    | inl h => exact h
    | inr h => rw [List.getElem?_eq_none h] at h0; cases h0
  rw [List.getElem?_eq_getElem hlt] at h0
  have : buf = buf.take n ++ buf[n] :: buf.drop (n + 1) := by
    rw [← List.drop_eq_getElem_cons hlt, List.take_append_drop]
  rw [this, ht, show buf[n] = 0 from Option.some.inj h0]
  unfold cstr
  rw [List.takeWhile_append_of_pos (by intro c hc; simpa using hz c hc)]
  simp

/-- A body that was not decoded yields a request that every verification refuses. -/
theorem masa_failed (O : Ossl) (rt : Rt) (expires : Option Tm) (cb : Option Callback) (cert key : Option BinArr)
    (rc rs pc ps add : Option CertList) :
    signMasaPledgeVoucher O rt (some ⟨none, sizeMax⟩) expires cb cert key rc rs pc ps add = .ok none := by
  unfold signMasaPledgeVoucher
  cases expires with
  | none => rfl
  | some t =>
    cases cb with
    | none => rfl
    | some cb =>
      have : verifyCmsVoucher O (rt.json 0) (rt.ok 0) (some ⟨none, sizeMax⟩) rc rs true = .ok none := by
        unfold verifyCmsVoucher verifyCms
        simp [sizeMax]
      simp only [this, bind'_ok]

theorem registrar_failed (O : Ossl) (rt : Rt) (t : Option Tm) (serial : Option Bytes) (issuer reg cert key : Option BinArr)
    (certs store add : Option CertList) :
    signVoucherRequest O rt (some ⟨none, sizeMax⟩) t serial issuer reg cert key certs store add = .ok none := by
  unfold signVoucherRequest
  have : verifyCmsVoucher O (rt.json 0) (rt.ok 0) (some ⟨none, sizeMax⟩) certs store false = .ok none := by
    unfold verifyCmsVoucher verifyCms
    simp [sizeMax]
  split <;> first | rfl | simp only [this, bind'_ok]

/-! ## Badly padded text -/

/-- The first group of four with a `'='` has three or four of them. -/
def BadPadding (t : Bytes) : Prop :=
  ∃ q g r, t = q ++ g ++ r ∧ q.length % 4 = 0 ∧ (61 : UInt8) ∉ q ∧ g.length = 4 ∧ 3 ≤ g.count 61

theorem bad_first {a b c d : UInt8} {r : Bytes} (h0 : List.count 61 [a, b, c, d] ≠ 0)
    (h3 : List.count 61 [a, b, c, d] < 3) : ¬ BadPadding (a :: b :: c :: d :: r) := by
  rintro ⟨q, g, r', he, h1, h2, hg, h4⟩
  match q, h1, h2, he with
  | [], _, _, he =>
    match g, hg, h4, he with
    | [g1, g2, g3, g4], _, h4, he =>
      simp only [List.nil_append, List.cons_append, List.cons.injEq] at he
      obtain ⟨rfl, rfl, rfl, rfl, -⟩ := he
      omega
  | q1 :: q2 :: q3 :: q4 :: q, _, h2, he =>
    simp only [List.cons_append, List.cons.injEq] at he
    obtain ⟨rfl, rfl, rfl, rfl, -⟩ := he
    apply h0
    refine List.count_eq_zero.2 fun hm => h2 ?_
    have : (61 : UInt8) ∈ [a, b, c, d] ++ q := List.mem_append.2 (.inl hm)
    exact this
  | [_], h1, _, _ => simp at h1
  | [_, _], h1, _, _ => simp at h1
  | [_, _, _], h1, _, _ => simp at h1

theorem decBlocks_none_iff (t : Bytes) : decBlocks t = none ↔ BadPadding t := by
  fun_induction decBlocks t with
  | case1 a b c d r pad bs hp ih =>
    rw [Option.map_eq_none_iff, ih]
    have hp' : List.count 61 [a, b, c, d] = 0 := hp
    have hmem : (61 : UInt8) ∉ [a, b, c, d] := List.count_eq_zero.1 hp'
    constructor
    · rintro ⟨q, g, r', rfl, h1, h2, h3, h4⟩
      refine ⟨a :: b :: c :: d :: q, g, r', rfl, by simp only [List.length_cons]; omega, ?_, h3, h4⟩
      intro hm
      have : (61 : UInt8) ∈ [a, b, c, d] ++ q := hm
      rcases List.mem_append.1 this with h | h
      · exact hmem h
      · exact h2 h
    · rintro ⟨q, g, r', he, h1, h2, h3, h4⟩
      match q, h1, h2, he with
      | [], _, _, he =>
        match g, h3, h4, he with
        | [g1, g2, g3, g4], _, h4, he =>
          simp only [List.nil_append, List.cons_append, List.cons.injEq] at he
          obtain ⟨rfl, rfl, rfl, rfl, -⟩ := he
          omega
      | q1 :: q2 :: q3 :: q4 :: q, h1, h2, he =>
        simp only [List.cons_append, List.cons.injEq] at he
        obtain ⟨-, -, -, -, rfl⟩ := he
        exact ⟨q, g, r', rfl, by simp only [List.length_cons] at h1; omega, fun h => h2 (by simp [h]), h3, h4⟩
      | [_], h1, _, _ => simp at h1
      | [_, _], h1, _, _ => simp at h1
      | [_, _, _], h1, _, _ => simp at h1
  | case2 a b c d r pad bs h0 h1 =>
    simp only [reduceCtorEq, false_iff]
    exact bad_first (show List.count 61 [a, b, c, d] ≠ 0 from h0) (show List.count 61 [a, b, c, d] < 3 from by
      have : List.count 61 [a, b, c, d] = 1 := h1
      omega)
  | case3 a b c d r pad bs h0 h1 h2 =>
    simp only [reduceCtorEq, false_iff]
    exact bad_first (show List.count 61 [a, b, c, d] ≠ 0 from h0) (show List.count 61 [a, b, c, d] < 3 from by
      have : List.count 61 [a, b, c, d] = 2 := h2
      omega)
  | case4 a b c d r pad h0 h1 h2 =>
    simp only [true_iff]
    have e0 : List.count 61 [a, b, c, d] ≠ 0 := h0
    have e1 : List.count 61 [a, b, c, d] ≠ 1 := h1
    have e2 : List.count 61 [a, b, c, d] ≠ 2 := h2
    exact ⟨[], [a, b, c, d], r, rfl, rfl, by simp, rfl, by omega⟩
  | case5 t hne =>
    simp only [reduceCtorEq, false_iff]
    rintro ⟨q, g, r', he, h1, h2, h3, h4⟩
    match q, g, h3, he with
    | [], [g1, g2, g3, g4], _, he => exact hne _ _ _ _ _ he
    | [a], [g1, g2, g3, g4], _, he => exact hne _ _ _ _ _ he
    | [a, b], [g1, g2, g3, g4], _, he => exact hne _ _ _ _ _ he
    | [a, b, c], [g1, g2, g3, g4], _, he => exact hne _ _ _ _ _ he
    | a :: b :: c :: d :: q, g, _, he => exact hne _ _ _ _ _ he

/-- The decoder leaves a dangling pointer exactly for badly padded text (memory permitting). -/
theorem dangling_iff (al : Allocator) (blk t : Bytes) (hblk : blk.length = 4) (hsz : t.length < 2 ^ 63) :
    base64str2array al blk t = .ok (none, .dangling) ↔
      t.filter isB64Char ≠ [] ∧ al.malloc ((padded t).length / 4 * 3) ≠ none ∧ BadPadding (padded t) := by
  unfold base64str2array
  rw [genDecode_spec al blk t hblk hsz, ← decBlocks_none_iff]
  have hl : (padded t).length = (t.filter isB64Char).length + implied (t.filter isB64Char).length := by
    simp [padded]
  rw [hl]
  unfold padded
  split
  · simp_all
  · rename_i h0
    split
    · simp_all
    · split <;> simp_all

/-! ## Certificate lists -/

theorem owns_loadList {h0 h : Heap} {ps : List (Option Nat)} (ho : Owns h0 h ps) (l : Loaded) (hl : l ≠ .freed) :
    Owns h0 (loadList h l).1 ((loadList h l).2.1 :: ps) := by
  cases l with
  | absent => exact owns_none.2 ho
  | list l => exact owns_alloc ho []
  | noMem => exact owns_none.2 ho
  | freed => exact absurd rfl hl

theorem owns_loadLists {h0 : Heap} (ls : List Loaded) (hl : ∀ l ∈ ls, l ≠ .freed) :
    ∀ {h : Heap} {ps : List (Option Nat)}, Owns h0 h ps → Owns h0 (loadLists h ls).1 ((loadLists h ls).2.1 ++ ps) := by
  induction ls with
  | nil => intro h ps ho; exact ho
  | cons l ls ih =>
    intro h ps ho
    have h1 := owns_loadList ho l (hl l (by simp))
    simp only [loadLists]
    split
    · have h2 := ih (fun l' hm => hl l' (by simp [hm])) h1
      refine owns_perm ?_ h2
      exact List.perm_iff_count.2 fun a => by
        simp only [List.count_append, List.count_cons, List.cons_append]; omega
    · exact h1

theorem stale_loadList {h : Heap} {p : Nat} (hs : Stale h p) (l : Loaded) : Stale (loadList h l).1 p := by
  cases l with
  | absent => exact hs
  | list l => exact stale_alloc hs []
  | noMem => exact hs
  | freed => exact stale_burn hs

theorem stale_loadLists {p : Nat} (ls : List Loaded) :
    ∀ {h : Heap}, Stale h p → Stale (loadLists h ls).1 p := by
  induction ls with
  | nil => intro h hs; exact hs
  | cons l ls ih =>
    intro h hs
    simp only [loadLists]
    split
    · exact ih (stale_loadList hs l)
    · exact stale_loadList hs l

theorem owns_regLists {h0 : Heap} (ls : List Loaded) :
    ∀ {h : Heap} {ps : List (Option Nat)}, Owns h0 h ps → Owns h0 (regLists h ps ls).1 (regLists h ps ls).2.1 := by
  induction ls with
  | nil => intro h ps ho; exact ho
  | cons l ls ih =>
    intro h ps ho
    simp only [regLists]
    cases l with
    | absent => simp only [loadList, if_true]; exact ih (owns_none.2 ho)
    | list l => simp only [loadList, if_true]; exact ih (owns_alloc ho [])
    | noMem => simpa [loadList] using ho
    | freed => simpa [loadList] using owns_burn ho

theorem regLists_stale {p : Nat} (ls : List Loaded) :
    ∀ {h : Heap} {ps : List (Option Nat)}, Stale h p → some p ∈ ps →
      Stale (regLists h ps ls).1 p ∧ some p ∈ (regLists h ps ls).2.1 := by
  induction ls with
  | nil => intro h ps hs hm; exact ⟨hs, hm⟩
  | cons l ls ih =>
    intro h ps hs hm
    simp only [regLists]
    split
    · exact ih (stale_loadList hs l) (by simp [hm])
    · exact ⟨stale_loadList hs l, hm⟩

/-- All lists were loaded. -/
theorem loadLists_ok {ls : List Loaded} {h : Heap} (he : (loadLists h ls).2.2 = true) :
    ∀ l ∈ ls, l ≠ .noMem ∧ l ≠ .freed := by
  induction ls generalizing h with
  | nil => intro l hm; cases hm
  | cons l ls ih =>
    simp only [loadLists] at he
    split at he
    · rename_i h1
      intro l' hm
      rcases List.mem_cons.1 hm with rfl | hm
      · constructor
        · intro e; subst e; simp [loadList] at h1
        · intro e; subst e; simp [loadList] at h1
      · exact ih he l' hm
    · cases he

theorem loadLists_full {ls : List Loaded} (hl : ∀ l ∈ ls, l ≠ .noMem ∧ l ≠ .freed) :
    ∀ {h : Heap}, (loadLists h ls).2.2 = true := by
  induction ls with
  | nil => intro h; rfl
  | cons l ls ih =>
    intro h
    have h1 := hl l (by simp)
    have hok : (loadList h l).2.2 = true := by
      cases l with
      | absent => rfl
      | list l => rfl
      | noMem => exact absurd rfl h1.1
      | freed => exact absurd rfl h1.2
    simp only [loadLists, hok, if_true]
    exact ih fun l' hm => hl l' (by simp [hm])

theorem arr_wf (f : FileRes) : ArgWf f.arr := by
  intro y hy
  cases f with
  | unset => cases hy
  | bad => cases hy
  | der b => cases hy; exact wf_of b

/-! ## The callback -/

theorem copy_of (al : Allocator) (b : Bytes) :
    copyBinaryArray al (.of b) = .ok (⟨none, 0⟩, false) ∨ copyBinaryArray al (.of b) = .ok (.of b, true) := by
  unfold copyBinaryArray memdup
  simp only [BinArr.of]
  repeat' split
  all_goals simp_all [List.take_length]

theorem callback_eq (al : Allocator) (h : Heap) (p : Nat) (b : Bytes) (hb : h.blk p = some b) (s : Bytes)
    (l : Option CertList) :
    voucherReqCb al h (some p) s l = .ok none ∨ voucherReqCb al h (some p) s l = .ok (some (.of b)) := by
  unfold voucherReqCb
  simp only [Heap.read, hb, bind'_ok]
  rcases copy_of al b with e | e
  · rw [e]; exact .inl rfl
  · rw [e]; exact .inr rfl

theorem callback_ok (al : Allocator) (h : Heap) (p : Nat) (b : Bytes) (hb : h.blk p = some b) :
    CallbackOk (voucherReqCb al h (some p)) := by
  intro s l
  rcases callback_eq al h p b hb s l with e | e
  · exact ⟨none, e, by intro x h; cases h⟩
  · exact ⟨_, e, by intro x h; cases h; exact wf_of b⟩

end Brski.Server
