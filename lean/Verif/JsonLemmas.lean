import Verif.VoucherJson
import Verif.SpecJson
import Verif.Base64Enc

/-!
# Lemmas about the JSON joiner
-/

namespace Brski.VoucherJson

open Outcome Brski.Spec

theorem wrAll_ok (s : Bytes) : ∀ (buf : Bytes) (i : Nat), i + s.length ≤ buf.length →
    wrAll buf i s = .ok (buf.take i ++ s ++ buf.drop (i + s.length)) := by
  induction s with
  | nil => intro buf i _; simp [wrAll]
  | cons c s ih =>
    intro buf i h
    simp only [List.length_cons] at h
    have hi : i < buf.length := by omega
    simp only [wrAll, wr_lt c hi, bind'_ok]
    rw [ih (buf.set i c) (i + 1) (by simp; omega)]
    congr 1
    have h1 : (buf.set i c).take (i + 1) = buf.take i ++ [c] := by
      rw [List.set_eq_take_append_cons_drop, if_pos hi, List.take_append]
      simp [Nat.min_eq_left (Nat.le_of_lt hi)]
      rw [List.take_of_length_le (by simp; omega)]
    rw [h1]
    have h2 : (buf.set i c).drop (i + 1 + s.length) = buf.drop (i + (c :: s).length) := by
      rw [List.drop_set_of_lt (by omega)]
      congr 1
      simp only [List.length_cons]; omega
    rw [h2]
    simp

theorem takeWhile_append_nul (t x : Bytes) (h : (0 : UInt8) ∉ t) :
    (t ++ 0 :: x).takeWhile (· ≠ 0) = t := by
  induction t with
  | nil => simp
  | cons c t ih =>
    simp only [List.mem_cons, not_or] at h
    rw [List.cons_append, List.takeWhile_cons_of_pos (by simpa using fun e => h.1 e.symm), ih h.2]

theorem strcat_ok (t s x : Bytes) (h : (0 : UInt8) ∉ t) (hx : s.length ≤ x.length) :
    strcat (t ++ 0 :: x) s = .ok (t ++ s ++ 0 :: x.drop s.length) := by
  unfold strcat
  rw [if_pos (by simp), takeWhile_append_nul t x h]
  rw [wrAll_ok _ _ _ (by simp; omega)]
  congr 1
  simp only [List.length_append, List.length_cons, List.length_nil]
  rw [List.take_append_of_le_length (Nat.le_refl _), List.take_length]
  rw [List.drop_append]
  simp only [List.append_assoc, List.append_cancel_left_eq]
  rw [List.drop_of_length_le (by omega), show t.length + (s.length + (0 + 1)) - t.length = s.length + 1 by omega]
  simp

theorem cstring_ok (t x : Bytes) (h : (0 : UInt8) ∉ t) : cstring (t ++ 0 :: x) = .ok t := by
  unfold cstring
  rw [if_pos (by simp), takeWhile_append_nul t x h]

theorem realloc_grow (al : Allocator) (buf : Bytes) (n : Nat) (h : buf.length ≤ n) :
    realloc al buf n = none ∨
      ∃ x, realloc al buf n = some (buf ++ x) ∧ x.length = n - buf.length := by
  unfold realloc
  cases e : al.malloc n with
  | none => exact Or.inl rfl
  | some b =>
    have hb := al.length_eq n b e
    refine Or.inr ⟨b.drop buf.length, ?_, by simp [hb]⟩
    simp only [List.take_of_length_le h, Nat.min_eq_right h]

theorem realloc_none (al : Allocator) (buf : Bytes) (n : Nat) (h : realloc al buf n = none) :
    al.malloc n = none := by
  unfold realloc at h
  cases e : al.malloc n with
  | none => rfl
  | some b => simp [e] at h

theorem concat_ok (al : Allocator) (key value : Bytes) (sep : Bool) :
    concatenateKeyvalue al key value sep = .ok none ∧
      al.malloc (key.length + value.length + 2 + (if sep then 1 else 0)) = none ∨
    concatenateKeyvalue al key value sep =
      .ok (some (key ++ [58] ++ value ++ (if sep then [44] else []) ++ [0])) := by
  unfold concatenateKeyvalue
  cases e : al.malloc (key.length + value.length + 2 + (if sep then 1 else 0)) with
  | none => left; simp only [e]; exact ⟨trivial, trivial⟩
  | some b =>
    have hb := al.length_eq _ b e
    right
    simp only [e]
    have hl : (key ++ [58] ++ value ++ (if sep then [44] else []) ++ [0]).length = b.length := by
      cases sep <;> simp [hb] <;> omega
    rw [wrAll_ok _ _ _ (by omega)]
    simp only [bind'_ok, Nat.zero_add, List.take_zero, List.nil_append]
    rw [hl, List.drop_length, List.append_nil]

/-- Text contributed by a list of members. -/
def body : List (Bytes × Bytes) → Bytes
  | [] => []
  | [(k, v)] => k ++ [58] ++ v
  | (k, v) :: y :: r => k ++ [58] ++ v ++ [44] ++ body (y :: r)

theorem body_eq (kvs : List (Bytes × Bytes)) :
    body kvs = commaJoin (kvs.map fun kv => kv.1 ++ str ":" ++ kv.2) := by
  fun_induction body kvs with
  | case1 => rfl
  | case2 k v => rfl
  | case3 k v y r ih =>
    rw [ih]
    have hc : str "," = [44] := by decide
    have hd : str ":" = [58] := by decide
    simp [commaJoin, hc, hd]

theorem body_nul (kvs : List (Bytes × Bytes)) (h : ∀ kv ∈ kvs, (0 : UInt8) ∉ kv.1 ∧ (0 : UInt8) ∉ kv.2) :
    (0 : UInt8) ∉ body kvs := by
  fun_induction body kvs with
  | case1 => simp
  | case2 k v =>
    have := h (k, v) (by simp)
    simp [this.1, this.2]
  | case3 k v y r ih =>
    have h1 := h (k, v) (by simp)
    have h2 := ih (fun kv hkv => h kv (by simp only [List.mem_cons] at hkv ⊢; exact Or.inr hkv))
    simp [h1.1, h1.2, h2]

theorem kvLoop_ok (mem : Nat → Allocator) (kvs : List (Bytes × Bytes))
    (h : ∀ kv ∈ kvs, (0 : UInt8) ∉ kv.1 ∧ (0 : UInt8) ∉ kv.2) :
    ∀ (k : Nat) (t : Bytes), (0 : UInt8) ∉ t →
    (kvLoop mem k kvs (t ++ [0]) (t.length + 1) = .ok none ∧ ∃ i n, (mem i).malloc n = none) ∨
    kvLoop mem k kvs (t ++ [0]) (t.length + 1) =
      .ok (some (t ++ body kvs ++ [0], (t ++ body kvs).length + 1)) := by
  induction kvs with
  | nil => intro k t _; right; simp [kvLoop, body]
  | cons kv rest ih =>
    intro k t ht
    obtain ⟨key, value⟩ := kv
    have hk := h (key, value) (by simp)
    simp only [kvLoop]
    rcases concat_ok (mem k) key value (!rest.isEmpty) with ⟨e, em⟩ | e
    · left; simp only [e, bind'_ok]; exact ⟨trivial, k, _, em⟩
    · rw [e]
      simp only [bind'_ok]
      have hs : (0 : UInt8) ∉ key ++ [58] ++ value ++ (if !rest.isEmpty then [44] else []) := by
        cases rest <;> simp [hk.1, hk.2]
      generalize hg : key ++ [58] ++ value ++ (if !rest.isEmpty then [44] else []) = s at hs
      rw [cstring_ok s [] hs]
      simp only [bind'_ok]
      rcases realloc_grow (mem (k + 1)) (t ++ [0]) (t.length + 1 + s.length) (by simp) with
        e2 | ⟨x, e2, hx⟩
      · left; simp only [e2]; exact ⟨trivial, k + 1, _, realloc_none _ _ _ e2⟩
      · have hxl : x.length = s.length := by simp at hx; omega
        simp only [e2]
        rw [show t ++ [0] ++ x = t ++ 0 :: x by simp, strcat_ok t s x ht (by omega)]
        simp only [bind'_ok]
        rw [← hxl, List.drop_length]
        have hts : (0 : UInt8) ∉ t ++ s := by simp [ht, hs]
        have := ih (fun kv hkv => h kv (by simp [hkv])) (k + 2) (t ++ s) hts
        rw [show t.length + 1 + x.length = (t ++ s).length + 1 by simp; omega]
        have hb : t ++ s ++ body rest = t ++ body ((key, value) :: rest) := by
          rw [← hg]
          cases rest with
          | nil => simp [body]
          | cons y r => simp [body]
        rw [hb] at this
        exact this

theorem keyvalue2json_spec (mem : Nat → Allocator) (kvs : List (Bytes × Bytes))
    (h : ∀ kv ∈ kvs, (0 : UInt8) ∉ kv.1 ∧ (0 : UInt8) ∉ kv.2) :
    (keyvalue2json mem kvs = .ok none ∧ (kvs = [] ∨ ∃ i n, (mem i).malloc n = none)) ∨
    (kvs ≠ [] ∧ keyvalue2json mem kvs = .ok (some (jsonObject kvs ++ [0]))) := by
  unfold keyvalue2json
  by_cases h0 : kvs.length = 0
  · left; rw [if_pos h0]; exact ⟨rfl, Or.inl (List.eq_nil_of_length_eq_zero h0)⟩
  · rw [if_neg h0]
    cases e : (mem 0).malloc 2 with
    | none => left; exact ⟨rfl, Or.inr ⟨0, 2, e⟩⟩
    | some b =>
      have hb := (mem 0).length_eq 2 b e
      simp only
      have hz : b.map (fun _ => (0 : UInt8)) = [] ++ 0 :: [0] := by
        match b, hb with
        | [x, y], _ => rfl
      have hopen : str "{" = [123] := by decide
      have hclose : str "}" = [125] := by decide
      rw [hz, strcat_ok [] (str "{") [0] (by simp) (by decide)]
      rw [hopen]
      simp only [bind'_ok, List.nil_append, List.length_cons, List.length_nil, Nat.zero_add,
        List.drop_succ_cons, List.drop_zero]
      rcases kvLoop_ok mem kvs h 1 [123] (by decide) with ⟨e1, em⟩ | e1
      · left
        simp only [List.length_cons, List.length_nil, Nat.zero_add] at e1
        rw [show [123] ++ [(0 : UInt8)] = ([123] ++ [0] : Bytes) from rfl] at e1 ⊢
        rw [e1]
        exact ⟨rfl, Or.inr em⟩
      · simp only [List.length_cons, List.length_nil, Nat.zero_add] at e1
        rw [e1]
        simp only [bind'_ok]
        have ht : (0 : UInt8) ∉ [123] ++ body kvs := by simp [body_nul kvs h]
        generalize hg : [123] ++ body kvs = t at ht e1
        rcases realloc_grow (mem (2 * kvs.length + 1)) (t ++ [0]) (t.length + 1 + 1) (by simp) with
          e2 | ⟨x, e2, hx⟩
        · left; rw [e2]; exact ⟨rfl, Or.inr ⟨_, _, realloc_none _ _ _ e2⟩⟩
        · right
          have hxl : x.length = 1 := by simp at hx; omega
          rw [e2]
          simp only
          rw [show t ++ [0] ++ x = t ++ 0 :: x by simp, strcat_ok t (str "}") x ht (by rw [hclose]; simp [hxl])]
          simp only [bind'_ok]
          refine ⟨by rintro rfl; exact h0 rfl, ?_⟩
          rw [hclose]
          simp only [List.length_cons, List.length_nil, Nat.zero_add]
          rw [← hxl, List.drop_length]
          simp only [jsonObject, ← body_eq, hopen, hclose, ← hg]

end Brski.VoucherJson
