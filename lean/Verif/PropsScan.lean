import Verif.Scan
import Verif.PropsTarget
import Verif.WireLemmas

/-!
# C132: scanning a message stays within its bounds
-/

namespace Brski.Props
open Outcome Routes Wire Scan

/-! ## `trim` and `split` -/

theorem byteAt_app (a : Bytes) (c : UInt8) (b : Bytes) : byteAt (a ++ c :: b) a.length = .ok c := by
  simp [byteAt]

theorem trimLeft_blank (post : Bytes) : ∀ (u pre : Bytes), (∀ c ∈ u, isBlank c = true) →
    trimLeft (pre ++ (u ++ post)) pre.length = trimLeft (pre ++ (u ++ post)) (pre.length + u.length) := by
  intro u
  induction u with
  | nil => intro pre _; rfl
  | cons c u ih =>
    intro pre hu
    have h := ih (pre ++ [c]) (fun x hx => hu x (List.mem_cons_of_mem _ hx))
    simp only [List.append_assoc, List.cons_append, List.nil_append, List.length_append, List.length_cons, List.length_nil] at h
    conv => lhs; unfold trimLeft
    rw [dif_pos (by simp), List.cons_append, byteAt_app, bind'_ok, if_pos (hu c (List.mem_cons_self ..)), h]
    congr 1
    simp only [List.length_cons]; omega

theorem trimLeft_stop (pre : Bytes) {c : UInt8} (hc : isBlank c = false) (post : Bytes) :
    trimLeft (pre ++ c :: post) pre.length = .ok pre.length := by
  unfold trimLeft
  rw [dif_pos (by simp), byteAt_app, bind'_ok, if_neg (by simp [hc])]

theorem trimLeft_ge (s : Bytes) : ∀ (n k : Nat), s.length - k = n → ∃ k', trimLeft s k = .ok k' ∧ k ≤ k' := by
  intro n
  induction n with
  | zero =>
    intro k hk
    unfold trimLeft
    rw [dif_neg (by omega)]
    exact ⟨k, rfl, Nat.le_refl _⟩
  | succ n ih =>
    intro k hk
    unfold trimLeft
    have hlt : k < s.length := by omega
    rw [dif_pos hlt, byteAt, List.getElem?_eq_getElem hlt]
    simp only [bind'_ok]
    split
    · obtain ⟨k', h, hle⟩ := ih (k + 1) (by omega)
      exact ⟨k', h, by omega⟩
    · exact ⟨k, rfl, Nat.le_refl _⟩

theorem trimRight_blank (pre post : Bytes) : ∀ (w : Bytes), (∀ c ∈ w, isBlank c = true) →
    trimRight (pre ++ (w.reverse ++ post)) (pre.length + w.length) = trimRight (pre ++ (w.reverse ++ post)) pre.length := by
  intro w
  induction w generalizing post with
  | nil => intro _; rfl
  | cons c w ih =>
    intro hw
    have h := ih (c :: post) (fun x hx => hw x (List.mem_cons_of_mem _ hx))
    simp only [List.reverse_cons, List.append_assoc, List.cons_append, List.nil_append, List.length_cons]
    rw [show pre.length + (w.length + 1) = (pre.length + w.length) + 1 from by omega, trimRight]
    have hr := byteAt_app (pre ++ w.reverse) c post
    simp only [List.append_assoc, List.length_append, List.length_reverse] at hr
    rw [hr, bind'_ok, if_pos (hw c (List.mem_cons_self ..)), h]

theorem trimRight_stop (pre : Bytes) {c : UInt8} (hc : isBlank c = false) (post : Bytes) :
    trimRight (pre ++ c :: post) (pre.length + 1) = .ok (pre.length + 1) := by
  rw [trimRight, byteAt_app, bind'_ok, if_neg (by simp [hc])]

theorem trimRight_le (s : Bytes) : ∀ k, k ≤ s.length → ∃ k', trimRight s k = .ok k' ∧ k' ≤ k
  | 0, _ => ⟨0, rfl, Nat.le_refl _⟩
  | k + 1, h => by
    rw [trimRight, byteAt, List.getElem?_eq_getElem (by omega)]
    simp only [bind'_ok]
    split
    · obtain ⟨k', h', hle⟩ := trimRight_le s k (by omega)
      exact ⟨k', h', by omega⟩
    · exact ⟨k + 1, rfl, Nat.le_refl _⟩

/-- Every text is blanks around a text that begins and ends with something else, or blanks only. -/
theorem blank_cases (s : Bytes) : (∀ c ∈ s, isBlank c = true) ∨
    ∃ u x w, s = u ++ (x ++ w) ∧ (∀ c ∈ u, isBlank c = true) ∧ (∀ c ∈ w, isBlank c = true) ∧
      (∃ a r, x = a :: r ∧ isBlank a = false) ∧ (∃ a r, x = r ++ [a] ∧ isBlank a = false) := by
  have htw : ∀ l : Bytes, ∀ c ∈ l.takeWhile isBlank, isBlank c = true := fun l c h => by
    induction l with
    | nil => simp at h
    | cons a l ih =>
      rw [List.takeWhile_cons] at h
      split at h
      · rcases List.mem_cons.mp h with e | e
        · subst e; assumption
        · exact ih e
      · simp at h
  have hdw : ∀ l : Bytes, l.dropWhile isBlank = [] ∨ ∃ a r, l.dropWhile isBlank = a :: r ∧ isBlank a = false := fun l => by
    induction l with
    | nil => exact .inl rfl
    | cons a l ih =>
      rw [List.dropWhile_cons]
      split
      · exact ih
      · rename_i h; exact .inr ⟨a, l, rfl, by simpa using h⟩
  rcases hdw s with h | ⟨a, r, h, ha⟩
  · left
    intro c hc
    have := List.takeWhile_append_dropWhile (p := isBlank) (l := s)
    rw [h, List.append_nil] at this
    rw [← this] at hc
    exact htw s c hc
  · right
    have e1 := List.takeWhile_append_dropWhile (p := isBlank) (l := s)
    have e2 := List.takeWhile_append_dropWhile (p := isBlank) (l := (a :: r).reverse)
    rcases hdw (a :: r).reverse with h2 | ⟨b, q, h2, hb⟩
    · rw [h2, List.append_nil] at e2
      have : isBlank a = true := htw (a :: r).reverse a (by rw [e2]; simp)
      rw [ha] at this; cases this
    · rw [h2] at e2
      have e3 : a :: r = (q.reverse ++ [b]) ++ ((a :: r).reverse.takeWhile isBlank).reverse := by
        have := congrArg List.reverse e2
        simpa using this.symm
      refine ⟨s.takeWhile isBlank, q.reverse ++ [b], ((a :: r).reverse.takeWhile isBlank).reverse, ?_, htw s, ?_, ?_,
        ⟨b, q.reverse, rfl, hb⟩⟩
      · rw [← e3, ← h, e1]
      · intro c hc; exact htw _ c (List.mem_reverse.mp hc)
      · cases hq : q.reverse with
        | nil =>
          rw [hq] at e3
          simp only [List.nil_append, List.cons_append, List.cons.injEq] at e3
          exact ⟨b, [], rfl, hb⟩
        | cons y ys =>
          rw [hq] at e3
          simp only [List.cons_append, List.cons.injEq] at e3
          exact ⟨y, ys ++ [b], by simp, by rw [← e3.1]; exact ha⟩

theorem trim_blank {s : Bytes} (h : ∀ c ∈ s, isBlank c = true) : trim s = [] := by
  have : s.dropWhile isBlank = [] := by
    induction s with
    | nil => rfl
    | cons a s ih =>
      rw [List.dropWhile_cons, if_pos (h a (List.mem_cons_self ..))]
      exact ih fun c hc => h c (List.mem_cons_of_mem _ hc)
  simp [trim, this]

theorem dropWhile_blank {u : Bytes} (hu : ∀ c ∈ u, isBlank c = true) {a : UInt8} (ha : isBlank a = false) (r : Bytes) :
    (u ++ a :: r).dropWhile isBlank = a :: r := by
  induction u with
  | nil => simp [List.dropWhile_cons, ha]
  | cons c u ih =>
    rw [List.cons_append, List.dropWhile_cons, if_pos (hu c (List.mem_cons_self ..))]
    exact ih fun x hx => hu x (List.mem_cons_of_mem _ hx)

theorem trim_core {u x w : Bytes} (hu : ∀ c ∈ u, isBlank c = true) (hw : ∀ c ∈ w, isBlank c = true)
    (h1 : ∃ a r, x = a :: r ∧ isBlank a = false) (h2 : ∃ a r, x = r ++ [a] ∧ isBlank a = false) :
    trim (u ++ (x ++ w)) = x := by
  obtain ⟨a, r, e1, ha⟩ := h1
  obtain ⟨b, q, e2, hb⟩ := h2
  have d1 : (u ++ (x ++ w)).dropWhile isBlank = x ++ w := by
    rw [e1, List.cons_append]; exact dropWhile_blank hu ha _
  have d2 : ((x ++ w).reverse).dropWhile isBlank = x.reverse := by
    rw [e2]
    simp only [List.reverse_append, List.reverse_cons, List.reverse_nil, List.nil_append, List.cons_append, List.append_assoc]
    exact dropWhile_blank (fun c hc => hw c (List.mem_reverse.mp hc)) hb _
  rw [trim, d1, d2, List.reverse_reverse]

/-- What the callback of `split` is called with for a piece of a text. -/
def callOf (p : Bytes) : List Bytes := [trim p].filter (· ≠ [])

theorem slice_mid (a b c : Bytes) : slice (a ++ (b ++ c)) a.length (a.length + b.length) = .ok b := by
  rw [slice, if_pos ⟨by omega, by simp only [List.length_append]; omega⟩]
  simp

theorem part_eq (pre sub post : Bytes) :
    part (pre ++ (sub ++ post)) pre.length (pre.length + sub.length) = .ok (callOf sub) := by
  rcases blank_cases sub with h | ⟨u, x, w, e, hu, hw, h1, h2⟩
  · obtain ⟨a, ha, hle⟩ := trimLeft_ge (pre ++ (sub ++ post)) _ (pre.length + sub.length) rfl
    have hr := trimRight_blank pre post sub.reverse (fun c hc => h c (List.mem_reverse.mp hc))
    rw [List.reverse_reverse, List.length_reverse] at hr
    obtain ⟨b, hb, hle'⟩ := trimRight_le (pre ++ (sub ++ post)) pre.length (by simp)
    rw [part, trimLeft_blank post sub pre h, ha, bind'_ok, hr, hb, bind'_ok, if_neg (by omega), callOf, trim_blank h]
    rfl
  · have hl : trimLeft (pre ++ (sub ++ post)) pre.length = .ok (pre.length + u.length) := by
      obtain ⟨a, r, e1, ha⟩ := h1
      have t1 := trimLeft_blank (x ++ w ++ post) u pre hu
      have t2 := trimLeft_stop (pre ++ u) ha (r ++ (w ++ post))
      subst e; subst e1
      simp only [List.append_assoc, List.cons_append, List.length_append] at t1 t2 ⊢
      rw [t1, t2]
    have hr : trimRight (pre ++ (sub ++ post)) (pre.length + sub.length) = .ok (pre.length + u.length + x.length) := by
      obtain ⟨b, q, e2, hb⟩ := h2
      have t1 := trimRight_blank (pre ++ (u ++ x)) post w.reverse (fun c hc => hw c (List.mem_reverse.mp hc))
      have t2 := trimRight_stop (pre ++ (u ++ q)) hb (w ++ post)
      subst e; subst e2
      simp only [List.reverse_reverse, List.length_reverse, List.append_assoc, List.cons_append, List.nil_append, List.length_append,
        List.length_cons, List.length_nil, Nat.zero_add] at t1 t2 ⊢
      rw [show pre.length + (u.length + (q.length + (w.length + 1))) = pre.length + (u.length + (q.length + 1)) + w.length from by omega, t1,
        show pre.length + (u.length + (q.length + 1)) = pre.length + (u.length + q.length) + 1 from by omega, t2]
      congr 1; omega
    have hx : x ≠ [] := by obtain ⟨a, r, e1, _⟩ := h1; rw [e1]; exact fun h => nomatch h
    have hxl : 0 < x.length := List.length_pos_iff.mpr hx
    have hs := slice_mid (pre ++ u) x (w ++ post)
    have ht := trim_core hu hw h1 h2
    rw [part, hl, bind'_ok, hr, bind'_ok, if_pos (by omega)]
    subst e
    simp only [List.append_assoc, List.length_append] at hs ⊢
    rw [hs, bind'_ok, callOf, ht]
    simp [hx]

/-- Specification: the pieces of a text between its first `n` delimiters, the last piece being the rest. -/
def piecesN (d : UInt8) : Nat → Bytes → List Bytes
  | _, [] => [[]]
  | n, c :: s =>
    if c = d ∧ 0 < n then [] :: piecesN d (n - 1) s
    else
      match piecesN d n s with
      | [] => [[c]]
      | p :: ps => (c :: p) :: ps

/-- The first piece of a list is preceded by these bytes. -/
def prefixed (sub : Bytes) : List Bytes → List Bytes
  | [] => [sub]
  | p :: ps => (sub ++ p) :: ps

theorem piecesN_ne (d : UInt8) : ∀ (n : Nat) (s : Bytes), piecesN d n s ≠ []
  | n, [] => by simp [piecesN]
  | n, c :: s => by
    rw [piecesN]
    split
    · exact fun h => nomatch h
    · split <;> exact fun h => nomatch h

theorem splitLoop_eq (d : UInt8) (m : Nat) : ∀ (rest pre sub : Bytes) (count : Nat) (out : List Bytes),
    ∃ beg out', splitLoop d m (pre ++ (sub ++ rest)) (pre.length + sub.length) pre.length count out =
        .ok (pre.length + sub.length + rest.length, beg, out') ∧
      (part (pre ++ (sub ++ rest)) beg (pre.length + sub.length + rest.length)).bind (fun p => .ok (out' ++ p)) =
        .ok (out ++ (prefixed sub (piecesN d (m - count) rest)).flatMap callOf) := by
  intro rest
  induction rest with
  | nil =>
    intro pre sub count out
    refine ⟨pre.length, out, ?_, ?_⟩
    · unfold splitLoop
      rw [dif_neg (by simp)]
      rfl
    · have := part_eq pre sub []
      simp only [List.length_nil, Nat.add_zero]
      rw [this]
      simp [piecesN, prefixed]
  | cons c rest ih =>
    intro pre sub count out
    have hr := byteAt_app (pre ++ sub) c rest
    simp only [List.append_assoc, List.length_append] at hr
    by_cases hc : c = d ∧ count < m
    · obtain ⟨beg, out', h1, h2⟩ := ih (pre ++ (sub ++ [c])) [] (count + 1) (out ++ callOf sub)
      simp only [List.append_assoc, List.cons_append, List.nil_append, List.length_append, List.length_cons, List.length_nil, Nat.zero_add,
        Nat.add_zero] at h1 h2
      refine ⟨beg, out', ?_, ?_⟩
      · unfold splitLoop
        rw [dif_pos (by simp), hr, bind'_ok, if_pos hc, part_eq, bind'_ok,
          show pre.length + sub.length + 1 = pre.length + (sub.length + 1) from by omega, h1]
        simp only [List.length_cons]
        congr 2; omega
      · simp only [List.length_cons]
        rw [show pre.length + sub.length + (rest.length + 1) = pre.length + (sub.length + 1) + rest.length from by omega, h2]
        have hm : 0 < m - count := by omega
        rw [piecesN, if_pos ⟨hc.1, hm⟩, show m - (count + 1) = m - count - 1 from by omega]
        cases hp : piecesN d (m - count - 1) rest with
        | nil => exact absurd hp (piecesN_ne _ _ _)
        | cons p ps => simp [prefixed]
    · obtain ⟨beg, out', h1, h2⟩ := ih pre (sub ++ [c]) count out
      simp only [List.append_assoc, List.cons_append, List.nil_append, List.length_append, List.length_cons, List.length_nil, Nat.zero_add] at h1 h2
      refine ⟨beg, out', ?_, ?_⟩
      · unfold splitLoop
        rw [dif_pos (by simp), hr, bind'_ok, if_neg hc,
          show pre.length + sub.length + 1 = pre.length + (sub.length + 1) from by omega, h1]
        simp only [List.length_cons]
        congr 2; omega
      · simp only [List.length_cons]
        rw [show pre.length + sub.length + (rest.length + 1) = pre.length + (sub.length + 1) + rest.length from by omega, h2]
        rw [piecesN, if_neg (fun h => hc ⟨h.1, by omega⟩)]
        cases hp : piecesN d (m - count) rest with
        | nil => exact absurd hp (piecesN_ne _ _ _)
        | cons p ps => simp [prefixed]

theorem split_eq (d : UInt8) (m : Nat) (s : Bytes) :
    Scan.split d m s = .ok (((piecesN d (m - 1) s).map trim).filter (· ≠ [])) := by
  obtain ⟨beg, out, h1, h2⟩ := splitLoop_eq d m s [] [] 1 []
  have hp : prefixed [] (piecesN d (m - 1) s) = piecesN d (m - 1) s := by
    cases h : piecesN d (m - 1) s with
    | nil => exact absurd h (piecesN_ne _ _ _)
    | cons p ps => rfl
  have hf : ∀ l : List Bytes, l.flatMap callOf = (l.map trim).filter (· ≠ []) := by
    intro l
    induction l with
    | nil => rfl
    | cons p l ih => rw [List.flatMap_cons, ih, callOf, List.map_cons, ← List.filter_append]; rfl
  simp only [List.nil_append, List.length_nil, Nat.zero_add] at h1 h2
  rw [hp, hf] at h2
  rw [Scan.split, h1, bind'_ok]
  by_cases hs : s = []
  · subst hs
    unfold splitLoop at h1
    simp at h1
    simp [h1.2, piecesN, trim]
  · rw [if_pos (by simpa using hs)]
    exact h2

theorem piecesN_all (d : UInt8) : ∀ (s : Bytes) (n : Nat), s.length ≤ n → piecesN d n s = pieces d s
  | [], _, _ => rfl
  | c :: s, n, h => by
    simp only [List.length_cons] at h
    rw [piecesN, pieces, piecesN_all d s (n - 1) (by omega), piecesN_all d s n (by omega)]
    by_cases hc : c = d
    · rw [if_pos ⟨hc, by omega⟩, if_pos hc]
    · rw [if_neg (fun h => hc h.1), if_neg hc]
      rfl

theorem piecesN_zero (d : UInt8) : ∀ s : Bytes, piecesN d 0 s = [s]
  | [] => rfl
  | c :: s => by rw [piecesN, if_neg (by omega), piecesN_zero d s]

theorem piecesN_one (d : UInt8) : ∀ s : Bytes, piecesN d 1 s =
    if s.dropWhile (· ≠ d) = [] then [s.takeWhile (· ≠ d)] else [s.takeWhile (· ≠ d), (s.dropWhile (· ≠ d)).tail]
  | [] => rfl
  | c :: s => by
    rw [piecesN]
    by_cases hc : c = d
    · rw [if_pos ⟨hc, by omega⟩, piecesN_zero]
      simp [hc]
    · rw [if_neg (fun h => hc h.1), piecesN_one d s]
      simp only [List.dropWhile_cons, List.takeWhile_cons, hc, ne_eq, not_false_eq_true, decide_true, if_true]
      by_cases hd : s.dropWhile (fun x => decide ¬x = d) = []
      · rw [if_pos hd, if_pos hd]
      · rw [if_neg hd, if_neg hd]

theorem splitAll_scan (d : UInt8) {s : Bytes} (h : s.length < 2 ^ 64 - 1) : Scan.split d noLimit s = .ok (splitAll d s) := by
  rw [split_eq, piecesN_all d s _ (by simp only [noLimit]; omega)]
  rfl

theorem splitTwo_scan (d : UInt8) (s : Bytes) : Scan.split d 2 s = .ok (splitTwo d s) := by
  rw [split_eq, piecesN_one]
  rfl

/-! ## `decode_url` -/

theorem hexVal_lt {c : UInt8} {d : Nat} (h : hexVal c = some d) : d < 16 := by
  unfold hexVal at h
  split at h
  · rename_i hc; cases h
    have : c.toNat ≤ 57 := UInt8.le_iff_toNat_le.mp hc.2
    omega
  · split at h
    · rename_i hc; cases h
      have : c.toNat ≤ 70 := UInt8.le_iff_toNat_le.mp hc.2
      omega
    · split at h
      · rename_i hc; cases h
        have : c.toNat ≤ 102 := UInt8.le_iff_toNat_le.mp hc.2
        omega
      · cases h

theorem hexLoop_eq (s : Bytes) : ∀ (n i v k : Nat), i ≤ s.length → v < 16 ^ k → k + n ≤ 7 →
    hexLoop s n i v = .ok (fromHex n v (s.drop i))
  | 0, _, _, _, _, _, _ => rfl
  | n + 1, i, v, k, hi, hv, hk => by
    rw [hexLoop, charAt]
    rcases Nat.lt_or_ge i s.length with hl | hl
    · rw [List.getElem?_eq_getElem hl, bind'_ok, List.drop_eq_getElem_cons hl, fromHex]
      by_cases h0 : s[i] = 0
      · rw [if_pos h0, h0]; rfl
      · rw [if_neg h0]
        cases hx : hexVal s[i] with
        | none => rfl
        | some d =>
          have hd := hexVal_lt hx
          have hp : (16 : Nat) ^ (k + 1) ≤ 16 ^ 7 := Nat.pow_le_pow_right (by omega) (by omega)
          have h2 : v * 16 + d < 16 ^ (k + 1) := by rw [Nat.pow_succ]; omega
          have h3 : (16 : Nat) ^ 7 < 2 ^ 31 := by decide
          show (if _ then _ else _) = _
          rw [if_pos (by omega)]
          exact hexLoop_eq s n (i + 1) _ (k + 1) hl h2 (by omega)
    · have : i = s.length := by omega
      subst this
      simp [fromHex]

theorem fromHex_lt : ∀ (n v : Nat) (s : Bytes) (k w : Nat), v < 16 ^ k → fromHex n v s = some w → w < 16 ^ (k + n)
  | 0, v, _, k, w, hv, h => by cases h; exact hv
  | n + 1, _, [], _, _, _, h => nomatch h
  | n + 1, v, c :: s, k, w, hv, h => by
    rw [fromHex] at h
    cases hx : hexVal c with
    | none => rw [hx] at h; cases h
    | some d =>
      rw [hx] at h
      have hd := hexVal_lt hx
      have h2 : v * 16 + d < 16 ^ (k + 1) := by rw [Nat.pow_succ]; omega
      have := fromHex_lt n _ s (k + 1) w h2 h
      rw [show k + (n + 1) = k + 1 + n from by omega]
      exact this

/-- `from_hex_to_i` for up to seven digits: no overflow, no access outside the text, and the number of the digits. -/
theorem hexAt_eq (s : Bytes) (i cnt : Nat) (h1 : 0 < cnt) (h7 : cnt ≤ 7) : hexAt s i cnt = .ok (fromHex cnt 0 (s.drop i)) := by
  rw [hexAt]
  split
  · rename_i h
    rw [List.drop_eq_nil_of_le h]
    obtain ⟨n, rfl⟩ : ∃ n, cnt = n + 1 := ⟨cnt - 1, by omega⟩
    rfl
  · exact hexLoop_eq s cnt i 0 0 (by omega) (by simp) (by omega)

theorem or_low (hi lo k : Nat) (h : lo < 2 ^ k) : (hi * 2 ^ k) ||| lo = hi * 2 ^ k + lo := by
  rw [Nat.mul_comm, ← Nat.two_pow_add_eq_or_of_lt h]

theorem and_mask (x k : Nat) : x &&& (2 ^ k - 1) = x % 2 ^ k := Nat.and_two_pow_sub_one_eq_mod ..

/-- What `to_utf8` leaves in its array of four bytes is the encoding of the code, all of it written. -/
theorem utf8_eq {code : Nat} (h : code < 0x10000) :
    ((utf8Into code (List.replicate 4 none)).bind fun b => getN b.1 b.2) = .ok (toUtf8 code) := by
  have a7 : code &&& 0x7F = code % 128 := and_mask code 7
  have a6 : code &&& 0x3F = code % 64 := and_mask code 6
  have b5 : (code >>> 6) &&& 0x1F = code / 64 % 32 := by rw [Nat.shiftRight_eq_div_pow]; exact and_mask _ 5
  have b6 : (code >>> 6) &&& 0x3F = code / 64 % 64 := by rw [Nat.shiftRight_eq_div_pow]; exact and_mask _ 6
  have c4 : (code >>> 12) &&& 0xF = code / 4096 % 16 := by rw [Nat.shiftRight_eq_div_pow]; exact and_mask _ 4
  have o1 : 0xC0 ||| (code / 64 % 32) = 0xC0 + code / 64 % 32 := or_low 6 _ 5 (Nat.mod_lt _ (by decide))
  have o2 : 0x80 ||| (code % 64) = 0x80 + code % 64 := or_low 2 _ 6 (Nat.mod_lt _ (by decide))
  have o3 : 0xE0 ||| (code / 4096 % 16) = 0xE0 + code / 4096 % 16 := or_low 14 _ 4 (Nat.mod_lt _ (by decide))
  have o4 : 0x80 ||| (code / 64 % 64) = 0x80 + code / 64 % 64 := or_low 2 _ 6 (Nat.mod_lt _ (by decide))
  unfold utf8Into toUtf8
  rw [a7, a6, b5, b6, c4, o1, o2, o3, o4]
  by_cases h1 : code < 0x80
  · rw [if_pos h1, if_pos h1, Nat.mod_eq_of_lt h1]; rfl
  · rw [if_neg h1, if_neg h1]
    by_cases h2 : code < 0x800
    · rw [if_pos h2, if_pos h2]; rfl
    · rw [if_neg h2, if_neg h2]
      by_cases h3 : code < 0xD800
      · rw [if_pos h3, if_neg (by omega)]; rfl
      · rw [if_neg h3]
        by_cases h4 : code < 0xE000
        · rw [if_pos h4, if_pos (by omega)]; rfl
        · rw [if_neg h4, if_pos h, if_neg (by omega)]; rfl

/-- A `+` outside the escapes means a blank (form encoding). -/
def unplus (c : UInt8) : UInt8 := if c = 43 then 32 else c

theorem hexVal_unplus (c : UInt8) : hexVal (unplus c) = hexVal c := by
  unfold unplus
  split
  · rename_i h; subst h; decide
  · rfl

theorem fromHex_unplus : ∀ (n v : Nat) (s : Bytes), fromHex n v (s.map unplus) = fromHex n v s
  | 0, _, _ => rfl
  | _ + 1, _, [] => rfl
  | n + 1, v, c :: s => by
    rw [List.map_cons, fromHex, fromHex, hexVal_unplus]
    cases hexVal c with
    | none => rfl
    | some d => exact fromHex_unplus n _ s

/-- What one character that begins no escape becomes. -/
def plusIf (plus : Bool) (c : UInt8) : UInt8 := if plus then unplus c else c

theorem plusIf_eq {plus : Bool} {c k : UInt8} (hk : k ≠ 43) (hk' : k ≠ 32) : plusIf plus c = k ↔ c = k := by
  unfold plusIf unplus
  cases plus
  · exact Iff.rfl
  · show (if c = 43 then 32 else c) = k ↔ _
    split
    · rename_i h; subst h
      exact ⟨fun h => absurd h.symm hk', fun h => absurd h.symm hk⟩
    · exact Iff.rfl

theorem fromHex_plusIf (plus : Bool) (n v : Nat) (s : Bytes) : fromHex n v (s.map (plusIf plus)) = fromHex n v s := by
  cases plus
  · have : (plusIf false) = (id : UInt8 → UInt8) := rfl
    rw [this, List.map_id]
  · exact fromHex_unplus n v s

theorem decodeLoop_eq (plus : Bool) (s : Bytes) : ∀ (n i : Nat) (out : Bytes), s.length - i ≤ n →
    decodeLoop plus s i out = .ok (out ++ decodeUrl ((s.drop i).map (plusIf plus))) := by
  intro n
  induction n with
  | zero =>
    intro i out h
    unfold decodeLoop
    rw [dif_neg (by omega), List.drop_eq_nil_of_le (by omega), List.map_nil, decodeUrl, List.append_nil]
  | succ n ih =>
    intro i out h
    unfold decodeLoop
    by_cases hi : i < s.length
    · have hc : charAt s i = .ok s[i] := by rw [charAt, List.getElem?_eq_getElem hi]
      rw [dif_pos hi, hc, bind'_ok, List.drop_eq_getElem_cons hi]
      generalize s[i] = c
      have one : ∀ x, decodeLoop plus s (i + 1) (out ++ [x]) = .ok (out ++ x :: decodeUrl ((s.drop (i + 1)).map (plusIf plus))) := by
        intro x
        rw [ih (i + 1) _ (by omega)]
        simp
      by_cases hp : c = 37
      · have h37 : plusIf plus c = 37 := (plusIf_eq (by decide) (by decide)).mpr hp
        rw [List.map_cons, h37]
        by_cases hn : i + 1 < s.length
        · have hc1 : charAt s (i + 1) = .ok s[i + 1] := by rw [charAt, List.getElem?_eq_getElem hn]
          have hdrop := List.drop_eq_getElem_cons hn
          have h4 := hexAt_eq s (i + 2) 4 (by omega) (by omega)
          have h2 := hexAt_eq s (i + 1) 2 (by omega) (by omega)
          rw [if_pos ⟨hp, hn⟩, hc1, bind'_ok, h4, h2, hdrop, bind'_ok, bind'_ok]
          rw [hdrop] at one
          clear h4 h2 hdrop hc1
          generalize s[i + 1] = d at *
          show _ = Outcome.ok (out ++ decodeUrl (37 :: plusIf plus d :: (s.drop (i + 2)).map (plusIf plus)))
          rw [decodeUrl, if_pos rfl]
          by_cases hu : d = 117
          · have hu' : plusIf plus d = 117 := (plusIf_eq (by decide) (by decide)).mpr hu
            rw [if_pos hu, if_pos hu', fromHex_plusIf]
            cases hx : fromHex 4 0 (s.drop (i + 2)) with
            | none =>
              show decodeLoop plus s (i + 1) (out ++ [c]) = _
              rw [one c, hp]; rfl
            | some v =>
              have hv := fromHex_lt 4 0 _ 0 v (by simp) hx
              have hu8 := utf8_eq (code := v) (by simpa using hv)
              show ((utf8Into v (List.replicate 4 none)).bind fun b => (getN b.1 b.2).bind fun x => decodeLoop plus s (i + 6) (out ++ x)) = _
              cases hb : utf8Into v (List.replicate 4 none) with
              | ub => rw [hb] at hu8; cases hu8
              | ok b =>
                rw [hb, bind'_ok] at hu8
                rw [bind'_ok, hu8, bind'_ok, ih (i + 6) _ (by omega)]
                simp [List.drop_drop, List.map_drop]
          · have hu' : plusIf plus d ≠ 117 := fun h => hu ((plusIf_eq (by decide) (by decide)).mp h)
            have hm : plusIf plus d :: (s.drop (i + 2)).map (plusIf plus) = (d :: s.drop (i + 2)).map (plusIf plus) := rfl
            rw [if_neg hu, if_neg hu', hm, fromHex_plusIf]
            show (match fromHex 2 0 (d :: s.drop (i + 2)) with | _ => _) = _
            cases hx : fromHex 2 0 (d :: s.drop (i + 2)) with
            | none =>
              show decodeLoop plus s (i + 1) (out ++ [c]) = _
              rw [one c, hp]
            | some v =>
              show decodeLoop plus s (i + 3) (out ++ [UInt8.ofNat v]) = _
              rw [ih (i + 3) _ (by omega)]
              simp [List.drop_drop, List.map_drop]
        · rw [if_neg (fun h => hn h.2)]
          have : s.drop (i + 1) = [] := List.drop_eq_nil_of_le (by omega)
          rw [if_neg (fun h => by rw [hp] at h; exact absurd h.2 (by decide)), one c, this, hp]
          simp [decodeUrl]
      · rw [if_neg (fun h => hp h.1)]
        have h37 : plusIf plus c ≠ 37 := fun h => hp ((plusIf_eq (by decide) (by decide)).mp h)
        have hdec : ∀ t : Bytes, decodeUrl (plusIf plus c :: t) = plusIf plus c :: decodeUrl t := by
          intro t
          cases t with
          | nil => simp [decodeUrl]
          | cons d t => rw [decodeUrl, if_neg h37]
        rw [List.map_cons, hdec]
        by_cases hpl : plus = true ∧ c = 43
        · rw [if_pos hpl, one, hpl.1, hpl.2]; rfl
        · rw [if_neg hpl, one]
          have : plusIf plus c = c := by
            unfold plusIf unplus
            cases plus
            · rfl
            · exact if_neg fun h => hpl ⟨rfl, h⟩
          rw [this]
    · rw [dif_neg hi, List.drop_eq_nil_of_le (by omega), List.map_nil, decodeUrl, List.append_nil]

theorem decode_scan (s : Bytes) : Scan.decode false s = .ok (decodeUrl s) := by
  rw [Scan.decode, decodeLoop_eq false s _ 0 [] (Nat.le_refl _)]
  have : (plusIf false) = (id : UInt8 → UInt8) := rfl
  rw [this, List.map_id]; rfl

theorem decode_plus (s : Bytes) : Scan.decode true s = .ok (decodeUrl (s.map unplus)) := by
  rw [Scan.decode, decodeLoop_eq true s _ 0 [] (Nat.le_refl _)]
  rfl

/-! ## Parameters -/

/-- Specification: the text of a parameter is its key, and its value if it has one: the first part and the last of the
others, decoded. -/
def paramOf (kv : Bytes) : Option (Bytes × Bytes) :=
  match splitAll 61 kv with
  | [] => none
  | k :: vs => some (decodeUrl (k.map unplus), decodeUrl ((vs.getLast?.getD []).map unplus))

/-- Specification: the parameters of a query or form, repetitions of a text left out. -/
def paramsOf : List Bytes → List Bytes → List (Bytes × Bytes)
  | _, [] => []
  | seen, kv :: r => if kv ∈ seen then paramsOf seen r else (paramOf kv).toList ++ paramsOf (kv :: seen) r

theorem keyVal_fold (k : Bytes) (hk : k ≠ []) : ∀ (vs : List Bytes) (v : Bytes),
    vs.foldl keyVal (k, v) = (k, vs.getLast?.getD v) := by
  intro vs
  induction vs with
  | nil => intro v; rfl
  | cons x vs ih =>
    intro v
    rw [List.foldl_cons, keyVal, if_neg hk, ih x]
    cases vs with
    | nil => rfl
    | cons y ys => simp [List.getLast?_cons_cons]; cases ys <;> simp [List.getLast?_cons]

theorem splitAll_mem {d : UInt8} {s x : Bytes} (h : x ∈ splitAll d s) : x ≠ [] := by
  have := (List.mem_filter.mp h).2
  simpa using this

theorem pieces_le (d : UInt8) : ∀ (s x : Bytes), x ∈ pieces d s → x.length ≤ s.length
  | [], x, h => by simp [pieces] at h; simp [h]
  | c :: s, x, h => by
    rw [pieces] at h
    split at h
    · rcases List.mem_cons.mp h with e | e
      · subst e; simp
      · have := pieces_le d s x e; simp only [List.length_cons]; omega
    · cases hp : pieces d s with
      | nil =>
        rw [hp] at h
        simp at h; subst h; simp
      | cons p ps =>
        rw [hp] at h
        rcases List.mem_cons.mp h with e | e
        · subst e
          have := pieces_le d s p (by rw [hp]; exact List.mem_cons_self ..)
          simp only [List.length_cons]; omega
        · have := pieces_le d s x (by rw [hp]; exact List.mem_cons_of_mem _ e)
          simp only [List.length_cons]; omega

theorem dropWhile_len (p : UInt8 → Bool) : ∀ l : Bytes, (l.dropWhile p).length ≤ l.length
  | [] => Nat.le_refl _
  | a :: l => by
    rw [List.dropWhile_cons]
    split
    · have := dropWhile_len p l; simp only [List.length_cons]; omega
    · exact Nat.le_refl _

theorem trim_le (s : Bytes) : (trim s).length ≤ s.length := by
  have h1 := dropWhile_len isBlank s
  have h2 := dropWhile_len isBlank (s.dropWhile isBlank).reverse
  simp only [List.length_reverse] at h2
  simp only [trim, List.length_reverse]; omega

theorem splitAll_le {d : UInt8} {s x : Bytes} (h : x ∈ splitAll d s) : x.length ≤ s.length := by
  obtain ⟨y, hy, e⟩ := List.mem_map.mp (List.mem_filter.mp h).1
  have h1 := pieces_le d s y hy
  have h2 := trim_le y
  rw [← e]; omega

theorem queryLoop_eq : ∀ (ps cache : List Bytes) (out : List (Bytes × Bytes)), (∀ x ∈ ps, x.length < 2 ^ 64 - 1) →
    queryLoop ps cache out = .ok (out ++ paramsOf cache ps)
  | [], _, out, _ => by simp [queryLoop, paramsOf]
  | kv :: r, cache, out, h => by
    have hr := fun x hx => h x (List.mem_cons_of_mem _ hx)
    rw [queryLoop, paramsOf]
    by_cases hm : kv ∈ cache
    · rw [if_pos hm, if_pos hm]
      exact queryLoop_eq r cache out hr
    · rw [if_neg hm, if_neg hm, splitAll_scan 61 (h kv (List.mem_cons_self ..)), bind'_ok, paramOf]
      cases hs : splitAll 61 kv with
      | nil =>
        show (if ([] : Bytes) ≠ [] then _ else queryLoop r (kv :: cache) out) = _
        rw [if_neg (by simp)]
        exact queryLoop_eq r _ out hr
      | cons k vs =>
        have hk : k ≠ [] := splitAll_mem (d := 61) (s := kv) (by rw [hs]; exact List.mem_cons_self ..)
        have hf : (k :: vs).foldl keyVal ([], []) = (k, vs.getLast?.getD []) := by
          rw [List.foldl_cons, keyVal, if_pos rfl]
          exact keyVal_fold k hk vs []
        simp only [hf, ne_eq, hk, not_false_eq_true, if_true, decode_plus, bind'_ok]
        rw [queryLoop_eq r _ _ hr]
        simp

/-- `parse_query_text`: for every text the parameters of the specification. -/
theorem query_scan {s : Bytes} (h : s.length < 2 ^ 64 - 1) : query s = .ok (paramsOf [] (splitAll 38 s)) := by
  rw [query, splitAll_scan 38 h, bind'_ok, queryLoop_eq _ _ _ (fun x hx => by have := splitAll_le hx; omega)]
  rfl

/-! ## `parse_header` -/

theorem headerEnd_eq (s : Bytes) : ∀ n, headerEnd s n = trimRight s n
  | 0 => rfl
  | n + 1 => by rw [headerEnd, trimRight, headerEnd_eq s n]

theorem findColon_eq (post : Bytes) : ∀ (rest pre : Bytes),
    findColon (pre ++ (rest ++ post)) (pre.length + rest.length) pre.length =
      .ok (pre.length + (rest.takeWhile (· ≠ 58)).length)
  | [], pre => by
    unfold findColon
    rw [dif_neg (by simp)]; rfl
  | c :: rest, pre => by
    unfold findColon
    rw [dif_pos (by simp), List.cons_append, byteAt_app, bind'_ok, List.takeWhile_cons]
    by_cases hc : c = 58
    · rw [if_neg (by simp [hc])]; simp [hc]
    · rw [if_pos hc]
      have ih := findColon_eq post rest (pre ++ [c])
      simp only [List.append_assoc, List.cons_append, List.nil_append, List.length_append, List.length_cons, List.length_nil] at ih
      simp only [List.length_cons]
      rw [show pre.length + (rest.length + 1) = pre.length + (0 + 1) + rest.length from by omega, ih]
      simp [hc]; omega

theorem skipBlank_eq (post : Bytes) : ∀ (rest pre : Bytes),
    skipBlank (pre ++ (rest ++ post)) (pre.length + rest.length) pre.length =
      .ok (pre.length + (rest.takeWhile isBlank).length)
  | [], pre => by
    unfold skipBlank
    rw [dif_neg (by simp)]; rfl
  | c :: rest, pre => by
    unfold skipBlank
    rw [dif_pos (by simp), List.cons_append, byteAt_app, bind'_ok, List.takeWhile_cons]
    by_cases hc : isBlank c = true
    · rw [if_pos hc]
      have ih := skipBlank_eq post rest (pre ++ [c])
      simp only [List.append_assoc, List.cons_append, List.nil_append, List.length_append, List.length_cons, List.length_nil] at ih
      simp only [List.length_cons]
      rw [show pre.length + (rest.length + 1) = pre.length + (0 + 1) + rest.length from by omega, ih]
      simp [hc]; omega
    · rw [if_neg hc]; simp [hc]

/-- The end of a text without the blanks at its end. -/
theorem trimRight_all (s : Bytes) : ∃ w, s = (s.reverse.dropWhile isBlank).reverse ++ w ∧
    trimRight s s.length = .ok (s.reverse.dropWhile isBlank).reverse.length := by
  have e := List.takeWhile_append_dropWhile (p := isBlank) (l := s.reverse)
  have e' : s = (s.reverse.dropWhile isBlank).reverse ++ (s.reverse.takeWhile isBlank).reverse := by
    have := congrArg List.reverse e
    rw [List.reverse_append, List.reverse_reverse] at this
    exact this.symm
  refine ⟨_, e', ?_⟩
  have hb : ∀ c ∈ s.reverse.takeWhile isBlank, isBlank c = true := fun c h => by
    generalize s.reverse = l at h
    induction l with
    | nil => simp at h
    | cons a l ih =>
      rw [List.takeWhile_cons] at h
      split at h
      · rcases List.mem_cons.mp h with e | e
        · subst e; assumption
        · exact ih e
      · simp at h
  have t := trimRight_blank (s.reverse.dropWhile isBlank).reverse [] _ hb
  rw [List.append_nil, ← e'] at t
  have hl : (s.reverse.dropWhile isBlank).reverse.length + (s.reverse.takeWhile isBlank).length = s.length := by
    have := congrArg List.length e'
    simp only [List.length_append, List.length_reverse] at this ⊢
    omega
  rw [hl] at t
  rw [t]
  cases hd : s.reverse.dropWhile isBlank with
  | nil => rfl
  | cons a r =>
    have ha : isBlank a = false := by
      have : ∀ l : Bytes, l.dropWhile isBlank = a :: r → isBlank a = false := by
        intro l
        induction l with
        | nil => intro h; simp at h
        | cons b l ih =>
          intro h
          rw [List.dropWhile_cons] at h
          split at h
          · exact ih h
          · rename_i hb; cases h; simpa using hb
      exact this _ hd
    have st := trimRight_stop r.reverse ha (s.reverse.takeWhile isBlank).reverse
    rw [hd] at e'
    simp only [List.reverse_cons, List.append_assoc, List.cons_append, List.nil_append] at e'
    rw [← e'] at st
    simpa using st

theorem header_scan (s : Bytes) : header s = .ok (parseHeader s) := by
  obtain ⟨w, e, ht⟩ := trimRight_all s
  rw [header, headerEnd_eq, ht, bind'_ok, parseHeader]
  generalize (s.reverse.dropWhile isBlank).reverse = t at *
  subst e
  have hf := findColon_eq w t []
  simp only [List.nil_append, List.length_nil, Nat.zero_add] at hf
  rw [hf, bind'_ok]
  have hsplit := List.takeWhile_append_dropWhile (p := fun c : UInt8 => decide (c ≠ 58)) (l := t)
  simp only []
  generalize hk : t.takeWhile (fun c : UInt8 => decide (c ≠ 58)) = key at *
  cases hd : t.dropWhile (fun c : UInt8 => decide (c ≠ 58)) with
  | nil =>
    rw [hd, List.append_nil] at hsplit
    rw [if_pos (by rw [hsplit])]
  | cons x rest =>
    rw [hd] at hsplit
    have hx : x = 58 := by
      have : ∀ l : Bytes, l.dropWhile (fun c : UInt8 => decide (c ≠ 58)) = x :: rest → x = 58 := by
        intro l
        induction l with
        | nil => intro h; simp at h
        | cons b l ih =>
          intro h
          rw [List.dropWhile_cons] at h
          split at h
          · exact ih h
          · rename_i hb; cases h; simpa using hb
      exact this _ hd
    clear hd hk hf ht
    subst hsplit
    subst hx
    rw [if_neg (by simp)]
    have hb := byteAt_app key 58 (rest ++ w)
    rw [List.append_assoc, List.cons_append, hb, bind'_ok, if_neg (by simp)]
    have hsk := skipBlank_eq w rest (key ++ [58])
    simp only [List.append_assoc, List.cons_append, List.nil_append, List.length_append, List.length_cons, List.length_nil, Nat.zero_add] at hsk
    simp only [List.length_append, List.length_cons]
    rw [show key.length + (rest.length + 1) = key.length + 1 + rest.length from by omega, hsk, bind'_ok]
    have hv := List.takeWhile_append_dropWhile (p := isBlank) (l := rest)
    generalize rest.takeWhile isBlank = u at *
    generalize rest.dropWhile isBlank = v at *
    subst hv
    by_cases hv0 : v = []
    · subst hv0
      rw [if_neg (by simp), if_pos (Or.inl rfl)]
    · have hvl : 0 < v.length := List.length_pos_iff.mpr hv0
      rw [if_pos (by simp only [List.length_append]; omega)]
      by_cases hk0 : key = []
      · subst hk0
        rw [if_pos List.length_nil, if_pos (Or.inr rfl)]
      · have hkl : 0 < key.length := List.length_pos_iff.mpr hk0
        rw [if_neg (by omega), if_neg (by simp [hv0, hk0])]
        have s1 := slice_mid [] key (58 :: (u ++ v ++ w))
        have s2 := slice_mid (key ++ (58 :: u)) v w
        simp only [List.append_assoc, List.cons_append, List.nil_append, List.length_append, List.length_cons, List.length_nil, Nat.zero_add] at s1 s2 ⊢
        rw [s1, bind'_ok, show key.length + 1 + u.length = key.length + (u.length + 1) from by omega,
          show key.length + 1 + (u.length + v.length) = key.length + (u.length + 1) + v.length from by omega, s2, bind'_ok]
        split
        · rfl
        · rw [decode_scan, bind'_ok]

/-! ## `stream_line_reader` -/

theorem getN_some : ∀ (l : Bytes) (m : Mem), m.take l.length = l.map some → getN m l.length = .ok l
  | [], m, _ => by simp [getN]
  | c :: l, [], h => by simp at h
  | c :: l, x :: m, h => by
    simp only [List.length_cons, List.take_succ_cons, List.map_cons, List.cons.injEq] at h
    rw [h.1, List.length_cons, getN, getN_some l m h.2, bind'_ok]

/-- What a reader with an array of `n` bytes looks like after the bytes `l` of a line. -/
def LineIn (n : Nat) (r : Reader) (l : Bytes) : Prop :=
  r.fixed.length = n ∧
    (l.length ≤ n - 1 → r.used = l.length ∧ r.grow = [] ∧ r.fixed.take l.length = l.map some ∧
      (l ≠ [] → r.fixed[l.length]? = some (some 0))) ∧
    (n - 1 < l.length → r.used = n - 1 ∧ r.grow = l)

theorem lineIn_append {n : Nat} (hn : 2 ≤ n) {r : Reader} {l : Bytes} (h : LineIn n r l) (c : UInt8) :
    ∃ r', r.append c = .ok r' ∧ LineIn n r' (l ++ [c]) := by
  obtain ⟨hlen, h1, h2⟩ := h
  rw [Reader.append]
  rcases Nat.lt_or_ge l.length (n - 1) with hl | hl
  · obtain ⟨hu, hg, ht, _⟩ := h1 (by omega)
    rw [if_pos (Or.inr (by omega)), putAt, if_pos (by omega), bind'_ok, putAt, if_pos (by simp only [List.length_set]; omega), bind'_ok]
    refine ⟨_, rfl, by simp [hlen], fun _ => ⟨by simp [hu], hg, ?_, ?_⟩, fun h => by simp only [List.length_append, List.length_cons, List.length_nil] at h; omega⟩
    · simp only [List.length_append, List.length_cons, List.length_nil, Nat.zero_add, List.map_append, List.map_cons, List.map_nil, hu]
      apply List.ext_getElem?
      intro i
      have hti := congrArg (fun m : Mem => m[i]?) ht
      simp only [List.getElem?_take, List.getElem?_map] at hti
      simp only [List.getElem?_take, List.getElem?_set, List.getElem?_append, List.length_map]
      by_cases e : i < l.length
      · rw [if_pos (by omega), if_neg (by omega), if_neg (by omega), if_pos e, List.getElem?_map]
        rw [if_pos e] at hti
        exact hti
      · by_cases e2 : i = l.length
        · subst e2
          simp; omega
        · rw [if_neg (by omega), if_neg e]
          rw [List.getElem?_eq_none (by simp; omega)]
    · intro _
      simp only [List.length_append, List.length_cons, List.length_nil, Nat.zero_add, hu]
      rw [List.getElem?_set, if_pos rfl, if_pos (by simp only [List.length_set]; omega)]
  · rcases Nat.eq_or_lt_of_le hl with e | e
    · obtain ⟨hu, hg, ht, hz⟩ := h1 (by omega)
      have hne : l ≠ [] := fun h0 => by rw [h0] at e; simp only [List.length_nil] at e; omega
      rw [if_neg (by omega), if_pos hg, hu, if_pos (hz hne), getN_some l _ ht, bind'_ok]
      refine ⟨_, rfl, hlen, fun h => ?_, fun _ => ⟨?_, rfl⟩⟩
      · simp only [List.length_append, List.length_cons, List.length_nil] at h; omega
      · show l.length = n - 1
        omega
    · obtain ⟨hu, hg⟩ := h2 e
      have hne : r.grow ≠ [] := fun h0 => by rw [hg] at h0; rw [h0] at e; simp only [List.length_nil] at e; omega
      rw [if_neg (by omega), if_neg hne]
      refine ⟨_, rfl, hlen, fun h => ?_, fun _ => ⟨hu, ?_⟩⟩
      · simp only [List.length_append, List.length_cons, List.length_nil] at h; omega
      · show r.grow ++ [c] = _
        rw [hg]

theorem lineLoop_eq {n : Nat} (hn : 2 ≤ n) (ends : Bool) : ∀ (s : Bytes) (r : Reader) (l : Bytes), LineIn n r l →
    (ends = false ∧ (10 : UInt8) ∉ s ∧ Reader.lineLoop ends r l.length s = .ok none) ∨
    (l ++ s = [] ∧ Reader.lineLoop ends r l.length s = .ok none) ∨
    (l ++ s ≠ [] ∧ ((10 : UInt8) ∈ s ∨ ends = true) ∧
      ∃ r', Reader.lineLoop ends r l.length s = .ok (some (r', dropLine s)) ∧ LineIn n r' (l ++ takeLine s)) := by
  intro s
  induction s with
  | nil =>
    intro r l h
    rw [Reader.lineLoop]
    cases ends with
    | false => exact .inl ⟨rfl, by simp, by simp⟩
    | true =>
      cases l with
      | nil => exact .inr (.inl ⟨rfl, by simp⟩)
      | cons c l =>
        refine .inr (.inr ⟨by simp, .inr rfl, r, by simp [dropLine], by simpa [takeLine] using h⟩)
  | cons c s ih =>
    intro r l h
    obtain ⟨r', ha, hh⟩ := lineIn_append hn h c
    rw [Reader.lineLoop, ha, bind'_ok]
    by_cases hc : c = 10
    · subst hc
      refine .inr (.inr ⟨by simp, .inl (List.mem_cons_self ..), r', by simp [dropLine], by simpa [takeLine] using hh⟩)
    · rw [if_neg hc]
      have hi := ih r' (l ++ [c]) hh
      simp only [List.length_append, List.length_cons, List.length_nil, Nat.zero_add, List.append_assoc, List.cons_append, List.nil_append] at hi
      rcases hi with ⟨h1, h2, h3⟩ | ⟨h1, _⟩ | ⟨h1, h2, r2, h3, h4⟩
      · exact .inl ⟨h1, fun hm => by rcases List.mem_cons.mp hm with e | e; exact hc e.symm; exact h2 e, h3⟩
      · simp at h1
      · refine .inr (.inr ⟨by simp, ?_, r2, ?_, ?_⟩)
        · rcases h2 with h2 | h2
          · exact .inl (List.mem_cons_of_mem _ h2)
          · exact .inr h2
        · rw [h3, dropLine, if_neg hc]
        · rw [takeLine, if_neg hc]; exact h4

theorem lineIn_text {n : Nat} {r : Reader} {l : Bytes} (h : LineIn n r l) : r.text = .ok l := by
  obtain ⟨hlen, h1, h2⟩ := h
  rw [Reader.text]
  rcases Nat.lt_or_ge (n - 1) l.length with hl | hl
  · have hg := (h2 hl).2
    have : l ≠ [] := fun h0 => by rw [h0] at hl; simp at hl
    rw [if_neg (by rw [hg]; exact this), hg]
  · obtain ⟨hu, hg, ht, _⟩ := h1 hl
    rw [if_pos hg, hu, getN_some l _ ht]

theorem cchars_eq : ∀ (l : Bytes) (m : Mem), m.take l.length = l.map some → m[l.length]? = some (some 0) →
    cchars m = .ok (BoolTime.cstr l)
  | [], m, _, h => by
    cases m with
    | nil => simp at h
    | cons x m =>
      simp only [List.length_nil, List.getElem?_cons_zero, Option.some.injEq] at h
      subst h
      simp [cchars, BoolTime.cstr]
  | c :: l, [], h, _ => by simp at h
  | c :: l, x :: m, h, h0 => by
    simp only [List.length_cons, List.take_succ_cons, List.map_cons, List.cons.injEq] at h
    simp only [List.length_cons, List.getElem?_cons_succ] at h0
    rw [h.1, cchars, cchars_eq l m h.2 h0]
    by_cases hc : c = 0
    · simp [hc, BoolTime.cstr]
    · simp [hc, BoolTime.cstr]

theorem lineIn_cstring {n : Nat} {r : Reader} {l : Bytes} (h : LineIn n r l) (hl0 : l ≠ []) : r.cstring = .ok (BoolTime.cstr l) := by
  obtain ⟨hlen, h1, h2⟩ := h
  rw [Reader.cstring]
  rcases Nat.lt_or_ge (n - 1) l.length with hl | hl
  · have hg := (h2 hl).2
    rw [if_neg (by rw [hg]; exact hl0), hg]
    exact cchars_eq l _ (by rw [← List.length_map (f := (some : UInt8 → Option UInt8)), List.take_left]) (by simp)
  · obtain ⟨hu, hg, ht, hz⟩ := h1 hl
    rw [if_pos hg]
    exact cchars_eq l _ ht (hz hl0)

theorem lineIn_crlf {n : Nat} {r : Reader} {l : Bytes} (h : LineIn n r l) : r.crlf = .ok (endsCrlf l) := by
  rw [Reader.crlf, lineIn_text h, bind'_ok, endsCrlf]
  by_cases h2 : l.length ≥ 2
  · rw [if_pos h2]
    have e1 : l.length - 2 < l.length := by omega
    have e2 : l.length - 1 < l.length := by omega
    rw [byteAt, List.getElem?_eq_getElem e1, bind'_ok, byteAt, List.getElem?_eq_getElem e2, bind'_ok]
    have hd : l.drop (l.length - 2) = [l[l.length - 2], l[l.length - 1]] := by
      rw [List.drop_eq_getElem_cons e1]
      have e3 : l.length - 2 + 1 = l.length - 1 := by omega
      rw [e3, List.drop_eq_getElem_cons e2]
      have e4 : l.length - 1 + 1 = l.length := by omega
      rw [e4, List.drop_length]
    rw [hd]
    generalize l[l.length - 2] = a
    generalize l[l.length - 1] = b
    by_cases ha : a = 13
    · subst ha
      by_cases hb : b = 10
      · subst hb; simp [h2]
      · simp [h2, hb]
    · simp [ha, h2]
  · rw [if_neg h2]
    simp [h2]

/-! ## `write_format` -/

theorem snprintf_len {m t : Bytes} {n : Nat} (hn : n ≤ m.length) (h0 : 0 < n) :
    ∃ m', snprintf m n t = .ok m' ∧ m'.length = m.length ∧ (t.length < n → m'.take t.length = t) := by
  rw [snprintf, if_neg (by omega), if_neg (by omega)]
  refine ⟨_, rfl, ?_, fun h => ?_⟩
  · simp only [List.length_append, List.length_take, List.length_cons, List.length_drop]
    rw [Nat.min_comm (n - 1)]
    have : min t.length (n - 1) = Nat.min t.length (n - 1) := rfl
    have h1 : Nat.min t.length (n - 1) ≤ n - 1 := Nat.min_le_right ..
    rw [this]
    omega
  · rw [List.take_of_length_le (by omega : t.length ≤ n - 1), List.take_left]

theorem growLoop_eq (t : Bytes) : ∀ (k size : Nat) (m : Bytes), t.length + 2 - size = k → m.length = size → 2 ≤ size →
    (t.length < size - 1 → m.take t.length = t) → growLoop t size m = .ok t := by
  intro k
  induction k using Nat.strongRecOn with
  | _ k ih =>
    intro size m hk hm h2 ht
    unfold growLoop
    by_cases h : t.length ≥ size - 1 ∧ 0 < size
    · rw [dif_pos h]
      obtain ⟨m', e, hl, hw⟩ := snprintf_len (m := m ++ List.replicate (2 * size - m.length) 0) (t := t) (n := 2 * size - 1)
        (by simp only [List.length_append, List.length_replicate]; omega) (by omega)
      rw [e, bind'_ok]
      exact ih (t.length + 2 - 2 * size) (by omega) (2 * size) m' rfl
        (by rw [hl]; simp only [List.length_append, List.length_replicate]; omega) (by omega) hw
    · rw [dif_neg h, written, if_pos (by omega), ht (by omega)]

theorem writeFormat_eq {t : Bytes} (h : t.length < 2 ^ 31) : writeFormat t = .ok t := by
  obtain ⟨m, e, hl, hw⟩ := snprintf_len (m := List.replicate 2048 (0 : UInt8)) (t := t) (n := 2047)
    (by rw [List.length_replicate]; omega) (by omega)
  rw [writeFormat, e, bind'_ok]
  by_cases h0 : t.length = 0
  · rw [if_pos (Or.inl h0), List.length_eq_zero_iff.mp h0]
  · rw [if_neg (by omega)]
    by_cases h1 : t.length ≥ 2047
    · rw [if_pos h1]
      exact growLoop_eq t _ 2048 _ rfl List.length_replicate (by omega) (fun h => by omega)
    · rw [if_neg h1, written, if_pos (by rw [hl]; simp only [List.length_replicate]; omega), hw (by omega)]

/-! ## C132 -/

/-- Specification: texts written with a delimiter between them. -/
def delimited (d : UInt8) : List Bytes → Bytes
  | [] => []
  | [x] => x
  | x :: xs => x ++ d :: delimited d xs

theorem pieces_delimited (d : UInt8) : ∀ xs : List Bytes, xs ≠ [] → (∀ x ∈ xs, d ∉ x) → pieces d (delimited d xs) = xs
  | [], h, _ => absurd rfl h
  | [x], _, h => pieces_none (h x (List.mem_cons_self ..))
  | x :: y :: xs, _, h => by
    rw [delimited, pieces_cons _ (h x (List.mem_cons_self ..)),
      pieces_delimited d (y :: xs) (fun e => nomatch e) (fun z hz => h z (List.mem_cons_of_mem _ hz))]
    exact fun e => nomatch e

/-- Specification: `x` is `y` without the blanks and tabs around it. -/
def Stripped (y x : Bytes) : Prop :=
  ((∀ c ∈ y, c = 32 ∨ c = 9) ∧ x = []) ∨
    ∃ u w, y = u ++ x ++ w ∧ (∀ c ∈ u ++ w, c = 32 ∨ c = 9) ∧ (∃ a r, x = a :: r ∧ a ≠ 32 ∧ a ≠ 9) ∧
      (∃ a r, x = r ++ [a] ∧ a ≠ 32 ∧ a ≠ 9)

theorem isBlank_iff (c : UInt8) : isBlank c = true ↔ c = 32 ∨ c = 9 := by simp [isBlank]

theorem isBlank_not (c : UInt8) : isBlank c = false ↔ c ≠ 32 ∧ c ≠ 9 := by simp [isBlank]

theorem stripped_trim (y : Bytes) : Stripped y (trim y) := by
  rcases blank_cases y with h | ⟨u, x, w, e, hu, hw, h1, h2⟩
  · exact .inl ⟨fun c hc => (isBlank_iff c).mp (h c hc), trim_blank h⟩
  · rw [e, trim_core hu hw h1 h2]
    obtain ⟨a, r, ea, ha⟩ := h1
    obtain ⟨b, q, eb, hb⟩ := h2
    refine .inr ⟨u, w, by simp, fun c hc => ?_, ⟨a, r, ea, (isBlank_not a).mp ha⟩, ⟨b, q, eb, (isBlank_not b).mp hb⟩⟩
    rcases List.mem_append.mp hc with h | h
    · exact (isBlank_iff c).mp (hu c h)
    · exact (isBlank_iff c).mp (hw c h)

/-- **C132**, `trim` and `split`: for every text of a possible length the accesses stay within the text, and the callback sees
the parts between the delimiters without the blanks around them, those that are not empty, in order. -/
theorem C132_split (d : UInt8) (xs : List Bytes) (hx : xs ≠ []) (hd : ∀ x ∈ xs, d ∉ x) (hl : (delimited d xs).length < 2 ^ 64 - 1) :
    ∃ strip : Bytes → Bytes, (∀ y, Stripped y (strip y)) ∧
      Scan.split d noLimit (delimited d xs) = .ok ((xs.map strip).filter (· ≠ [])) :=
  ⟨trim, stripped_trim, by rw [splitAll_scan d hl, splitAll, pieces_delimited d xs hx hd]⟩

/-- Every text is one of those of `C132_split`. -/
theorem delimited_pieces (d : UInt8) : ∀ s : Bytes, delimited d (pieces d s) = s ∧ pieces d s ≠ [] ∧ ∀ x ∈ pieces d s, d ∉ x
  | [] => ⟨rfl, (fun h => nomatch h), fun x h => by simp [pieces] at h; simp [h]⟩
  | c :: s => by
    obtain ⟨h1, h2, h3⟩ := delimited_pieces d s
    rw [pieces]
    by_cases hc : c = d
    · rw [if_pos hc]
      cases hp : pieces d s with
      | nil => exact absurd hp h2
      | cons p ps =>
        rw [hp] at h1 h3
        refine ⟨by rw [delimited, h1, hc]; rfl; exact fun h => (nomatch h), (fun h => nomatch h), fun x hx => ?_⟩
        rcases List.mem_cons.mp hx with e | e
        · subst e; simp
        · exact h3 x e
    · rw [if_neg hc]
      cases hp : pieces d s with
      | nil => exact absurd hp h2
      | cons p ps =>
        rw [hp] at h1 h3
        refine ⟨?_, (fun h => nomatch h), fun x hx => ?_⟩
        · cases ps with
          | nil => rw [← h1]; rfl
          | cons q qs => rw [← h1]; rfl
        · rcases List.mem_cons.mp hx with e | e
          · subst e
            intro hm
            rcases List.mem_cons.mp hm with e2 | e2
            · exact hc e2.symm
            · exact h3 p (List.mem_cons_self ..) e2
          · exact h3 x (List.mem_cons_of_mem _ e)

/-- `split` with limit 2, as the target of a request is split: the text before the first delimiter and everything behind it. -/
theorem C132_split_two (d : UInt8) (a b : Bytes) (ha : d ∉ a) :
    (∃ strip : Bytes → Bytes, (∀ y, Stripped y (strip y)) ∧
      Scan.split d 2 a = .ok ([strip a].filter (· ≠ [])) ∧
      Scan.split d 2 (a ++ d :: b) = .ok ([strip a, strip b].filter (· ≠ []))) := by
  refine ⟨trim, stripped_trim, ?_, ?_⟩
  · rw [split_eq, piecesN_one]
    have h1 : a.dropWhile (· ≠ d) = [] ∧ a.takeWhile (· ≠ d) = a := by
      induction a with
      | nil => exact ⟨rfl, rfl⟩
      | cons x a ih =>
        have hx : x ≠ d := fun e => ha (e ▸ List.mem_cons_self)
        have := ih fun hm => ha (List.mem_cons_of_mem _ hm)
        simp [List.dropWhile_cons, List.takeWhile_cons, hx] at this ⊢
        exact this
    rw [if_pos h1.1, h1.2]; rfl
  · rw [split_eq, piecesN_one]
    have h1 : (a ++ d :: b).dropWhile (· ≠ d) = d :: b ∧ (a ++ d :: b).takeWhile (· ≠ d) = a := by
      induction a with
      | nil => simp
      | cons x a ih =>
        have hx : x ≠ d := fun e => ha (e ▸ List.mem_cons_self)
        have := ih fun hm => ha (List.mem_cons_of_mem _ hm)
        simp [List.dropWhile_cons, List.takeWhile_cons, hx] at this ⊢
        exact this
    rw [h1.1, h1.2, if_neg (fun h => nomatch h)]; rfl

/-- **C132**, `decode_url`: defined for every text, and the text of the list model (which `decodeUrl_text` relates to the
characters written); with `+` for blanks, that of the text in which the blanks are written out. -/
theorem C132_decode (s : Bytes) :
    Scan.decode false s = .ok (decodeUrl s) ∧
      Scan.decode true s = .ok (decodeUrl (s.map fun c => if c = 43 then 32 else c)) :=
  ⟨decode_scan s, decode_plus s⟩

/-- What `decode_url` makes of a text in which every character is written as itself, as `%XX` or as `%uXXXX`. -/
theorem C132_decode_text (ws : List Written) (h : ∀ w ∈ ws, w.Ok) : Scan.decode false (pathText ws) = .ok (ws.flatMap Written.value) := by
  rw [decode_scan, decodeUrl_text ws h]

/-- **C132**, `parse_header`: defined for every line, and the field of the list model. -/
theorem C132_header (s : Bytes) : header s = .ok (parseHeader s) := header_scan s

/-- **C132**, `getline`: whatever arrives, an array of at least two bytes is never overrun; a line that ends with a line feed is
delivered up to it and nothing behind it is touched, however long the line is; so are the bytes before the end of the connection;
nothing is delivered if the connection fails or ends before the first byte.  The line is followed by a NUL. -/
theorem C132_line (ends : Bool) (r : Reader) (hr : 2 ≤ r.fixed.length) :
    (∀ x rest : Bytes, (10 : UInt8) ∉ x → ∃ r', r.getline ends (x ++ 10 :: rest) = .ok (some (r', rest)) ∧
      r'.fixed.length = r.fixed.length ∧ r'.text = .ok (x ++ [10]) ∧
      r'.cstring = .ok ((x ++ [10]).takeWhile (· ≠ 0)) ∧ r'.crlf = .ok (decide (x.getLast? = some 13))) ∧
    (∀ x : Bytes, (10 : UInt8) ∉ x → x ≠ [] → ends = true → ∃ r', r.getline ends x = .ok (some (r', [])) ∧
      r'.fixed.length = r.fixed.length ∧ r'.text = .ok x ∧ r'.cstring = .ok (x.takeWhile (· ≠ 0)) ∧ r'.crlf = .ok false) ∧
    (∀ x : Bytes, (10 : UInt8) ∉ x → x = [] ∨ ends = false → r.getline ends x = .ok none) := by
  have h0 : LineIn r.fixed.length { r with used := 0, grow := [] } [] := ⟨rfl, by simp, by simp⟩
  have crlf_end : ∀ x : Bytes, endsCrlf (x ++ [10]) = decide (x.getLast? = some 13) := by
    intro x
    rcases List.eq_nil_or_concat x with e | ⟨y, b, e⟩
    · subst e; rfl
    · subst e
      rw [endsCrlf]
      have hl : (y.concat b ++ [10]).length = y.length + 2 := by simp
      have hd : (y.concat b ++ [10]).drop (y.length + 2 - 2) = [b, 10] := by simp
      rw [hl, hd]
      by_cases hb : b = 13
      · simp [hb]
      · simp [hb]
  refine ⟨fun x rest hx => ?_, fun x hx hne he => ?_, fun x hx h => ?_⟩
  · have ht := takeLine_lf rest hx
    rcases lineLoop_eq hr ends (x ++ 10 :: rest) _ [] h0 with ⟨_, hm, _⟩ | ⟨e, _⟩ | ⟨_, _, r', e, hh⟩
    · exact absurd (by simp) hm
    · simp at e
    · rw [List.nil_append, ht.1] at hh
      rw [ht.2] at e
      refine ⟨r', e, hh.1, lineIn_text hh, lineIn_cstring hh (by simp), ?_⟩
      rw [lineIn_crlf hh, crlf_end]
  · have ht := takeLine_none hx
    rcases lineLoop_eq hr ends x _ [] h0 with ⟨h, _, _⟩ | ⟨e, _⟩ | ⟨_, _, r', e, hh⟩
    · rw [he] at h; cases h
    · exact absurd e hne
    · rw [List.nil_append, ht.1] at hh
      rw [ht.2] at e
      refine ⟨r', e, hh.1, lineIn_text hh, lineIn_cstring hh hne, ?_⟩
      rw [lineIn_crlf hh]
      congr 1
      rw [endsCrlf]
      cases hd : x.drop (x.length - 2) == [13, 10] with
      | false => simp
      | true =>
        have : x.drop (x.length - 2) = [13, 10] := by simpa using hd
        exact absurd (List.mem_of_mem_drop (by rw [this]; simp)) hx
  · rcases lineLoop_eq hr ends x _ [] h0 with ⟨_, _, e⟩ | ⟨_, e⟩ | ⟨h1, h2, _⟩
    · exact e
    · exact e
    · rcases h with h | h
      · exact absurd h h1
      · rcases h2 with h2 | h2
        · exact absurd h2 hx
        · rw [h] at h2; cases h2

/-- **C132**, `write_format`: a text of any length that an `int` can count is sent as it is. -/
theorem C132_format {t : Bytes} (h : t.length < 2 ^ 31) : writeFormat t = .ok t := writeFormat_eq h

/-! ### Examples -/

example : Scan.split 59 noLimit (delimited 59 [str " form-data ", str "", str "name=x\t"]) = .ok [str "form-data", str "name=x"] := by decide +kernel
example : Scan.split 63 2 (str "/a?b?c") = .ok [str "/a", str "b?c"] := by decide +kernel
/-- Limits and delimiters that are blanks themselves. -/
example : Scan.split 32 noLimit (str "GET   /x HTTP/1.1") = .ok [str "GET", str "/x", str "HTTP/1.1"] := by decide +kernel
example : Scan.decode true (str "%41+%u20acB%") = .ok ([65, 32, 0xE2, 0x82, 0xAC, 66, 37]) := by decide +kernel
example : header (str "Content-Type:  text/plain \t") = .ok (some (str "Content-Type", str "text/plain")) := by decide +kernel
/-- An array of four bytes and a line of six: the line is in the string of the reader. -/
example : (⟨List.replicate 4 none, 0, []⟩ : Reader).getline true (str "abcd" ++ [13, 10, 65]) =
    .ok (some (⟨[some 97, some 98, some 99, some 0], 3, str "abcd" ++ [13, 10]⟩, [65])) := by decide +kernel
/-- Why the array must have two bytes: with one, the assertion reads what was never written. -/
theorem C132_line_one : (⟨[none], 0, []⟩ : Reader).getline true [65, 10] = .ub := by decide +kernel

end Brski.Props
