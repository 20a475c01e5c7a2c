import Verif.JsmnLemmas

/-!
# Texts that are cut short (lemmas)

When the tokenizer accepts the beginning of a text, everything it accepts of the whole text ends where the beginning ends.
-/

namespace Brski.Jsmn

open Outcome

theorem scanString_append (k : Nat) (s : Bytes) (p : Nat) : ∀ q r, scanString k s p = .closed q r →
    ∀ x, scanString k (s ++ x) p = .closed q (r ++ x) := by
  fun_induction scanString k s p with
  | case1 => intro q r h; cases h
  | case2 => intro q r h; cases h
  | case3 k c r p h0 h1 ih =>
    intro q r h x
    rw [List.cons_append, scanString, if_neg h0, if_pos h1]
    exact ih q r h x
  | case4 => intro q r h; cases h
  | case5 => intro q r h; cases h
  | case6 =>
    intro q r h x
    cases h
    cases x <;> simp [scanString]
  | case7 => intro q r h; cases h
  | case8 => intro q r h; cases h
  | case9 =>
    intro q r h x
    cases h
    simp [scanString]
  | case10 _ _ _ h0 h1 h2 ih =>
    intro q r h x
    simp only [List.cons_append, scanString, h0, h1, h2, if_false, if_true]
    exact ih q r h x
  | case11 _ _ h0 h1 h2 ih =>
    intro q r h x
    simp only [List.cons_append, scanString, h0, h1, h2, if_false, if_true, Bool.false_eq_true]
    exact ih q r h x
  | case12 => intro q r h; cases h
  | case13 p c e r h0 h1 h2 ih =>
    intro q r h x
    rw [List.cons_append, List.cons_append, scanString, if_neg h0, if_neg h1, if_neg h2]
    exact ih q r h x

theorem scanPrim_append (s : Bytes) (p : Nat) : ∀ q r, scanPrim s p = some (q, r) → r ≠ [] →
    ∀ x, scanPrim (s ++ x) p = some (q, r ++ x) := by
  fun_induction scanPrim s p with
  | case1 => intro q r h hr; cases h; exact absurd rfl hr
  | case2 => intro q r h _ x; cases h; simp [scanPrim]
  | case3 _ _ _ h0 h1 => intro q r h _ x; cases h; simp [scanPrim, h0, h1]
  | case4 => intro q r h; cases h
  | case5 c r p h0 h1 h2 ih =>
    intro q r h hr x
    rw [List.cons_append, scanPrim, if_neg h0, if_neg h1, if_neg h2]
    exact ih q r h hr x

/-- The token with the given index has this type and this end. -/
def Has (toks : List Tok) (i : Nat) (ty : TokType) (e : Nat) : Prop :=
  ∃ t, toks[i]? = some t ∧ t.type = ty ∧ t.stop = some e

theorem bump_has {toks toks' : List Tok} {sup : Option Nat} (h : bump toks sup = .ok toks') {i : Nat} {ty : TokType}
    {e : Nat} (ht : Has toks i ty e) : Has toks' i ty e := by
  unfold bump at h
  split at h
  · cases h; exact ht
  · rename_i j
    split at h
    · rename_i u hu
      cases h
      obtain ⟨t, h1, h2, h3⟩ := ht
      by_cases hij : j = i
      · subst hij
        rw [h1] at hu
        cases hu
        exact ⟨{ u with size := u.size + 1 }, by
          rw [List.getElem?_set_self (List.getElem?_eq_some_iff.1 h1).1], h2, h3⟩
      · exact ⟨t, by rw [List.getElem?_set_ne hij]; exact h1, h2, h3⟩
    · cases h

theorem append_has {toks : List Tok} (x : List Tok) {i : Nat} {ty : TokType} {e : Nat} (ht : Has toks i ty e) :
    Has (toks ++ x) i ty e := by
  obtain ⟨t, h1, h2, h3⟩ := ht
  exact ⟨t, by rw [List.getElem?_append_left (List.getElem?_eq_some_iff.1 h1).1]; exact h1, h2, h3⟩

/-- Closed tokens stay as they are. -/
theorem parseLoop_keeps (num : Nat) (rest : Bytes) (pos : Nat) (toks : List Tok) (sup : Option Nat) (ts : List Tok)
    (h : parseLoop num rest pos toks sup = .ok (.ok ts)) {i : Nat} {ty : TokType} {e : Nat} (ht : Has toks i ty e) :
    Has ts i ty e := by
  induction hl : rest.length using Nat.strongRecOn generalizing rest pos toks sup with
  | ind L ih =>
  cases rest with
  | nil =>
    rw [parseLoop] at h
    split at h
    · cases h
    · cases h; exact ht
  | cons c r =>
    rw [parseLoop.eq_def] at h
    dsimp only at h
    split at h
    · split at h
      · cases h
      · cases h; exact ht
    split at h
    · split at h
      · cases h
      · cases hb : bump toks sup with
        | ub => rw [hb] at h; cases h
        | ok toks' =>
          rw [hb] at h
          exact ih r.length (by simp at hl; omega) _ _ _ _ h (append_has _ (bump_has hb ht)) rfl
    split at h
    · split at h
      · cases h
      · rename_i j hj
        split at h
        · cases h
        · rename_i t hjt
          generalize (if c = 125 then TokType.object else TokType.array) = ty at h
          split at h
          · cases h
          · refine ih r.length (by simp at hl; omega) _ _ _ _ h ?_ rfl
            obtain ⟨u, h1, h2, h3⟩ := ht
            have hne : j ≠ i := by
              intro hij
              subst hij
              rw [hjt] at h1
              cases h1
              have := (lastOpen_some hj).2
              obtain ⟨t', ht', hs⟩ := this
              rw [hjt] at ht'
              cases ht'
              rw [h3] at hs
              cases hs
            exact ⟨u, by rw [List.getElem?_set_ne hne]; exact h1, h2, h3⟩
    split at h
    · split at h
      · cases h
      · rename_i q r' hq
        have hpos := scanString_pos _ _ _ _ _ hq
        split at h
        · cases h
        · cases hb : bump (toks ++ [⟨.string, pos + 1, some q, 0⟩]) sup with
          | ub => rw [hb] at h; cases h
          | ok toks' =>
            rw [hb] at h
            exact ih r'.length (by simp at hl; omega) _ _ _ _ h (bump_has hb (append_has _ ht)) rfl
    split at h
    · exact ih r.length (by simp at hl; omega) _ _ _ _ h ht rfl
    split at h
    · exact ih r.length (by simp at hl; omega) _ _ _ _ h ht rfl
    split at h
    · split at h
      · exact ih r.length (by simp at hl; omega) _ _ _ _ h ht rfl
      · split at h
        · cases h
        · split at h
          · exact ih r.length (by simp at hl; omega) _ _ _ _ h ht rfl
          · exact ih r.length (by simp at hl; omega) _ _ _ _ h ht rfl
    split at h
    · cases h
    · split at h
      · cases h
      · rename_i q r' hq
        have hpos := scanPrim_pos _ _ _ _ hq
        split at h
        · cases h
        · cases hb : bump (toks ++ [⟨.primitive, pos, some q, 0⟩]) sup with
          | ub => rw [hb] at h; cases h
          | ok toks' =>
            rw [hb] at h
            exact ih r'.length (by simp at hl; omega) _ _ _ _ h (bump_has hb (append_has _ ht)) rfl

theorem has_of_bump {toks toks' : List Tok} {sup : Option Nat} (h : bump toks sup = .ok toks') {i : Nat} {ty : TokType}
    {e : Nat} (ht : Has toks' i ty e) : Has toks i ty e := by
  unfold bump at h
  split at h
  · cases h; exact ht
  · rename_i j
    split at h
    · rename_i u hu
      cases h
      obtain ⟨t, h1, h2, h3⟩ := ht
      by_cases hij : j = i
      · subst hij
        rw [List.getElem?_set_self (List.getElem?_eq_some_iff.1 hu).1] at h1
        cases h1
        exact ⟨u, hu, h2, h3⟩
      · exact ⟨t, by rw [List.getElem?_set_ne hij] at h1; exact h1, h2, h3⟩
    · cases h

/-- The first token, unless it is a bare value, ends where it ended when the text was cut. -/
theorem parseLoop_cut (num big : Nat) (hle : num ≤ big) (p x : Bytes) (pos : Nat) (toks : List Tok) (sup : Option Nat)
    (ts us : List Tok) (h : parseLoop num p pos toks sup = .ok (.ok ts))
    (h' : parseLoop big (p ++ x) pos toks sup = .ok (.ok us)) {ty : TokType} {e : Nat} (hty : ty ≠ .primitive)
    (ht : Has ts 0 ty e) : Has us 0 ty e := by
  induction hl : p.length using Nat.strongRecOn generalizing p pos toks sup with
  | ind L ih =>
  cases p with
  | nil =>
    rw [parseLoop] at h
    split at h
    · cases h
    · cases h; exact parseLoop_keeps _ _ _ _ _ _ h' ht
  | cons c r =>
    rw [List.cons_append] at h'
    rw [parseLoop.eq_def] at h h'
    dsimp only at h h'
    split at h
    · rename_i hc
      rw [if_pos hc] at h'
      split at h
      · cases h
      · rename_i hn
        rw [if_neg hn] at h'
        cases h; cases h'; exact ht
    rename_i c0
    rw [if_neg c0] at h'
    split at h
    · rename_i hc
      rw [if_pos hc] at h'
      split at h
      · cases h
      · rw [if_neg (by omega)] at h'
        cases hb : bump toks sup with
        | ub => rw [hb] at h; cases h
        | ok toks' =>
          rw [hb] at h h'
          exact ih r.length (by simp at hl; omega) _ _ _ _ h h' rfl
    rename_i c1
    rw [if_neg c1] at h'
    split at h
    · rename_i hc
      rw [if_pos hc] at h'
      split at h
      · cases h
      · rename_i j hj
        simp only [hj] at h'
        split at h
        · cases h
        · rename_i t hjt
          simp only [hjt] at h'
          generalize (if c = 125 then TokType.object else TokType.array) = ty' at h h'
          split at h
          · cases h
          · rename_i hne
            rw [if_neg hne] at h'
            exact ih r.length (by simp at hl; omega) _ _ _ _ h h' rfl
    rename_i c2
    rw [if_neg c2] at h'
    split at h
    · rename_i hc
      rw [if_pos hc] at h'
      split at h
      · cases h
      · rename_i q r' hq
        have hpos := scanString_pos _ _ _ _ _ hq
        have hx := scanString_append _ _ _ _ _ hq x
        split at h'
        · rename_i hx'; rw [hx] at hx'; cases hx'
        rename_i q2 r2 hx'
        rw [hx] at hx'
        cases hx'
        split at h
        · cases h
        · rw [if_neg (by omega)] at h'
          cases hb : bump (toks ++ [⟨.string, pos + 1, some q, 0⟩]) sup with
          | ub => rw [hb] at h; cases h
          | ok toks' =>
            rw [hb] at h h'
            exact ih r'.length (by simp at hl; omega) _ _ _ _ h h' rfl
    rename_i c3
    rw [if_neg c3] at h'
    split at h
    · rename_i hc
      rw [if_pos hc] at h'
      exact ih r.length (by simp at hl; omega) _ _ _ _ h h' rfl
    rename_i c4
    rw [if_neg c4] at h'
    split at h
    · rename_i hc
      rw [if_pos hc] at h'
      exact ih r.length (by simp at hl; omega) _ _ _ _ h h' rfl
    rename_i c5
    rw [if_neg c5] at h'
    split at h
    · rename_i hc
      rw [if_pos hc] at h'
      split at h
      · exact ih r.length (by simp at hl; omega) _ _ _ _ h h' rfl
      · rename_i i
        split at h
        · cases h
        · rename_i t hi
          simp only [hi] at h'
          split at h
          · rename_i hc
            rw [if_pos hc] at h'
            exact ih r.length (by simp at hl; omega) _ _ _ _ h h' rfl
          · rename_i hc
            rw [if_neg hc] at h'
            exact ih r.length (by simp at hl; omega) _ _ _ _ h h' rfl
    rename_i c6
    rw [if_neg c6] at h'
    split at h
    · cases h
    · rename_i c7
      rw [if_neg c7] at h'
      split at h
      · cases h
      · rename_i q r' hq
        have hpos := scanPrim_pos _ _ _ _ hq
        split at h
        · cases h
        · cases hb : bump (toks ++ [⟨.primitive, pos, some q, 0⟩]) sup with
          | ub => rw [hb] at h; cases h
          | ok toks' =>
            rw [hb] at h
            split at h'
            · cases h'
            rename_i q2 r2 hx'
            rw [if_neg (by omega)] at h'
            by_cases hr : r' = []
            · subst hr
              rw [bind'_ok, parseLoop] at h
              split at h
              · cases h
              cases h
              have h0 := has_of_bump hb ht
              have h1 : Has toks 0 ty e := by
                obtain ⟨t, g1, g2, g3⟩ := h0
                cases toks with
                | nil =>
                  simp only [List.nil_append, List.getElem?_cons_zero, Option.some.injEq] at g1
                  subst g1
                  exact absurd g2.symm hty
                | cons a l => exact ⟨t, by simpa using g1, g2, g3⟩
              cases hb2 : bump (toks ++ [⟨.primitive, pos, some q2, 0⟩]) sup with
              | ub => rw [hb2] at h'; cases h'
              | ok toks2 =>
                rw [hb2] at h'
                exact parseLoop_keeps _ _ _ _ _ _ h' (bump_has hb2 (append_has _ h1))
            · have hx := scanPrim_append _ _ _ _ hq hr x
              rw [hx] at hx'
              cases hx'
              rw [hb] at h'
              exact ih r'.length (by simp at hl; omega) _ _ _ _ h h' rfl

/-- When the beginning of a text is accepted, the first token of the whole text ends within the beginning. -/
theorem parse_cut (num big : Nat) (hle : num ≤ big) (p x : Bytes) (S T : Tok) (ts us : List Tok)
    (h : parse num p = .ok (.ok (S :: ts))) (h' : parse big (p ++ x) = .ok (.ok (T :: us))) (hs : S.type ≠ .primitive) :
    ∃ e, T.stop = some e ∧ e ≤ p.length := by
  obtain ⟨r, hr, hin⟩ := parse_safe num p
  rw [h] at hr
  cases hr
  obtain ⟨⟨-, h1⟩, h2⟩ := (hin _ rfl).1 S (by simp)
  cases hst : S.stop with
  | none => exact absurd hst h2
  | some e =>
    obtain ⟨t, g1, -, g3⟩ := parseLoop_cut num big hle p x 0 [] none _ _ h h' hs ⟨S, rfl, rfl, hst⟩
    simp only [List.getElem?_cons_zero, Option.some.injEq] at g1
    subst g1
    exact ⟨e, g3, (h1 e hst).2⟩

end Brski.Jsmn
