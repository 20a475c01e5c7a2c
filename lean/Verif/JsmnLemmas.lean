import Verif.Jsmn

/-!
# Lemmas about the tokenizer: well-formed tokens, budget
-/

namespace Brski.Jsmn
open Outcome

/-- A token lies inside the first `n` bytes of the input. -/
def Tok.In (n : Nat) (t : Tok) : Prop :=
  t.start ≤ n ∧ ∀ e, t.stop = some e → t.start ≤ e ∧ e ≤ n

theorem Tok.In.mono {n m : Nat} {t : Tok} (h : t.In n) (hm : n ≤ m) : t.In m :=
  ⟨by have := h.1; omega, fun e he => by have := h.2 e he; omega⟩

theorem lastOpen_some {toks : List Tok} {n i : Nat} (h : lastOpen toks n = some i) :
    i < n ∧ ∃ t, toks[i]? = some t ∧ t.stop = none := by
  induction n with
  | zero => simp [lastOpen] at h
  | succ n ih =>
    rw [lastOpen] at h
    split at h
    · rename_i t ht
      split at h
      · rename_i hs
        cases h
        exact ⟨by omega, t, ht, hs⟩
      · have := ih h; exact ⟨by omega, this.2⟩
    · have := ih h; exact ⟨by omega, this.2⟩

theorem lastOpen_none {toks : List Tok} {n : Nat} (h : lastOpen toks n = none) :
    ∀ i, i < n → ∀ t, toks[i]? = some t → t.stop ≠ none := by
  induction n with
  | zero => intro i hi; omega
  | succ n ih =>
    rw [lastOpen] at h
    intro i hi t ht
    by_cases hin : i = n
    · subst hin
      rw [ht] at h
      simp only at h
      split at h
      · cases h
      · assumption
    · refine ih ?_ i (by omega) t ht
      split at h
      · split at h
        · cases h
        · exact h
      · exact h

theorem scanString_pos (k : Nat) (s : Bytes) (p : Nat) :
    ∀ q r, scanString k s p = .closed q r → p ≤ q ∧ q + 1 + r.length = p + s.length := by
  fun_induction scanString k s p with
  | case1 => intro q r h; cases h
  | case2 => intro q r h; cases h
  | case3 _ _ _ _ _ _ ih =>
    intro q r h; have := ih q r h; simp only [List.length_cons]; omega
  | case4 => intro q r h; cases h
  | case5 => intro q r h; cases h
  | case6 => intro q r h; cases h; simp
  | case7 => intro q r h; cases h
  | case8 => intro q r h; cases h
  | case9 => intro q r h; cases h; simp; omega
  | case10 _ _ _ _ _ _ ih =>
    intro q r h; have := ih q r h; simp only [List.length_cons]; omega
  | case11 _ _ _ _ _ ih =>
    intro q r h; have := ih q r h; simp only [List.length_cons]; omega
  | case12 => intro q r h; cases h
  | case13 _ _ _ _ _ _ _ ih =>
    intro q r h; have := ih q r h; simp only [List.length_cons] at *; omega

theorem scanPrim_pos (s : Bytes) (p : Nat) :
    ∀ q r, scanPrim s p = some (q, r) → p ≤ q ∧ q + r.length = p + s.length := by
  fun_induction scanPrim s p with
  | case1 => intro q r h; cases h; simp
  | case2 => intro q r h; cases h; simp
  | case3 => intro q r h; cases h; simp
  | case4 => intro q r h; cases h
  | case5 _ _ _ _ _ _ ih => intro q r h; have := ih q r h; simp only [List.length_cons]; omega

/-- Invariant of the tokenizer. -/
structure Inv (num pos : Nat) (toks : List Tok) (sup : Option Nat) : Prop where
  ins : ∀ t ∈ toks, t.In pos
  sup : ∀ i, sup = some i → i < toks.length
  len : toks.length ≤ num

theorem bump_ok {toks : List Tok} {sup : Option Nat} (h : ∀ i, sup = some i → i < toks.length) :
    ∃ toks', bump toks sup = .ok toks' ∧ toks'.length = toks.length ∧
      ∀ n, (∀ t ∈ toks, t.In n) → ∀ t ∈ toks', t.In n := by
  cases sup with
  | none => exact ⟨toks, rfl, rfl, fun _ h => h⟩
  | some i =>
    have hi := h i rfl
    simp only [bump, List.getElem?_eq_getElem hi]
    refine ⟨_, rfl, by simp, ?_⟩
    intro n hn t ht
    rcases List.mem_or_eq_of_mem_set ht with h | h
    · exact hn t h
    · subst h; exact hn toks[i] (List.getElem_mem hi)

/-- The tokenizer is memory safe on every input; its tokens are closed, inside the input, and
at most `num`. -/
theorem parseLoop_safe (num : Nat) (rest : Bytes) (pos : Nat) (toks : List Tok) (sup : Option Nat)
    (h : Inv num pos toks sup) :
    ∃ r, parseLoop num rest pos toks sup = .ok r ∧
      ∀ ts, r = .ok ts → (∀ t ∈ ts, t.In (pos + rest.length) ∧ t.stop ≠ none) ∧
        ts.length ≤ num := by
  have fin : ∀ (rest : Bytes) (pos : Nat) (toks : List Tok) (sup : Option Nat),
      Inv num pos toks sup → ∃ r : Except Err (List Tok),
      (if (lastOpen toks toks.length).isSome = true then Outcome.ok (Except.error Err.part)
        else .ok (.ok toks)) = .ok r ∧
      ∀ ts, r = .ok ts → (∀ t ∈ ts, t.In (pos + rest.length) ∧ t.stop ≠ none) ∧
        ts.length ≤ num := by
    intro rest pos toks sup h
    split
    · exact ⟨_, rfl, fun ts hts => by cases hts⟩
    · rename_i hn
      refine ⟨_, rfl, fun ts hts => ?_⟩
      cases hts
      refine ⟨fun t ht => ⟨(h.ins t ht).mono (by omega), ?_⟩, h.len⟩
      obtain ⟨i, hi, e⟩ := List.mem_iff_getElem.1 ht
      exact lastOpen_none (by simpa using hn) i hi t (by rw [List.getElem?_eq_getElem hi, e])
  induction hl : rest.length using Nat.strongRecOn generalizing rest pos toks sup with
  | ind L ih =>
  cases rest with
  | nil =>
    rw [parseLoop, ← hl]; exact fin [] pos toks sup h
  | cons c r =>
    have next : ∀ (r' : Bytes) (pos' : Nat) (toks' : List Tok) (sup' : Option Nat),
        r'.length < (c :: r).length → pos' + r'.length = pos + (c :: r).length →
        Inv num pos' toks' sup' → ∃ res, parseLoop num r' pos' toks' sup' = .ok res ∧
          ∀ ts, res = .ok ts → (∀ t ∈ ts, t.In (pos + L) ∧ t.stop ≠ none) ∧
            ts.length ≤ num := by
      intro r' pos' toks' sup' h1 h2 h3
      have := ih r'.length (by omega) r' pos' toks' sup' h3 rfl
      rw [h2, hl] at this
      exact this
    have err : ∀ e : Err, ∃ res : Except Err (List Tok), Outcome.ok (Except.error e) = Outcome.ok res ∧
          ∀ ts, res = .ok ts → (∀ t ∈ ts, t.In (pos + L) ∧ t.stop ≠ none) ∧
            ts.length ≤ num := fun e => ⟨_, rfl, fun ts hts => by cases hts⟩
    have same : Inv num (pos + 1) toks sup :=
      ⟨fun t ht => (h.ins t ht).mono (by omega), h.sup, h.len⟩
    rw [parseLoop.eq_def]
    dsimp only
    split
    · rw [← hl]; exact fin (c :: r) pos toks sup h
    split
    · split
      · exact err _
      · rename_i hlen
        obtain ⟨toks', e1, e2, e3⟩ := bump_ok h.sup
        rw [e1]
        simp only [bind'_ok]
        refine next _ _ _ _ (by simp) (by simp; omega) ⟨?_, ?_, ?_⟩
        · intro t ht
          rcases List.mem_append.1 ht with ht | ht
          · exact (e3 pos h.ins t ht).mono (by omega)
          · simp only [List.mem_singleton] at ht
            subst ht
            exact ⟨by simp, fun e he => by cases he⟩
        · intro i hi; cases hi; simp
        · simp; omega
    split
    · split
      · exact err _
      · rename_i i hi
        obtain ⟨hlt, t, ht, hts⟩ := lastOpen_some hi
        rw [ht]
        dsimp only
        generalize (if c = 125 then TokType.object else TokType.array) = ty
        split
        · exact err _
        · refine next _ _ _ _ (by simp) (by simp; omega) ⟨?_, ?_, ?_⟩
          · intro u hu
            rcases List.mem_or_eq_of_mem_set hu with hu | hu
            · exact (h.ins u hu).mono (by omega)
            · subst hu
              have hin := h.ins t (List.mem_of_getElem? ht)
              refine ⟨by have := hin.1; simp only; omega, ?_⟩
              intro e he
              simp only [Option.some.injEq] at he
              have := hin.1
              simp only
              omega
          · intro j hj
            have := (lastOpen_some hj).1
            simp only [List.length_set]; omega
          · simpa using h.len
    split
    · split
      · exact err _
      · rename_i q r' hq
        have hpos := scanString_pos _ _ _ _ _ hq
        split
        · exact err _
        · rename_i hlen
          obtain ⟨toks', e1, e2, e3⟩ := bump_ok (toks := toks ++ [⟨.string, pos + 1, some q, 0⟩])
            (sup := sup) (fun i hi => by have := h.sup i hi; simp; omega)
          rw [e1]
          simp only [bind'_ok]
          refine next _ _ _ _ (by simp; omega) (by simp; omega) ⟨?_, ?_, ?_⟩
          · apply e3
            intro t ht
            rcases List.mem_append.1 ht with ht | ht
            · exact (h.ins t ht).mono (by omega)
            · simp only [List.mem_singleton] at ht
              subst ht
              refine ⟨by simp; omega, fun e he => ?_⟩
              simp only [Option.some.injEq] at he
              subst he; simp only; omega
          · intro i hi; have := h.sup i hi; rw [e2]; simp; omega
          · rw [e2]; simp; omega
    split
    · exact next _ _ _ _ (by simp) (by simp; omega) same
    split
    · refine next _ _ _ _ (by simp) (by simp; omega) ⟨same.ins, ?_, same.len⟩
      intro i hi
      split at hi
      · cases hi
      · simp only [Option.some.injEq] at hi; omega
    split
    · split
      · exact next _ _ _ _ (by simp) (by simp; omega) ⟨same.ins, (fun i hi => by cases hi), same.len⟩
      · rename_i i
        have hi := h.sup i rfl
        rw [List.getElem?_eq_getElem hi]
        simp only
        split
        · exact next _ _ _ _ (by simp) (by simp; omega) same
        · refine next _ _ _ _ (by simp) (by simp; omega) ⟨same.ins, ?_, same.len⟩
          intro j hj
          split at hj
          · rename_i k hk
            cases hj
            exact (lastOpen_some hk).1
          · cases hj; exact hi
    split
    · exact err _
    · split
      · exact err _
      · rename_i q r' hq
        have hpos := scanPrim_pos _ _ _ _ hq
        split
        · exact err _
        · rename_i hlen
          obtain ⟨toks', e1, e2, e3⟩ := bump_ok (toks := toks ++ [⟨.primitive, pos, some q, 0⟩])
            (sup := sup) (fun i hi => by have := h.sup i hi; simp; omega)
          rw [e1]
          simp only [bind'_ok]
          refine next _ _ _ _ (by simp; omega) (by simp; omega) ⟨?_, ?_, ?_⟩
          · apply e3
            intro t ht
            rcases List.mem_append.1 ht with ht | ht
            · exact (h.ins t ht).mono (by omega)
            · simp only [List.mem_singleton] at ht
              subst ht
              refine ⟨by simp; omega, fun e he => ?_⟩
              simp only [Option.some.injEq] at he
              subst he; simp only; omega
          · intro i hi; have := h.sup i hi; rw [e2]; simp; omega
          · rw [e2]; simp; omega

theorem bump_length {toks toks' : List Tok} {sup : Option Nat} (h : bump toks sup = .ok toks') :
    toks'.length = toks.length := by
  cases sup with
  | none => simp only [bump, ok.injEq] at h; subst h; rfl
  | some i =>
    simp only [bump] at h
    split at h
    · simp only [ok.injEq] at h; subst h; simp
    · cases h

/-- Effect of the token budget: a larger budget accepts with the same tokens; a smaller one
answers NOMEM exactly when it is exceeded. -/
theorem parseLoop_budget (num big : Nat) (hle : num ≤ big) (rest : Bytes) (pos : Nat)
    (toks : List Tok) (sup : Option Nat) (ts : List Tok)
    (h : parseLoop big rest pos toks sup = .ok (.ok ts)) :
    toks.length ≤ ts.length ∧ (toks.length ≤ num →
      parseLoop num rest pos toks sup =
        if ts.length ≤ num then .ok (.ok ts) else .ok (.error .nomem)) := by
  induction hl : rest.length using Nat.strongRecOn generalizing rest pos toks sup with
  | ind L ih =>
  cases rest with
  | nil =>
    rw [parseLoop] at h ⊢
    split at h
    · cases h
    · rename_i hn
      cases h
      refine ⟨Nat.le_refl _, fun hln => ?_⟩
      rw [if_neg hn, if_pos hln]
  | cons c r =>
    rw [parseLoop.eq_def] at h ⊢
    dsimp only at h ⊢
    split at h
    · rename_i hc
      rw [if_pos hc]
      split at h
      · cases h
      · rename_i hn
        cases h
        refine ⟨Nat.le_refl _, fun hln => ?_⟩
        rw [if_neg hn, if_pos hln]
    rename_i c0
    rw [if_neg c0]
    split at h
    · rename_i hc
      rw [if_pos hc]
      split at h
      · cases h
      · cases hb : bump toks sup with
        | ub => rw [hb] at h; cases h
        | ok toks' =>
          rw [hb] at h
          simp only [bind'_ok] at h ⊢
          have hbl := bump_length hb
          have := ih r.length (by simp at hl; omega) _ _ _ _ h rfl
          simp only [List.length_append, List.length_cons, List.length_nil] at this
          refine ⟨by omega, fun hln => ?_⟩
          split
          · rw [if_neg (by omega)]
          · exact this.2 (by omega)
    rename_i c1
    rw [if_neg c1]
    split at h
    · rename_i hc
      rw [if_pos hc]
      split at h
      · cases h
      · rename_i i hi
        split at h
        · cases h
        · rename_i t ht
          generalize (if c = 125 then TokType.object else TokType.array) = ty at h ⊢
          split at h
          · cases h
          · rename_i hty
            rw [if_neg hty]
            have := ih r.length (by simp at hl; omega) _ _ _ _ h rfl
            simpa only [List.length_set] using this
    rename_i c2
    rw [if_neg c2]
    split at h
    · rename_i hc
      rw [if_pos hc]
      split at h
      · cases h
      · rename_i q r' hq
        have hpos := scanString_pos _ _ _ _ _ hq
        split at h
        · cases h
        · cases hb : bump (toks ++ [⟨.string, pos + 1, some q, 0⟩]) sup with
          | ub => rw [hb] at h; cases h
          | ok toks' =>
            rw [hb] at h
            simp only [bind'_ok] at h ⊢
            have hbl := bump_length hb
            simp only [List.length_append, List.length_cons, List.length_nil] at hbl
            have := ih r'.length (by simp at hl; omega) _ _ _ _ h rfl
            refine ⟨by omega, fun hln => ?_⟩
            split
            · rw [if_neg (by omega)]
            · exact this.2 (by omega)
    rename_i c3
    rw [if_neg c3]
    split at h
    · rename_i hc
      rw [if_pos hc]
      exact ih r.length (by simp at hl; omega) _ _ _ _ h rfl
    rename_i c4
    rw [if_neg c4]
    split at h
    · rename_i hc
      rw [if_pos hc]
      exact ih r.length (by simp at hl; omega) _ _ _ _ h rfl
    rename_i c5
    rw [if_neg c5]
    split at h
    · rename_i hc
      rw [if_pos hc]
      split at h
      · exact ih r.length (by simp at hl; omega) _ _ _ _ h rfl
      · split at h
        · cases h
        · rename_i t ht
          split at h
          · rename_i hty
            rw [if_pos hty]
            exact ih r.length (by simp at hl; omega) _ _ _ _ h rfl
          · rename_i hty
            rw [if_neg hty]
            exact ih r.length (by simp at hl; omega) _ _ _ _ h rfl
    rename_i c6
    rw [if_neg c6]
    split at h
    · cases h
    · rename_i hc
      rw [if_neg hc]
      split at h
      · cases h
      · rename_i q r' hq
        have hpos := scanPrim_pos _ _ _ _ hq
        split at h
        · cases h
        · cases hb : bump (toks ++ [⟨.primitive, pos, some q, 0⟩]) sup with
          | ub => rw [hb] at h; cases h
          | ok toks' =>
            rw [hb] at h
            simp only [bind'_ok] at h ⊢
            have hbl := bump_length hb
            simp only [List.length_append, List.length_cons, List.length_nil] at hbl
            have := ih r'.length (by simp at hl; omega) _ _ _ _ h rfl
            refine ⟨by omega, fun hln => ?_⟩
            split
            · rw [if_neg (by omega)]
            · exact this.2 (by omega)

theorem parse_budget (num big : Nat) (hle : num ≤ big) (js : Bytes) (ts : List Tok)
    (h : parse big js = .ok (.ok ts)) :
    parse num js = if ts.length ≤ num then .ok (.ok ts) else .ok (.error .nomem) :=
  (parseLoop_budget num big hle js 0 [] none ts h).2 (by simp)

theorem parse_safe (num : Nat) (js : Bytes) :
    ∃ r, parse num js = .ok r ∧
      ∀ ts, r = .ok ts → (∀ t ∈ ts, t.In js.length ∧ t.stop ≠ none) ∧ ts.length ≤ num := by
  have := parseLoop_safe num js 0 [] none ⟨by simp, by simp, by simp⟩
  simpa [parse] using this

end Brski.Jsmn
