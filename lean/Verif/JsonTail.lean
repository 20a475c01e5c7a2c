import Verif.JsonCut

/-!
# What follows a voucher document (lemmas)
-/

namespace Brski.Jsmn

open Outcome

theorem scanString_suffix (k : Nat) (s : Bytes) (p : Nat) : ∀ q r, scanString k s p = .closed q r →
    ∃ u, s = u ++ 34 :: r ∧ q + 1 + r.length = p + s.length := by
  fun_induction scanString k s p with
  | case1 => intro q r h; cases h
  | case2 => intro q r h; cases h
  | case3 k c r p h0 h1 ih =>
    intro q r h
    obtain ⟨u, rfl, e⟩ := ih q r h
    exact ⟨c :: u, rfl, by simp at e ⊢; omega⟩
  | case4 => intro q r h; cases h
  | case5 => intro q r h; cases h
  | case6 => intro q r h; cases h; exact ⟨[], rfl, by simp⟩
  | case7 => intro q r h; cases h
  | case8 => intro q r h; cases h
  | case9 => intro q r h; cases h; exact ⟨[], rfl, by simp; omega⟩
  | case10 _ _ _ h0 h1 h2 ih =>
    intro q r h
    obtain ⟨u, rfl, e⟩ := ih q r h
    exact ⟨_ :: _ :: u, rfl, by simp at e ⊢; omega⟩
  | case11 _ _ h0 h1 h2 ih =>
    intro q r h
    obtain ⟨u, rfl, e⟩ := ih q r h
    exact ⟨_ :: _ :: u, rfl, by simp at e ⊢; omega⟩
  | case12 => intro q r h; cases h
  | case13 c e r p h0 h1 h2 ih =>
    intro q r h
    obtain ⟨u, hu, e⟩ := ih q r h
    exact ⟨_ :: u, by rw [hu]; rfl, by simp at e ⊢; omega⟩

theorem scanPrim_suffix (s : Bytes) (p : Nat) : ∀ q r, scanPrim s p = some (q, r) →
    ∃ u, s = u ++ r ∧ 125 ∉ u ∧ q + r.length = p + s.length := by
  fun_induction scanPrim s p with
  | case1 => intro q r h; cases h; exact ⟨[], rfl, by simp, by simp⟩
  | case2 => intro q r h; cases h; exact ⟨[], rfl, by simp, by simp⟩
  | case3 => intro q r h; cases h; exact ⟨[], rfl, by simp, by simp⟩
  | case4 => intro q r h; cases h
  | case5 c r p h0 h1 h2 ih =>
    intro q r h
    obtain ⟨u, rfl, hu, e⟩ := ih q r h
    refine ⟨c :: u, rfl, ?_, by simp at e ⊢; omega⟩
    intro hm
    rcases List.mem_cons.1 hm with rfl | hm
    · exact h1 (by decide)
    · exact hu hm

theorem getLast?_of_append {α : Type} (u r : List α) (hne : r ≠ []) : (u ++ r).getLast? = r.getLast? := by
  rw [List.getLast?_append]
  cases h : r.getLast? with
  | none => exact absurd (List.getLast?_eq_none_iff.1 h) hne
  | some y => rfl

theorem lastOpen_le {toks : List Tok} : ∀ {n m : Nat}, lastOpen toks n = none → m ≤ n → lastOpen toks m = none := by
  intro n m h hm
  cases h' : lastOpen toks m with
  | none => rfl
  | some i =>
    obtain ⟨h1, t, h2, h3⟩ := lastOpen_some h'
    exact absurd h3 (lastOpen_none h i (by omega) t h2)

/-- The text ends with a closing brace and white space (specification for the documents read at
/repo/src/voucher/voucher.c:798-873). -/
def Ended (p : Bytes) : Prop := ∃ q w, p = q ++ 125 :: w ∧ ∀ c ∈ w, Spec.isWs c

theorem Ended.cons {c : UInt8} {r : Bytes} (h : Ended (c :: r)) : (c = 125 ∧ ∀ c ∈ r, Spec.isWs c) ∨ Ended r := by
  obtain ⟨q, w, e, hw⟩ := h
  cases q with
  | nil => simp only [List.nil_append, List.cons.injEq] at e; exact .inl ⟨e.1, by rw [e.2]; exact hw⟩
  | cons a q => simp only [List.cons_append, List.cons.injEq] at e; exact .inr ⟨q, w, e.2, hw⟩

theorem not_ws {c : UInt8} (h : Spec.isWs c) : c ≠ 0 ∧ c ≠ 123 ∧ c ≠ 91 ∧ c ≠ 125 ∧ c ≠ 93 ∧ c ≠ 34 := by
  refine ⟨?_, ?_, ?_, ?_, ?_, ?_⟩ <;> (rintro rfl; revert h; decide)

theorem Ended.after {u r : Bytes} {c : UInt8} (h : Ended (u ++ c :: r)) (hc : ¬ Spec.isWs c) (hc' : c ≠ 125) : Ended r := by
  obtain ⟨q, w, e0, hw⟩ := h
  rcases List.append_eq_append_iff.1 e0 with ⟨a, rfl, e⟩ | ⟨a, rfl, e⟩
  · cases a with
    | nil => simp only [List.nil_append, List.cons.injEq] at e; exact absurd e.1 hc'
    | cons b a => simp only [List.cons_append, List.cons.injEq] at e; exact ⟨a, w, e.2, hw⟩
  · cases a with
    | nil => simp only [List.nil_append, List.cons.injEq] at e; exact absurd e.1.symm hc'
    | cons b a =>
      simp only [List.cons_append, List.cons.injEq] at e
      exact absurd (hw c (by rw [e.2]; simp)) hc

theorem Ended.drop {u r : Bytes} (h : Ended (u ++ r)) (hu : 125 ∉ u) : Ended r := by
  obtain ⟨q, w, e0, hw⟩ := h
  rcases List.append_eq_append_iff.1 e0 with ⟨a, rfl, e⟩ | ⟨a, rfl, e⟩
  · exact ⟨a, w, e, hw⟩
  · cases a with
    | nil => exact ⟨[], w, e.symm, hw⟩
    | cons b a =>
      simp only [List.cons_append, List.cons.injEq] at e
      exact absurd (by rw [← e.1]; simp) hu

theorem Ended.ne_nil {r : Bytes} (h : Ended r) : r ≠ [] := by
  obtain ⟨q, w, rfl, -⟩ := h
  simp

/-- After a text that is accepted and ends with a closing brace the tokenizer goes on as at the beginning of a text, except for
the tokens it has; after a NUL it does not go on. -/
theorem parseLoop_then (num big : Nat) (hle : num ≤ big) (p x : Bytes) (pos : Nat) (toks : List Tok) (sup : Option Nat)
    (ts : List Tok) (hp : ((∀ c ∈ p, Spec.isWs c) ∧ sup = none) ∨ Ended p)
    (h : parseLoop num p pos toks sup = .ok (.ok ts)) :
    lastOpen ts ts.length = none ∧ ∃ y pos', parseLoop big (p ++ x) pos toks sup = parseLoop big y pos' ts none := by
  induction hl : p.length using Nat.strongRecOn generalizing p pos toks sup with
  | ind L ih =>
  subst hl
  cases p with
  | nil =>
    rw [parseLoop] at h
    split at h
    · cases h
    · rename_i hno
      cases h
      refine ⟨by simpa using hno, x, pos, ?_⟩
      rcases hp with ⟨-, rfl⟩ | hp
      · rfl
      · exact absurd rfl hp.ne_nil
  | cons c r =>
    rw [List.cons_append]
    conv => rhs; rhs; intro y; rhs; intro p'; lhs; rw [parseLoop.eq_def]
    rw [parseLoop.eq_def] at h
    dsimp only at h ⊢
    split at h
    · rename_i hc
      rw [if_pos hc]
      split at h
      · cases h
      · rename_i hno
        cases h
        refine ⟨by simpa using hno, [], 0, ?_⟩
        rw [if_neg hno, parseLoop, if_neg hno]
    rename_i hc0
    rw [if_neg hc0]
    have tl : ¬ Spec.isWs c → c ≠ 125 → Ended r := by
      intro h1 h2
      rcases hp with ⟨hp, -⟩ | hp
      · exact absurd (hp c (by simp)) h1
      · rcases hp.cons with hp | hp
        · exact absurd hp.1 h2
        · exact hp
    split at h
    · rename_i hc
      rw [if_pos hc]
      split at h
      · cases h
      · rename_i hn
        rw [if_neg (by omega)]
        cases hb : bump toks sup with
        | ub => rw [hb] at h; cases h
        | ok toks' =>
          rw [hb] at h
          rw [bind'_ok] at h ⊢
          exact ih r.length (by simp) r _ _ _ (.inr (tl (fun hw => by obtain ⟨-, n1, n2, -⟩ := not_ws hw; rcases hc with hc | hc <;> contradiction) (by rintro rfl; revert hc; decide))) h rfl
    rename_i c1
    rw [if_neg c1]
    split at h
    · rename_i hc
      rw [if_pos hc]
      split at h
      · cases h
      · rename_i j hj
        split at h
        · cases h
        · rename_i t hjt
          generalize (if c = 125 then TokType.object else TokType.array) = ty at h ⊢
          split at h
          · cases h
          · rename_i hty
            rw [if_neg hty]
            rcases hp with ⟨hp, -⟩ | hp
            · obtain ⟨-, -, -, n1, n2, -⟩ := not_ws (hp c (by simp))
              rcases hc with hc | hc <;> contradiction
            rcases hp.cons with ⟨-, hp⟩ | hp
            · have h' := h
              rw [← List.append_nil r, VoucherJson.step_ws num r _ hp, parseLoop] at h'
              split at h'
              · cases h'
              · rename_i hno
                have hlo : lastOpen (toks.set j { t with stop := some (pos + 1) }) (j + 1) = none := by
                  refine lastOpen_le (n := (toks.set j { t with stop := some (pos + 1) }).length) (by simpa using hno) ?_
                  rw [List.length_set]
                  exact (lastOpen_some hj).1
                exact ih r.length (by simp) r _ _ _ (.inl ⟨hp, hlo⟩) h rfl
            · exact ih r.length (by simp) r _ _ _ (.inr hp) h rfl
    rename_i c2
    rw [if_neg c2]
    have hc2 : c ≠ 125 := fun e => c2 (.inl e)
    split at h
    · rename_i hc
      rw [if_pos hc]
      split at h
      · cases h
      · rename_i q r' hq
        obtain ⟨u, hu, e⟩ := scanString_suffix _ _ _ _ _ hq
        have hx := scanString_append _ _ _ _ _ hq x
        have hr := tl (fun hw => (not_ws hw).2.2.2.2.2 hc) hc2
        split
        · rename_i hx'; rw [hx] at hx'; cases hx'
        rename_i q2 r2 hx'
        rw [hx] at hx'
        cases hx'
        split at h
        · cases h
        · rename_i hn
          rw [if_neg (by omega)]
          cases hb : bump (toks ++ [⟨.string, pos + 1, some q, 0⟩]) sup with
          | ub => rw [hb] at h; cases h
          | ok toks' =>
            rw [hb] at h
            rw [bind'_ok] at h ⊢
            have hl' : r'.length < (c :: r).length := by rw [hu]; simp; omega
            rw [hu] at hr
            exact ih r'.length hl' r' _ _ _ (.inr (hr.after (by decide) (by decide))) h rfl
    rename_i c3
    rw [if_neg c3]
    split at h
    · rename_i hc
      rw [if_pos hc]
      refine ih r.length (by simp) r _ _ _ ?_ h rfl
      rcases hp with ⟨hp, e⟩ | hp
      · exact .inl ⟨fun c hc => hp c (by simp [hc]), e⟩
      · rcases hp.cons with hp | hp
        · exact absurd hp.1 hc2
        · exact .inr hp
    rename_i c4
    rw [if_neg c4]
    have hr : Ended r := tl (fun hw => c4 (by
      have : c = 9 ∨ c = 10 ∨ c = 13 ∨ c = 32 := hw
      rcases this with h | h | h | h <;> simp [h])) hc2
    split at h
    · rename_i hc
      rw [if_pos hc]
      exact ih r.length (by simp) r _ _ _ (.inr hr) h rfl
    rename_i c5
    rw [if_neg c5]
    split at h
    · rename_i hc
      rw [if_pos hc]
      split at h
      · exact ih r.length (by simp) r _ _ _ (.inr hr) h rfl
      · rename_i i
        split at h
        · cases h
        · rename_i t hi
          split at h
          · rename_i hc
            rw [if_pos hc]
            exact ih r.length (by simp) r _ _ _ (.inr hr) h rfl
          · rename_i hc
            rw [if_neg hc]
            exact ih r.length (by simp) r _ _ _ (.inr hr) h rfl
    rename_i c6
    rw [if_neg c6]
    split at h
    · cases h
    · rename_i c7
      rw [if_neg c7]
      split at h
      · cases h
      · rename_i q r' hq
        obtain ⟨u, hu, hu5, e⟩ := scanPrim_suffix _ _ _ _ hq
        have hr' : Ended r' := by
          rw [hu] at hr
          exact hr.drop hu5
        have hx := scanPrim_append _ _ _ _ hq hr'.ne_nil x
        split at h
        · cases h
        · rename_i hn
          cases hb : bump (toks ++ [⟨.primitive, pos, some q, 0⟩]) sup with
          | ub => rw [hb] at h; cases h
          | ok toks' =>
            rw [hb] at h
            rw [bind'_ok] at h
            have hl' : r'.length < (c :: r).length := by rw [hu]; simp; omega
            split
            · rename_i hx'; rw [hx] at hx'; cases hx'
            rename_i q2 r2 hx'
            rw [hx] at hx'
            cases hx'
            rw [if_neg (by omega), hb, bind'_ok]
            exact ih r'.length hl' r' _ _ _ (.inr hr') h rfl

/-- The tokens are those given, except for the number of children of the last one, and possibly more (auxiliary notion for the
tokens of `jsmn_parse`, called at /repo/src/voucher/voucher.c:806-810, which a longer text leaves as they are). -/
def Keep (T toks : List Tok) : Prop :=
  ∀ i t, T[i]? = some t → ∃ u, toks[i]? = some u ∧ u.type = t.type ∧ u.start = t.start ∧ u.stop = t.stop ∧
    (i + 1 < T.length → u.size = t.size)

theorem Keep.refl (T : List Tok) : Keep T T := fun _ t h => ⟨t, h, rfl, rfl, rfl, fun _ => rfl⟩

theorem Keep.len {T toks : List Tok} (h : Keep T toks) : T.length ≤ toks.length := by
  cases hT : T.length with
  | zero => omega
  | succ n =>
    obtain ⟨u, hu, -⟩ := h n T[n] (List.getElem?_eq_getElem (by omega))
    have := (List.getElem?_eq_some_iff.1 hu).1
    omega

theorem Keep.append {T toks : List Tok} (h : Keep T toks) (x : List Tok) : Keep T (toks ++ x) := by
  intro i t ht
  obtain ⟨u, hu, h'⟩ := h i t ht
  exact ⟨u, by rw [List.getElem?_append_left (List.getElem?_eq_some_iff.1 hu).1]; exact hu, h'⟩

theorem Keep.bump {T toks toks' : List Tok} (h : Keep T toks) {sup : Option Nat} (hs : ∀ j, sup = some j → T.length ≤ j + 1)
    (hb : bump toks sup = .ok toks') : Keep T toks' ∧ toks'.length = toks.length := by
  unfold Jsmn.bump at hb
  split at hb
  · cases hb; exact ⟨h, rfl⟩
  · rename_i j
    split at hb
    · rename_i t0 ht0
      cases hb
      refine ⟨?_, by simp⟩
      intro i t ht
      obtain ⟨u, hu, h1, h2, h3, h4⟩ := h i t ht
      by_cases hij : j = i
      · subst hij
        rw [hu] at ht0
        obtain rfl := Option.some.inj ht0
        refine ⟨{ u with size := u.size + 1 }, ?_, h1, h2, h3, ?_⟩
        · rw [List.getElem?_set_self (List.getElem?_eq_some_iff.1 hu).1]
        · intro hlt
          have := hs j rfl
          omega
      · exact ⟨u, by rw [List.getElem?_set_ne hij]; exact hu, h1, h2, h3, h4⟩
    · cases hb

theorem Keep.open_after {T toks : List Tok} (h : Keep T toks) (hT : lastOpen T T.length = none) {n j : Nat}
    (hj : lastOpen toks n = some j) : T.length ≤ j := by
  obtain ⟨h1, t, h2, h3⟩ := lastOpen_some hj
  refine Nat.le_of_not_lt fun hlt => ?_
  obtain ⟨u, hu, -, -, h4, -⟩ := h j T[j] (List.getElem?_eq_getElem hlt)
  rw [h2] at hu
  cases hu
  exact lastOpen_none hT j hlt T[j] (List.getElem?_eq_getElem hlt) (by rw [← h4]; exact h3)

/-- Closed tokens stay as they are, except that the last one can get children. -/
theorem parseLoop_keep (num : Nat) (T : List Tok) (hT : lastOpen T T.length = none) (rest : Bytes) (pos : Nat)
    (toks : List Tok) (sup : Option Nat) (ts : List Tok) (hk : Keep T toks) (hs : ∀ j, sup = some j → T.length ≤ j + 1)
    (h : parseLoop num rest pos toks sup = .ok (.ok ts)) : Keep T ts := by
  induction hl : rest.length using Nat.strongRecOn generalizing rest pos toks sup with
  | ind L ih =>
  have hlen := hk.len
  cases rest with
  | nil =>
    rw [parseLoop] at h
    split at h
    · cases h
    · cases h; exact hk
  | cons c r =>
    rw [parseLoop.eq_def] at h
    dsimp only at h
    split at h
    · split at h
      · cases h
      · cases h; exact hk
    split at h
    · split at h
      · cases h
      · cases hb : bump toks sup with
        | ub => rw [hb] at h; cases h
        | ok toks' =>
          rw [hb] at h
          obtain ⟨k1, k2⟩ := hk.bump hs hb
          refine ih r.length (by simp at hl; omega) _ _ _ _ (k1.append _) ?_ h rfl
          intro j hj
          cases hj
          omega
    split at h
    · split at h
      · cases h
      · rename_i j hj
        split at h
        · cases h
        · rename_i t hjt
          generalize (if c = 125 then TokType.object else TokType.array) = ty at h
          split at h
          · cases h
          · have hjl := hk.open_after hT hj
            have hk' : Keep T (toks.set j { t with stop := some (pos + 1) }) := by
              intro i t' ht'
              obtain ⟨u, hu, h'⟩ := hk i t' ht'
              have := (List.getElem?_eq_some_iff.1 ht').1
              exact ⟨u, by rw [List.getElem?_set_ne (by omega)]; exact hu, h'⟩
            refine ih r.length (by simp at hl; omega) _ _ _ _ hk' ?_ h rfl
            intro j' hj'
            have := hk'.open_after hT hj'
            omega
    split at h
    · split at h
      · cases h
      · rename_i q r' hq
        have hpos := scanString_pos _ _ _ _ _ hq
        split at h
        · cases h
        · cases hb : bump (toks ++ [⟨.string, pos + 1, some q, 0⟩]) sup with
          | ub => rw [hb] at h; cases h
          | ok toks' =>
            rw [hb] at h
            exact ih r'.length (by simp at hl; omega) _ _ _ _ ((hk.append _).bump hs hb).1 hs h rfl
    split at h
    · exact ih r.length (by simp at hl; omega) _ _ _ _ hk hs h rfl
    split at h
    · refine ih r.length (by simp at hl; omega) _ _ _ _ hk ?_ h rfl
      intro j hj
      split at hj
      · cases hj
      · cases hj; omega
    split at h
    · split at h
      · exact ih r.length (by simp at hl; omega) _ _ _ _ hk (by simp) h rfl
      · rename_i i
        split at h
        · cases h
        · split at h
          · exact ih r.length (by simp at hl; omega) _ _ _ _ hk hs h rfl
          · refine ih r.length (by simp at hl; omega) _ _ _ _ hk ?_ h rfl
            intro j hj
            split at hj
            · rename_i j' hj'
              cases hj
              have := hk.open_after hT hj'
              omega
            · exact hs j hj
    split at h
    · cases h
    · split at h
      · cases h
      · rename_i q r' hq
        have hpos := scanPrim_pos _ _ _ _ hq
        split at h
        · cases h
        · cases hb : bump (toks ++ [⟨.primitive, pos, some q, 0⟩]) sup with
          | ub => rw [hb] at h; cases h
          | ok toks' =>
            rw [hb] at h
            exact ih r'.length (by simp at hl; omega) _ _ _ _ ((hk.append _).bump hs hb).1 hs h rfl

end Brski.Jsmn

namespace Brski.Props
open Outcome Brski.Voucher VoucherJson Jsmn Spec

theorem tokBytes_more {js b : Bytes} {t u : Tok} (x : Bytes) (h1 : u.start = t.start) (h2 : u.stop = t.stop)
    (h : tokBytes js t = .ok b) : tokBytes (js ++ x) u = .ok b := by
  unfold tokBytes span slice at h ⊢
  rw [h2]
  cases hs : t.stop with
  | none => rw [hs] at h; cases h
  | some e =>
    rw [hs] at h
    simp only at h ⊢
    rw [h1]
    split at h
    · rename_i hle
      rw [if_pos hle]
      rw [bind'_ok] at h ⊢
      split at h
      · rename_i hl
        rw [if_pos (by simp at hl ⊢; omega)]
        cases h
        rw [List.drop_append_of_le_length (by simp at hl; omega), List.take_append_of_le_length (by simp at hl ⊢; omega)]
      · cases h
    · cases h

theorem strncmpEq_more (a b x : Bytes) (n : Nat) : ∀ e, strncmpEq a b n = .ok e → strncmpEq a (b ++ x) n = .ok e := by
  fun_induction strncmpEq a b n with
  | case1 => intro e h; cases h; simp [strncmpEq]
  | case2 => intro e h; cases h
  | case3 => intro e h; cases h; simp [strncmpEq]
  | case4 x a b n ih => intro e h; simp only [List.cons_append, strncmpEq, if_true]; exact ih e h
  | case5 y a c b n hne => intro e h; cases h; simp [strncmpEq, hne]

/-- The members read are the same. -/
theorem memberLoop_more (env : Env) (js x : Bytes) (T us : List Tok) (hk : Keep T us) (idx : Nat) :
    ∀ (n j : Nat) (v : Option Voucher) (r : Option Voucher), memberLoop env js T idx n j v = .ok (some r) →
      memberLoop env (js ++ x) us idx n j v = .ok (some r) := by
  intro n
  induction n with
  | zero => intro j v r h; exact h
  | succ n ih =>
    intro j v r h
    rw [memberLoop] at h ⊢
    have hlen := hk.len
    split at h
    · rename_i hl
      rw [if_pos (by omega)]
      obtain ⟨u1, e1, -, a2, a3, -⟩ := hk _ _ (List.getElem?_eq_getElem hl.1)
      obtain ⟨u2, e2, -, b2, b3, -⟩ := hk _ _ (List.getElem?_eq_getElem hl.2)
      rw [List.getElem?_eq_getElem hl.1, List.getElem?_eq_getElem hl.2] at h
      rw [e1, e2]
      simp only at h ⊢
      cases h1 : tokBytes js T[idx + j * 2 + 1] with
      | ub => rw [h1] at h; cases h
      | ok key =>
        cases h2 : tokBytes js T[idx + (j * 2 + 1) + 1] with
        | ub => rw [h1, h2] at h; cases h
        | ok value =>
          rw [h1, h2] at h
          rw [tokBytes_more x a2 a3 h1, tokBytes_more x b2 b3 h2]
          rw [bind'_ok, bind'_ok] at h ⊢
          cases h3 : setKeyvalue env (2 * j + 1) v key value with
          | ub => rw [h3] at h; cases h
          | ok q =>
            rw [h3] at h
            rw [bind'_ok] at h ⊢
            split at h
            · rename_i hq
              rw [if_pos hq]
              exact ih _ _ _ h
            · cases h
    · cases h

/-- The first member with the name of a voucher is found again; its object gets members only if it was the last token of
the text. -/
theorem rootLoop_more (env : Env) (js x : Bytes) (T us : List Tok) (hk : Keep T us) (v : Option Voucher) :
    ∀ (m idx : Nat) (r r' : Option Voucher), T.length = idx + m →
      rootLoop env js T v (T.drop idx) idx = .ok (some r) →
      rootLoop env (js ++ x) us v (us.drop idx) idx = .ok (some r') →
      r = r' ∨ (r = v ∧ ∃ t, T[T.length - 1]? = some t ∧ t.type = .object) := by
  intro m
  induction m with
  | zero =>
    intro idx r r' hm h
    rw [List.drop_of_length_le (by omega)] at h
    cases h
  | succ m ih =>
    intro idx r r' hm h h'
    have hi : idx < T.length := by omega
    have hlen := hk.len
    obtain ⟨u, e1, -, a2, a3, -⟩ := hk _ _ (List.getElem?_eq_getElem hi)
    obtain ⟨hu, e1⟩ := List.getElem?_eq_some_iff.1 e1
    rw [List.drop_eq_getElem_cons hi, rootLoop.eq_def] at h
    rw [List.drop_eq_getElem_cons hu, rootLoop.eq_def, e1] at h'
    dsimp only at h h'
    cases hsp : span T[idx] with
    | ub => rw [hsp] at h; cases h
    | ok p =>
      have hsp' : span u = .ok p := by
        unfold span at hsp ⊢
        rw [a2, a3]
        exact hsp
      rw [hsp] at h
      rw [hsp'] at h'
      rw [bind'_ok] at h h'
      unfold suffix at h h'
      split at h
      · rename_i hl
        rw [if_pos (by simp; omega), List.drop_append_of_le_length hl] at h'
        rw [bind'_ok] at h h'
        cases hc : strncmpEq rootName (js.drop p.1) p.2 with
        | ub => rw [hc] at h; cases h
        | ok e =>
          rw [hc] at h
          rw [strncmpEq_more _ _ x _ _ hc] at h'
          rw [bind'_ok] at h h'
          cases e with
          | false =>
            rw [if_neg (by decide)] at h h'
            exact ih (idx + 1) r r' (by omega) h h'
          | true =>
            rw [if_pos rfl] at h h'
            by_cases hi2 : idx + 1 < T.length
            · obtain ⟨u2, e2, b1, -, -, b4⟩ := hk _ _ (List.getElem?_eq_getElem hi2)
              obtain ⟨hu2, e2⟩ := List.getElem?_eq_some_iff.1 e2
              rw [List.drop_eq_getElem_cons hi2] at h
              rw [List.drop_eq_getElem_cons hu2, e2] at h'
              dsimp only at h h'
              split at h
              · rename_i hty
                rw [if_pos (by rw [b1]; exact hty)] at h'
                by_cases hlast : idx + 1 + 1 < T.length
                · rw [b4 hlast] at h'
                  have := memberLoop_more env js x T us hk _ _ _ _ _ h
                  rw [this] at h'
                  cases h'
                  exact .inl rfl
                · refine .inr ⟨?_, T[idx + 1], ?_, hty⟩
                  · cases hz : T[idx + 1].size with
                    | zero => rw [hz] at h; cases h; rfl
                    | succ k =>
                      rw [hz, memberLoop] at h
                      rw [if_neg (by omega)] at h
                      cases h
                  · rw [← List.getElem?_eq_getElem hi2]
                    congr 1
                    omega
              · cases h
            · rw [List.drop_of_length_le (by omega)] at h
              cases h
      · cases h

/-- Text after a complete document does not change the voucher, unless the last thing in the document is an empty object. -/
theorem deserialize_more (env : Env) (p x : Bytes) (hp : Ended p) {v w : Voucher} (h : deserialize env p = .ok (some v))
    (h' : deserialize env (p ++ x) = .ok (some w)) :
    v = w ∨ (v = Voucher.init ∧ ∃ T t, parse 32 p = .ok (.ok T) ∧ T[T.length - 1]? = some t ∧ t.type = .object) := by
  unfold deserialize at h h'
  cases hT : parse 32 p with
  | ub => rw [hT] at h; cases h
  | ok rT =>
    cases hU : parse 32 (p ++ x) with
    | ub => rw [hU] at h'; cases h'
    | ok rU =>
      rw [hT] at h
      rw [hU] at h'
      rw [bind'_ok] at h h'
      cases rT with
      | error e => cases h
      | ok T =>
        cases rU with
        | error e => cases h'
        | ok U =>
          have hk : Keep T U := by
            obtain ⟨hc, y, pos', e⟩ := parseLoop_then 32 32 (Nat.le_refl _) p x 0 [] none T (.inr hp) hT
            unfold parse at hU
            rw [e] at hU
            exact parseLoop_keep 32 T hc y pos' T none U (Keep.refl T) (by simp) hU
          have hlen := hk.len
          cases T with
          | nil => cases h
          | cons t T =>
            cases U with
            | nil => cases h'
            | cons u U =>
              dsimp only at h h'
              split at h
              · cases h
              split at h'
              · cases h'
              cases hr : rootLoop env p (t :: T) (((env.mem 0).malloc 240).map fun _ => Voucher.init) T 1 with
              | ub => rw [hr] at h; cases h
              | ok r =>
                cases hr' : rootLoop env (p ++ x) (u :: U) (((env.mem 0).malloc 240).map fun _ => Voucher.init) U 1 with
                | ub => rw [hr'] at h'; cases h'
                | ok r' =>
                  rw [hr, bind'_ok] at h
                  rw [hr', bind'_ok] at h'
                  cases r with
                  | none => cases h
                  | some r =>
                    cases r' with
                    | none => cases h'
                    | some r' =>
                      simp only [Option.getD_some, ok.injEq] at h h'
                      subst h h'
                      rcases rootLoop_more env p x _ _ hk _ T.length 1 _ _ (by simp; omega) hr hr' with e | ⟨e, t', ht'⟩
                      · cases e; exact .inl rfl
                      · refine .inr ⟨?_, _, t', rfl, ht'⟩
                        cases hm : (env.mem 0).malloc 240 with
                        | none => rw [hm] at e; cases e
                        | some b => rw [hm] at e; cases e; rfl

end Brski.Props
