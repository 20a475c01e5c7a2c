import Verif.CutLemmas

/-!
# Multipart content that arrives in pieces (lemmas)

A correct form is understood in whatever pieces it arrives, when the first boundary is not cut.
-/

namespace Brski.Cut
open Outcome Routes

/-! ## Searching -/

theorem findAt_le (p : Bytes) : ∀ s, findAt p s ≤ s.length
  | [] => Nat.le_refl _
  | c :: s => by
    unfold findAt
    split
    · exact Nat.zero_le _
    · have := findAt_le p s
      simp only [List.length_cons]
      omega

theorem isPrefixOf_append {p s : Bytes} (h : p.isPrefixOf s = true) (t : Bytes) : p.isPrefixOf (s ++ t) = true :=
  List.isPrefixOf_iff_prefix.2 ((List.isPrefixOf_iff_prefix.1 h).trans (List.prefix_append s t))

/-- An occurrence stays where it is when more follows. -/
theorem findAt_append {p s : Bytes} (h : findAt p s < s.length) (t : Bytes) : findAt p (s ++ t) = findAt p s := by
  induction s with
  | nil => simp at h
  | cons c s ih =>
    rw [List.cons_append]
    unfold findAt at h ⊢
    by_cases hp : p.isPrefixOf (c :: s) = true
    · rw [if_pos hp, if_pos (by rw [← List.cons_append]; exact isPrefixOf_append hp t)]
    · rw [if_neg hp] at h
      have hlt : findAt p s < s.length := by simpa using h
      have hnp : ¬ p.isPrefixOf (c :: (s ++ t)) = true := by
        intro hq
        apply hp
        have h1 := List.isPrefixOf_iff_prefix.1 hq
        have h2 := (prefix_at hlt)
        exact List.isPrefixOf_iff_prefix.2 (List.prefix_of_prefix_length_le h1 (by rw [← List.cons_append]; exact List.prefix_append _ _) (by
          simp only [List.length_cons]
          omega))
      rw [if_neg hnp, if_neg hp, ih hlt]
where
  prefix_at {p : Bytes} : ∀ {s : Bytes}, findAt p s < s.length → p.length ≤ s.length
    | [], h => by simp at h
    | c :: s, h => by
      unfold findAt at h
      split at h
      · rename_i hp
        exact (List.isPrefixOf_iff_prefix.1 hp).length_le
      · have := prefix_at (p := p) (s := s) (by simpa using h)
        simp only [List.length_cons]
        omega

/-- What was skipped does not matter. -/
theorem findAt_drop {p s : Bytes} {k : Nat} (h : k ≤ findAt p s) : findAt p (s.drop k) = findAt p s - k := by
  induction k generalizing s with
  | zero => simp
  | succ k ih =>
    cases s with
    | nil => simp [findAt] at h
    | cons c s =>
      rw [List.drop_succ_cons]
      have hs : findAt p (c :: s) = findAt p s + 1 := by
        rw [findAt] at h ⊢
        split at h
        · omega
        · rename_i hp
          rw [if_neg hp]
      rw [hs] at h ⊢
      rw [ih (by omega)]
      omega

/-- The text found. -/
theorem findAt_prefix {p : Bytes} : ∀ {s : Bytes}, findAt p s < s.length → p <+: s.drop (findAt p s)
  | [], h => by simp at h
  | c :: s, h => by
    unfold findAt at h ⊢
    split at h
    · rename_i hp
      rw [if_pos hp]
      exact List.isPrefixOf_iff_prefix.1 hp
    · rename_i hp
      rw [if_neg hp, List.drop_succ_cons]
      exact findAt_prefix (by simpa using h)

/-- Found only when it is there completely. -/
theorem findAt_fits {p s : Bytes} (h : findAt p s < s.length) : findAt p s + p.length ≤ s.length := by
  have := (findAt_prefix h).length_le
  rw [List.length_drop] at this
  omega

/-- Conversely, the first occurrence in a text is found in every beginning of the text that contains it. -/
theorem findAt_take {p a b : Bytes} (hf : findAt p (a ++ b) + p.length ≤ a.length) (hp : p ≠ []) : findAt p a = findAt p (a ++ b) := by
  have hpos : 0 < p.length := List.length_pos_iff.2 hp
  induction a with
  | nil => rw [List.length_nil] at hf; omega
  | cons c a ih =>
    rw [List.cons_append] at hf ⊢
    unfold findAt at hf ⊢
    by_cases hq : p.isPrefixOf (c :: (a ++ b)) = true
    · rw [if_pos hq] at hf ⊢
      have h1 := List.isPrefixOf_iff_prefix.1 hq
      rw [if_pos]
      exact List.isPrefixOf_iff_prefix.2 (List.prefix_of_prefix_length_le h1 (by rw [← List.cons_append]; exact List.prefix_append _ _)
        (by omega))
    · rw [if_neg hq] at hf ⊢
      rw [if_neg fun h => hq (by rw [← List.cons_append]; exact isPrefixOf_append h b), ih (by simp only [List.length_cons] at hf; omega)]

/-! ## Correct forms -/

/-- What a parser in this state may still read up to the end of a correct form (specification, RFC 2046 section 5.1.1): after a
boundary the final dashes, perhaps with a line end, or a line end and a part; a part has lines of header fields that are accepted and not too long, an empty
line, and content up to the next boundary; no more than 1024 parts. -/
inductive Good (ok : Bytes → Bool) (bd : Bytes) : Phase → Nat → Bytes → Prop
  | last (n : Nat) {e : Bytes} : e = [] ∨ e = crlf → Good ok bd .boundary n (dash ++ e)
  | more {n t} : Good ok bd .entry n t → Good ok bd .boundary n (crlf ++ t)
  | entry {n t} : Good ok bd .headers n t → Good ok bd .entry n t
  | line {n l t} : l ≠ [] → findAt crlf (l ++ crlf) = l.length → l.length < 8192 → ok l = true → Good ok bd .headers n t →
      Good ok bd .headers n (l ++ crlf ++ t)
  | blank {n t} : n < 1024 → Good ok bd .body (n + 1) t → Good ok bd .headers n (crlf ++ t)
  | content {n c t} : findAt (crlf ++ dash ++ bd) (c ++ (crlf ++ dash ++ bd)) = c.length → Good ok bd .boundary n t →
      Good ok bd .body n (c ++ (crlf ++ dash ++ bd) ++ t)

variable {ok : Bytes → Bool} {bd : Bytes}

theorem Good.ne_nil {ph : Phase} {n : Nat} {t : Bytes} (h : Good ok bd ph n t) : t ≠ [] := by
  induction h with
  | last n _ => simp [dash]
  | more h _ => simp [crlf]
  | entry _ ih => exact ih
  | line h _ _ _ _ _ => simp [crlf]
  | blank _ _ _ => simp [crlf]
  | content _ _ _ => simp [crlf]

/-- The lines of header fields. -/
theorem headerLoop_good {n : Nat} {t : Bytes} (h : Good ok bd .headers n t) {buf rest : Bytes} (ht : t = buf ++ rest) :
    findAt crlf buf ≤ 8192 ∧
      ((∃ b, headerLoop ok n buf = some (true, b, n + 1) ∧ Good ok bd .body (n + 1) (b ++ rest)) ∨
        ∃ b, headerLoop ok n buf = some (false, b, n) ∧ rest ≠ [] ∧ Good ok bd .headers n (b ++ rest)) := by
  generalize hph : Phase.headers = ph at h
  induction h generalizing buf with
  | last => cases hph
  | more => cases hph
  | entry => cases hph
  | content => cases hph
  | @line n l t h1 h2 h3 h4 h5 ih =>
    have hall : findAt crlf (buf ++ rest) = l.length := by
      rw [← ht, findAt_append (by rw [h2]; simp [crlf])]
      exact h2
    by_cases hf : l.length + 2 ≤ buf.length
    · have hb : findAt crlf buf = l.length := by
        rw [findAt_take (by rw [hall]; exact hf) (by decide), hall]
      refine ⟨by omega, ?_⟩
      have hbuf : buf.drop (l.length + 2) ++ rest = t := by
        have : (buf ++ rest).drop (l.length + 2) = t := by
          rw [← ht]
          have : (l ++ crlf).length = l.length + 2 := by simp [crlf]
          rw [← this, List.drop_left]
        rw [← this, List.drop_append_of_le_length (by omega)]
      have htake : buf.take l.length = l := by
        have : (buf ++ rest).take l.length = l := by
          rw [← ht, List.append_assoc, List.take_left]
        rw [List.take_append_of_le_length (by omega)] at this
        exact this
      have hl0 : l.length ≠ 0 := fun h => h1 (List.length_eq_zero_iff.1 h)
      rw [headerLoop, dif_pos (by omega), hb, if_neg hl0, htake, if_pos h4]
      exact (ih hbuf.symm rfl).2
    · have hb : ¬ findAt crlf buf < buf.length := by
        intro hlt
        have h6 := findAt_fits hlt
        have h7 := findAt_append hlt rest
        rw [hall] at h7
        rw [← h7] at h6
        exact hf h6
      have hle := findAt_le crlf buf
      refine ⟨by omega, .inr ⟨buf, ?_, ?_, ?_⟩⟩
      · rw [headerLoop, dif_neg hb]
      · rintro rfl
        rw [List.append_nil] at ht
        rw [← ht] at hf
        simp only [List.length_append, crlf, List.length_cons, List.length_nil] at hf
        omega
      · rw [← ht]
        exact .line h1 h2 h3 h4 h5
  | @blank n t h1 h2 _ =>
    have hall : findAt crlf (buf ++ rest) = 0 := by
      rw [← ht]
      simp [crlf, findAt, List.isPrefixOf]
    by_cases hf : 2 ≤ buf.length
    · have hb : findAt crlf buf = 0 := by
        rw [findAt_take (by rw [hall]; simpa [crlf] using hf) (by decide), hall]
      refine ⟨by omega, .inl ⟨buf.drop 2, ?_, ?_⟩⟩
      · rw [headerLoop, dif_pos (by omega), hb, if_pos rfl, if_neg (by omega)]
      · have : (buf ++ rest).drop 2 = t := by rw [← ht]; rfl
        rw [List.drop_append_of_le_length hf] at this
        rw [this]
        exact h2
    · have hb : ¬ findAt crlf buf < buf.length := by
        intro hlt
        have h6 := findAt_fits hlt
        have : crlf.length = 2 := rfl
        omega
      have hle := findAt_le crlf buf
      refine ⟨by omega, .inr ⟨buf, ?_, ?_, ?_⟩⟩
      · rw [headerLoop, dif_neg hb]
      · rintro rfl
        rw [List.append_nil] at ht
        rw [← ht] at hf
        simp [crlf] at hf
      · rw [← ht]
        exact .blank h1 h2

theorem loop_step (ok : Bytes → Bool) (p : Parser) : Parser.loop ok p =
    if p.buf = [] then some p
    else
      match p.phase with
      | .first =>
        let b := p.buf.drop (findAt p.opening p.buf)
        if p.opening.length > b.length then some { p with buf := b }
        else if p.opening.isPrefixOf b then Parser.loop ok { p with buf := b.drop p.opening.length, phase := .entry }
        else none
      | .entry => Parser.loop ok { p with phase := .headers }
      | .headers =>
        if findAt crlf p.buf > 8192 then none
        else
          match headerLoop ok p.files p.buf with
          | none => none
          | some (true, b, n) => Parser.loop ok { p with buf := b, files := n, phase := .body }
          | some (false, b, n) => some { p with buf := b, files := n }
      | .body =>
        if p.closing.length > p.buf.length then some p
        else if findAt p.closing p.buf < p.buf.length then
          Parser.loop ok { p with buf := p.buf.drop (findAt p.closing p.buf + p.closing.length), phase := .boundary }
        else some { p with buf := p.buf.drop (p.buf.length - p.closing.length) }
      | .boundary =>
        if 2 > p.buf.length then some p
        else if crlf.isPrefixOf p.buf then Parser.loop ok { p with buf := p.buf.drop 2, phase := .entry }
        else if dash.isPrefixOf p.buf then some { p with buf := [], valid := true }
        else some p := by
  rw [Parser.loop.eq_def]
  by_cases h : p.buf = []
  · rw [dif_pos h, if_pos h]
  · rw [dif_neg h, if_neg h]
    split <;> rename_i hp <;> simp only [hp]
    split
    · rfl
    · split <;> rename_i h2 <;> simp only [h2]

/-- The form is complete but for a line end. -/
def Finished (q : Parser) (rest : Bytes) : Prop := q.valid = true ∧ (rest = [] ∨ (q.phase = .boundary ∧ q.buf ++ rest <:+ crlf))

/-- What holds after a piece: nothing of the form is lost, and after the last piece the form is complete. -/
def Onward (ok : Bytes → Bool) (rest : Bytes) (o : Option Parser) : Prop :=
  ∃ q, o = some q ∧ (Finished q rest ∨ (rest ≠ [] ∧ Good ok q.boundary q.phase q.files (q.buf ++ rest)))

theorem loop_finished {p : Parser} {rest : Bytes} (hv : p.valid = true) (hp : p.phase = .boundary) (hb : p.buf ++ rest <:+ crlf) :
    ∃ q, Parser.loop ok p = some q ∧ Finished q rest := by
  rw [loop_step, hp]
  by_cases h0 : p.buf = []
  · rw [if_pos h0]
    exact ⟨p, rfl, hv, .inr ⟨hp, hb⟩⟩
  · rw [if_neg h0]
    dsimp only
    by_cases h2 : 2 > p.buf.length
    · rw [if_pos h2]
      exact ⟨p, rfl, hv, .inr ⟨hp, hb⟩⟩
    · rw [if_neg h2]
      have hl := hb.length_le
      have hc : crlf.length = 2 := rfl
      rw [List.length_append] at hl
      have hr : rest = [] := List.length_eq_zero_iff.1 (by omega)
      subst hr
      rw [List.append_nil] at hb
      have e : p.buf = crlf := hb.eq_of_length (by simp only [List.length_nil] at hl; omega)
      rw [e, if_pos (by decide), loop_step]
      exact ⟨_, if_pos rfl, hv, .inl rfl⟩

theorem loop_good (p : Parser) (rest : Bytes) (h : Good ok p.boundary p.phase p.files (p.buf ++ rest)) :
    Onward ok rest (Parser.loop ok p) := by
  have stay : rest ≠ [] → Onward ok rest (some p) := fun hr => ⟨p, rfl, .inr ⟨hr, h⟩⟩
  rw [loop_step]
  by_cases h0 : p.buf = []
  · rw [if_pos h0]
    refine stay ?_
    rintro rfl
    rw [h0] at h
    exact h.ne_nil rfl
  · rw [if_neg h0]
    have hpos : 0 < p.buf.length := List.length_pos_iff.2 h0
    cases hph : p.phase with
    | first => rw [hph] at h; cases h
    | entry =>
      dsimp only
      rw [hph] at h
      cases h with
      | entry hg => exact loop_good { p with phase := .headers } rest hg
    | headers =>
      dsimp only
      rw [hph] at h
      obtain ⟨h8, h1⟩ := headerLoop_good h rfl
      rw [if_neg (by omega)]
      rcases h1 with ⟨b, h1, h2⟩ | ⟨b, h1, h2, h3⟩
      · rw [h1]
        dsimp only
        have := headerLoop_lt h1
        exact loop_good { p with buf := b, files := p.files + 1, phase := .body } rest h2
      · rw [h1]
        exact ⟨_, rfl, .inr ⟨h2, h3⟩⟩
    | body =>
      dsimp only
      rw [hph] at h
      generalize ht : p.buf ++ rest = t at h
      cases h with
      | @content n c u h1 h2 =>
        have hL : p.closing = crlf ++ dash ++ p.boundary := rfl
        have hLp : 4 ≤ p.closing.length := by rw [hL]; simp [crlf, dash]
        rw [← hL] at h1 ht
        have hall : findAt p.closing (p.buf ++ rest) = c.length := by
          rw [ht, findAt_append (by rw [h1, List.length_append]; omega)]
          exact h1
        have hlen := congrArg List.length ht
        simp only [List.length_append] at hlen
        by_cases hf : c.length + p.closing.length ≤ p.buf.length
        · have hb : findAt p.closing p.buf = c.length := by
            rw [findAt_take (by rw [hall]; exact hf) (by intro h; rw [h] at hLp; simp at hLp), hall]
          rw [if_neg (by omega), if_pos (by omega), hb]
          have hd : p.buf.drop (c.length + p.closing.length) ++ rest = u := by
            have : (p.buf ++ rest).drop (c.length + p.closing.length) = u := by
              rw [ht, ← List.length_append, List.drop_left]
            rw [← this, List.drop_append_of_le_length hf]
          exact loop_good { p with buf := p.buf.drop (c.length + p.closing.length), phase := .boundary } rest
            (by dsimp only; rw [hd]; exact h2)
        · have hr : rest ≠ [] := by
            rintro rfl
            simp at hlen
            omega
          by_cases hs : p.closing.length > p.buf.length
          · rw [if_pos hs]
            exact stay hr
          · have hnf : ¬ findAt p.closing p.buf < p.buf.length := by
              intro hlt
              have h6 := findAt_fits hlt
              have h7 := findAt_append hlt rest
              rw [hall] at h7
              omega
            rw [if_neg hs, if_neg hnf]
            refine ⟨_, rfl, .inr ⟨hr, ?_⟩⟩
            dsimp only
            have hk : p.buf.length - p.closing.length ≤ c.length := by omega
            have e : p.buf.drop (p.buf.length - p.closing.length) ++ rest =
                c.drop (p.buf.length - p.closing.length) ++ (crlf ++ dash ++ p.boundary) ++ u := by
              rw [← hL, ← List.drop_append_of_le_length (l₂ := rest) (by omega), ht, List.append_assoc, List.append_assoc,
                List.drop_append_of_le_length hk]
            rw [e]
            refine .content ?_ h2
            rw [← hL, ← List.drop_append_of_le_length hk, findAt_drop (by omega), h1, List.length_drop]
    | boundary =>
      dsimp only
      rw [hph] at h
      generalize ht : p.buf ++ rest = t at h
      cases h with
      | @last _ e he =>
        have hd : dash.length = 2 := rfl
        by_cases h2 : 2 > p.buf.length
        · rw [if_pos h2]
          refine stay ?_
          rintro rfl
          have hl := congrArg List.length ht
          simp only [List.append_nil, List.length_append] at hl
          omega
        · rw [if_neg h2]
          have hpre : dash <+: p.buf :=
            List.prefix_of_prefix_length_le (l₃ := p.buf ++ rest) (by rw [ht]; exact List.prefix_append _ _) (List.prefix_append _ _)
              (by omega)
          obtain ⟨e', hb⟩ := hpre
          rw [← hb, List.append_assoc] at ht
          have he' := List.append_cancel_left ht
          rw [← hb, if_neg (by simp [crlf, dash, List.isPrefixOf]), if_pos (List.isPrefixOf_iff_prefix.2 (List.prefix_append _ _))]
          refine ⟨_, rfl, .inl ⟨rfl, .inr ⟨rfl, ?_⟩⟩⟩
          show [] ++ rest <:+ crlf
          rcases he with rfl | rfl
          · have : rest = [] := (List.append_eq_nil_iff.1 he').2
            rw [this]
            exact List.nil_suffix
          · rw [← he', List.nil_append]
            exact List.suffix_append _ _
      | @more n u hg =>
        by_cases h2 : 2 > p.buf.length
        · rw [if_pos h2]
          refine stay ?_
          rintro rfl
          have hl := congrArg List.length ht
          simp [crlf] at hl
          omega
        · rw [if_neg h2]
          have hpre : crlf <+: p.buf :=
            List.prefix_of_prefix_length_le (l₃ := p.buf ++ rest) (by rw [ht]; exact List.prefix_append _ _) (List.prefix_append _ _)
              (by simp [crlf]; omega)
          rw [if_pos (List.isPrefixOf_iff_prefix.2 hpre)]
          have hd : p.buf.drop 2 ++ rest = u := by
            have : (p.buf ++ rest).drop 2 = u := by rw [ht]; rfl
            rw [← this, List.drop_append_of_le_length (by omega)]
          exact loop_good { p with buf := p.buf.drop 2, phase := .entry } rest (by dsimp only; rw [hd]; exact hg)
termination_by 2 * p.buf.length + p.phase.rank
decreasing_by
  all_goals simp only [hph, Phase.rank]
  · omega
  · omega
  · rw [List.length_drop]; omega
  · rw [List.length_drop]; omega

theorem pieces_finished (ps : List Bytes) {p : Parser} (h : Finished p ps.flatten) (hps : ∀ b ∈ ps, b ≠ []) :
    ∃ q, ps.foldlM (Parser.parse ok) p = some q ∧ q.valid = true := by
  induction ps generalizing p with
  | nil => exact ⟨p, rfl, h.1⟩
  | cons b ps ih =>
    obtain ⟨hv, h⟩ := h
    rcases h with h | ⟨hp, hb⟩
    · exact absurd (List.flatten_eq_nil_iff.1 h b List.mem_cons_self) (hps b List.mem_cons_self)
    · rw [List.foldlM_cons]
      obtain ⟨q, k1, k2⟩ := loop_finished (ok := ok) (p := { p with buf := p.buf ++ b }) (rest := ps.flatten) hv hp (by simpa using hb)
      have k1 : Parser.parse ok p b = some q := k1
      rw [k1]
      exact ih k2 fun x hx => hps x (List.mem_cons_of_mem _ hx)

/-- A correct form is understood in any pieces. -/
theorem pieces_good (ps : List Bytes) {p : Parser} (h : Good ok p.boundary p.phase p.files (p.buf ++ ps.flatten)) (hne : ps ≠ [])
    (hps : ∀ b ∈ ps, b ≠ []) : ∃ q, ps.foldlM (Parser.parse ok) p = some q ∧ q.valid = true := by
  induction ps generalizing p with
  | nil => exact absurd rfl hne
  | cons b ps ih =>
    rw [List.foldlM_cons]
    obtain ⟨q, k1, k2⟩ := loop_good { p with buf := p.buf ++ b } ps.flatten (by simpa using h)
    have k1 : Parser.parse ok p b = some q := k1
    rw [k1]
    show ∃ q', ps.foldlM (Parser.parse ok) q = some q' ∧ q'.valid = true
    have hps' : ∀ x ∈ ps, x ≠ [] := fun x hx => hps x (List.mem_cons_of_mem _ hx)
    rcases k2 with k2 | ⟨k2, k3⟩
    · exact pieces_finished ps k2 hps'
    · exact ih k3 (by rintro rfl; exact k2 rfl) hps'

end Brski.Cut
