import Verif.FormSim
import Verif.PropsCutForm

/-!
# Forms that are read part by part (lemmas)
-/

namespace Brski.Form
open Outcome Routes Scan Cut Props

/-- What a parser in this state may still read up to the end of a correct form, and the parts it has then (see `Cut.Good`). -/
inductive Reads (bd : Bytes) : Phase → File → List File → Bytes → List File → Prop
  | last {f : File} (fs : List File) {e : Bytes} : e = [] ∨ e = crlf → Reads bd .boundary f fs (dash ++ e) fs
  | more {f fs t out} : Reads bd .entry f fs t out → Reads bd .boundary f fs (crlf ++ t) out
  | entry {f fs t out} : Reads bd .headers { f with name := [], filename := [], contentType := [] } fs t out → Reads bd .entry f fs t out
  | line {f g fs l t out} : l ≠ [] → findAt crlf (l ++ crlf) = l.length → l.length < 8192 → readLine f l = some g →
      Reads bd .headers g fs t out → Reads bd .headers f fs (l ++ crlf ++ t) out
  | blank {f fs t out} : fs.length < 1024 → Reads bd .body f (fs ++ [f]) t out → Reads bd .headers f fs (crlf ++ t) out
  | content {f fs c t out} : findAt (crlf ++ dash ++ bd) (c ++ (crlf ++ dash ++ bd)) = c.length →
      Reads bd .boundary f (longer fs c) t out → Reads bd .body f fs (c ++ (crlf ++ dash ++ bd) ++ t) out

variable {bd : Bytes}

theorem Reads.ne_nil {ph : Phase} {f : File} {fs out : List File} {t : Bytes} (h : Reads bd ph f fs t out) : t ≠ [] := by
  induction h with
  | last n _ => simp [dash]
  | more h _ => simp [crlf]
  | entry _ ih => exact ih
  | line h _ _ _ _ _ => simp [crlf]
  | blank _ _ _ => simp [crlf]
  | content _ _ _ => simp [crlf]

/-- The parser may still read `rest`. -/
def Before (l : View) (rest : Bytes) (out : List File) : Prop := Reads l.boundary l.phase l.file l.files (l.buf ++ rest) out

/-- The form is complete but for a line end. -/
def After (l : View) (rest : Bytes) (out : List File) : Prop :=
  l.valid = true ∧ l.files = out ∧ (rest = [] ∨ (l.phase = .boundary ∧ l.buf ++ rest <:+ crlf))

theorem heads_reads {f : File} {fs out : List File} {t : Bytes} {ph : Phase} (h : Reads bd ph f fs t out) (hph : ph = .headers) {l : View} {rest : Bytes}
    (hb : l.boundary = bd) (hp : l.phase = .headers) (hf : l.file = f) (hfs : l.files = fs) (ht : t = l.buf ++ rest) :
    findAt crlf l.buf ≤ 8192 ∧
      ((∃ m, l.heads = .go m ∧ Before m rest out) ∨ ∃ m, l.heads = .wait m ∧ rest ≠ [] ∧ Before m rest out) := by
  induction h generalizing l with
  | last => cases hph
  | more => cases hph
  | entry => cases hph
  | content => cases hph
  | @line f g fs w t out h1 h2 h3 h4 h5 ih =>
    have hall : findAt crlf (l.buf ++ rest) = w.length := by
      rw [← ht, findAt_append (by rw [h2]; simp [crlf])]
      exact h2
    by_cases hfit : w.length + 2 ≤ l.buf.length
    · have hbf : findAt crlf l.buf = w.length := by
        rw [findAt_take (by rw [hall]; exact hfit) (by decide), hall]
      refine ⟨by omega, ?_⟩
      have hbuf : l.buf.drop (w.length + 2) ++ rest = t := by
        have : (l.buf ++ rest).drop (w.length + 2) = t := by
          rw [← ht]
          have : (w ++ crlf).length = w.length + 2 := by simp [crlf]
          rw [← this, List.drop_left]
        rw [← this, List.drop_append_of_le_length (by omega)]
      have htake : l.buf.take w.length = w := by
        have : (l.buf ++ rest).take w.length = w := by
          rw [← ht, List.append_assoc, List.take_left]
        rw [List.take_append_of_le_length (by omega)] at this
        exact this
      have hl0 : w.length ≠ 0 := fun h => h1 (List.length_eq_zero_iff.1 h)
      rw [View.heads, dif_pos (by omega), hbf, if_neg hl0, htake, hf, h4]
      exact (ih rfl (l := { l with file := g, buf := l.buf.drop (w.length + 2) }) hb hp rfl hfs hbuf.symm).2
    · have hbf : ¬ findAt crlf l.buf < l.buf.length := by
        intro hlt
        have h6 := findAt_fits hlt
        have h7 := findAt_append hlt rest
        rw [hall] at h7
        rw [← h7] at h6
        exact hfit h6
      have hle := findAt_le crlf l.buf
      refine ⟨by omega, .inr ⟨l, ?_, ?_, ?_⟩⟩
      · rw [View.heads, dif_neg hbf]
      · rintro rfl
        rw [List.append_nil] at ht
        rw [← ht] at hfit
        simp only [List.length_append, crlf, List.length_cons, List.length_nil] at hfit
        omega
      · rw [Before, hb, hp, hf, hfs, ← ht]
        exact .line h1 h2 h3 h4 h5
  | @blank f fs t out h1 h2 _ =>
    have hall : findAt crlf (l.buf ++ rest) = 0 := by
      rw [← ht]
      simp [crlf, findAt, List.isPrefixOf]
    by_cases hfit : 2 ≤ l.buf.length
    · have hbf : findAt crlf l.buf = 0 := by
        rw [findAt_take (by rw [hall]; simpa [crlf] using hfit) (by decide), hall]
      refine ⟨by omega, .inl ⟨{ l with buf := l.buf.drop 2, phase := .body, files := l.files ++ [l.file] }, ?_, ?_⟩⟩
      · rw [View.heads, dif_pos (by omega), hbf, if_pos rfl, if_neg (by rw [hfs]; omega)]
      · have : (l.buf ++ rest).drop 2 = t := by rw [← ht]; rfl
        rw [List.drop_append_of_le_length hfit] at this
        rw [Before]
        dsimp only
        rw [this, hb, hf, hfs]
        exact h2
    · have hbf : ¬ findAt crlf l.buf < l.buf.length := by
        intro hlt
        have h6 := findAt_fits hlt
        have : crlf.length = 2 := rfl
        omega
      have hle := findAt_le crlf l.buf
      refine ⟨by omega, .inr ⟨l, ?_, ?_, ?_⟩⟩
      · rw [View.heads, dif_neg hbf]
      · rintro rfl
        rw [List.append_nil] at ht
        rw [← ht] at hfit
        simp [crlf] at hfit
      · rw [Before, hb, hp, hf, hfs, ← ht]
        exact .blank h1 h2

theorem longer_longer : ∀ (fs : List File) (x y : Bytes), longer (longer fs x) y = longer fs (x ++ y)
  | [], _, _ => rfl
  | [f], x, y => by simp [longer]
  | f :: g :: fs, x, y => by
    have ih := longer_longer (g :: fs) x y
    have hl := longer_length (g :: fs) x
    rw [longer]
    cases hg : longer (g :: fs) x with
    | nil => rw [hg] at hl; simp at hl
    | cons a as =>
      rw [longer, ← hg, ih]
      rfl

theorem longer_nil : ∀ fs : List File, longer fs [] = fs
  | [] => rfl
  | [f] => by simp [longer]
  | f :: g :: fs => by rw [longer, longer_nil (g :: fs)]

theorem turn_reads {l : View} {rest : Bytes} {out : List File} (h : Before l rest out) (h0 : l.buf ≠ []) :
    (∃ m, l.turn = .wait m ∧ rest ≠ [] ∧ Before m rest out) ∨
      ∃ m, l.turn = .go m ∧ (Before m rest out ∨ (m.valid = true ∧ m.files = out ∧ m.phase = .boundary ∧ m.buf = [] ∧ rest <:+ crlf)) := by
  have stay : rest ≠ [] → (∃ m, Turn.wait l = .wait m ∧ rest ≠ [] ∧ Before m rest out) := fun hr => ⟨l, rfl, hr, h⟩
  have hpos : 0 < l.buf.length := List.length_pos_iff.2 h0
  have h' := h
  unfold Before at h'
  unfold View.turn
  cases hph : l.phase with
  | first => rw [hph] at h'; cases h'
  | entry =>
    rw [hph] at h'
    cases h' with
    | entry hg => exact .inr ⟨_, rfl, .inl hg⟩
  | headers =>
    dsimp only
    rw [hph] at h'
    obtain ⟨h8, h1⟩ := heads_reads h' rfl rfl hph rfl rfl rfl
    rw [if_neg (by omega)]
    rcases h1 with ⟨m, h1, h2⟩ | ⟨m, h1, h2⟩
    · exact .inr ⟨m, h1, .inl h2⟩
    · exact .inl ⟨m, h1, h2⟩
  | body =>
    dsimp only
    rw [hph] at h'
    generalize ht : l.buf ++ rest = t at h'
    cases h' with
    | @content _ _ c u _ h1 h2 =>
      have hL : l.closing = crlf ++ dash ++ l.boundary := rfl
      have hLp : 4 ≤ l.closing.length := by rw [hL]; simp [crlf, dash]
      rw [← hL] at h1 ht
      have hall : findAt l.closing (l.buf ++ rest) = c.length := by
        rw [ht, findAt_append (by rw [h1, List.length_append]; omega)]
        exact h1
      have hlen := congrArg List.length ht
      simp only [List.length_append] at hlen
      by_cases hf : c.length + l.closing.length ≤ l.buf.length
      · have hb : findAt l.closing l.buf = c.length := by
          rw [findAt_take (by rw [hall]; exact hf) (by intro h; rw [h] at hLp; simp at hLp), hall]
        rw [if_neg (by omega), if_pos (by omega), hb]
        refine .inr ⟨_, rfl, .inl ?_⟩
        have hd : l.buf.drop (c.length + l.closing.length) ++ rest = u := by
          have : (l.buf ++ rest).drop (c.length + l.closing.length) = u := by
            rw [ht, ← List.length_append, List.drop_left]
          rw [← this, List.drop_append_of_le_length hf]
        have htk : l.buf.take c.length = c := by
          have : (l.buf ++ rest).take c.length = c := by rw [ht, List.append_assoc, List.take_left]
          rwa [List.take_append_of_le_length (by omega)] at this
        rw [Before]
        dsimp only
        rw [hd, htk]
        exact h2
      · have hr : rest ≠ [] := by
          rintro rfl
          simp at hlen
          omega
        by_cases hs : l.closing.length > l.buf.length
        · rw [if_pos hs]
          exact .inl (stay hr)
        · have hnf : ¬ findAt l.closing l.buf < l.buf.length := by
            intro hlt
            have h6 := findAt_fits hlt
            have h7 := findAt_append hlt rest
            rw [hall] at h7
            omega
          rw [if_neg hs, if_neg hnf]
          by_cases hk0 : l.buf.length - l.closing.length > 0
          · rw [if_pos hk0]
            refine .inl ⟨_, rfl, hr, ?_⟩
            have hk : l.buf.length - l.closing.length ≤ c.length := by omega
            have e : l.buf.drop (l.buf.length - l.closing.length) ++ rest =
                c.drop (l.buf.length - l.closing.length) ++ (crlf ++ dash ++ l.boundary) ++ u := by
              rw [← hL, ← List.drop_append_of_le_length (l₂ := rest) (by omega), ht, List.append_assoc, List.append_assoc,
                List.drop_append_of_le_length hk]
            have htk : l.buf.take (l.buf.length - l.closing.length) = c.take (l.buf.length - l.closing.length) := by
              have : (l.buf ++ rest).take (l.buf.length - l.closing.length) = c.take (l.buf.length - l.closing.length) := by
                rw [ht, List.append_assoc, List.take_append_of_le_length hk]
              rwa [List.take_append_of_le_length (by omega)] at this
            rw [Before]
            dsimp only
            rw [e]
            refine .content ?_ ?_
            · rw [← hL, ← List.drop_append_of_le_length hk, findAt_drop (by omega), h1, List.length_drop]
            · rw [longer_longer, htk, List.take_append_drop]
              exact h2
          · rw [if_neg hk0]
            exact .inl (stay hr)
  | boundary =>
    dsimp only
    rw [hph] at h'
    generalize ht : l.buf ++ rest = t at h'
    cases h' with
    | @last _ _ e he =>
      have hd : dash.length = 2 := rfl
      by_cases h2 : 2 > l.buf.length
      · rw [if_pos h2]
        refine .inl (stay ?_)
        rintro rfl
        have hl := congrArg List.length ht
        simp only [List.append_nil, List.length_append] at hl
        omega
      · rw [if_neg h2]
        have hpre : dash <+: l.buf :=
          List.prefix_of_prefix_length_le (l₃ := l.buf ++ rest) (by rw [ht]; exact List.prefix_append _ _) (List.prefix_append _ _)
            (by omega)
        obtain ⟨e', hb⟩ := hpre
        rw [← hb, List.append_assoc] at ht
        have he' := List.append_cancel_left ht
        rw [← hb, if_neg (by simp [crlf, dash, List.isPrefixOf]), if_pos (List.isPrefixOf_iff_prefix.2 (List.prefix_append _ _))]
        refine .inr ⟨_, rfl, .inr ⟨rfl, rfl, rfl, rfl, ?_⟩⟩
        rcases he with rfl | rfl
        · have : rest = [] := (List.append_eq_nil_iff.1 he').2
          rw [this]
          exact List.nil_suffix
        · rw [← he']
          exact List.suffix_append _ _
    | @more _ _ u _ hg =>
      by_cases h2 : 2 > l.buf.length
      · rw [if_pos h2]
        refine .inl (stay ?_)
        rintro rfl
        have hl := congrArg List.length ht
        simp [crlf] at hl
        omega
      · rw [if_neg h2]
        have hpre : crlf <+: l.buf :=
          List.prefix_of_prefix_length_le (l₃ := l.buf ++ rest) (by rw [ht]; exact List.prefix_append _ _) (List.prefix_append _ _)
            (by simp [crlf]; omega)
        rw [if_pos (List.isPrefixOf_iff_prefix.2 hpre)]
        have hd : l.buf.drop 2 ++ rest = u := by
          have : (l.buf ++ rest).drop 2 = u := by rw [ht]; rfl
          rw [← this, List.drop_append_of_le_length (by omega)]
        refine .inr ⟨_, rfl, .inl ?_⟩
        rw [Before]
        dsimp only
        rw [hd]
        exact hg

theorem ends_after {l : View} {rest : Bytes} {out : List File} (hv : l.valid = true) (hf : l.files = out) (hp : l.phase = .boundary)
    (hb : l.buf ++ rest <:+ crlf) {r : Option View} (h : Ends l r) : ∃ m, r = some m ∧ After m rest out := by
  have key : l.buf ≠ [] → (2 > l.buf.length ∧ l.turn = .wait l) ∨ (rest = [] ∧ l.turn = .go { l with buf := [], phase := .entry }) := by
    intro h0
    unfold View.turn
    rw [hp]
    dsimp only
    by_cases h2 : 2 > l.buf.length
    · rw [if_pos h2]
      exact .inl ⟨h2, rfl⟩
    · have hl := hb.length_le
      have hc : crlf.length = 2 := rfl
      rw [List.length_append] at hl
      have hr : rest = [] := List.length_eq_zero_iff.1 (by omega)
      subst hr
      rw [List.append_nil] at hb
      have e : l.buf = crlf := hb.eq_of_length (by simp only [List.length_nil] at hl; omega)
      rw [if_neg h2, e, if_pos (by decide)]
      exact .inr ⟨rfl, rfl⟩
  cases h with
  | empty h => exact ⟨l, rfl, hv, hf, .inr ⟨hp, hb⟩⟩
  | refuse h0 ht =>
    rcases key h0 with ⟨_, k⟩ | ⟨_, k⟩ <;> (rw [ht] at k; cases k)
  | wait h0 ht =>
    rcases key h0 with ⟨_, k⟩ | ⟨_, k⟩
    · rw [ht] at k
      cases k
      exact ⟨l, rfl, hv, hf, .inr ⟨hp, hb⟩⟩
    · rw [ht] at k; cases k
  | go h0 ht h =>
    rcases key h0 with ⟨_, k⟩ | ⟨hr, k⟩
    · rw [ht] at k; cases k
    · rw [ht] at k
      cases k
      cases h with
      | empty _ => exact ⟨_, rfl, hv, hf, .inl hr⟩
      | refuse h _ => exact absurd rfl h
      | wait h _ => exact absurd rfl h
      | go h _ _ => exact absurd rfl h

theorem ends_reads {l : View} {r : Option View} (h : Ends l r) : ∀ {rest : Bytes} {out : List File}, Before l rest out →
    ∃ m, r = some m ∧ (After m rest out ∨ (rest ≠ [] ∧ Before m rest out)) := by
  induction h with
  | @empty l h =>
    intro rest out hg
    refine ⟨l, rfl, .inr ⟨?_, hg⟩⟩
    rintro rfl
    have := hg.ne_nil
    rw [h] at this
    exact this rfl
  | refuse h0 ht =>
    intro rest out hg
    rcases turn_reads hg h0 with ⟨m, k, _⟩ | ⟨m, k, _⟩ <;> (rw [ht] at k; cases k)
  | wait h0 ht =>
    intro rest out hg
    rcases turn_reads hg h0 with ⟨m, k, k1, k2⟩ | ⟨m, k, _⟩
    · rw [ht] at k
      cases k
      exact ⟨_, rfl, .inr ⟨k1, k2⟩⟩
    · rw [ht] at k; cases k
  | go h0 ht h ih =>
    intro rest out hg
    rcases turn_reads hg h0 with ⟨m, k, _⟩ | ⟨m, k, k1⟩
    · rw [ht] at k; cases k
    · rw [ht] at k
      cases k
      rcases k1 with k1 | ⟨k1, k2, k3, k4, k5⟩
      · exact ih k1
      · obtain ⟨m, e, ha⟩ := ends_after (rest := rest) k1 k2 k3 (by rw [k4]; exact k5) h
        exact ⟨m, e, .inl ha⟩

theorem fed_after {l : View} {xs : List Bytes} {r : Option View} (h : Fed l xs r) : ∀ {out : List File}, After l xs.flatten out →
    (∀ b ∈ xs, b ≠ []) → ∃ m, r = some m ∧ m.valid = true ∧ m.files = out := by
  induction h with
  | done => exact fun h _ => ⟨_, rfl, h.1, h.2.1⟩
  | @refuse l x xs h =>
    intro out ha hne
    obtain ⟨hv, hf, ha⟩ := ha
    rcases ha with ha | ⟨hp, hb⟩
    · exact absurd (List.flatten_eq_nil_iff.1 ha x List.mem_cons_self) (hne x List.mem_cons_self)
    · obtain ⟨m, e, _⟩ := ends_after (l := { l with buf := l.buf ++ x }) (rest := xs.flatten) hv hf hp (by simpa using hb) h
      cases e
  | @next l m x xs r h _ ih =>
    intro out ha hne
    obtain ⟨hv, hf, ha⟩ := ha
    rcases ha with ha | ⟨hp, hb⟩
    · exact absurd (List.flatten_eq_nil_iff.1 ha x List.mem_cons_self) (hne x List.mem_cons_self)
    · obtain ⟨m', e, k⟩ := ends_after (l := { l with buf := l.buf ++ x }) (rest := xs.flatten) hv hf hp (by simpa using hb) h
      cases e
      exact ih k fun b hb => hne b (List.mem_cons_of_mem _ hb)

/-- A correct form is read part by part, in any pieces. -/
theorem fed_reads {l : View} {xs : List Bytes} {r : Option View} (h : Fed l xs r) : ∀ {out : List File}, Before l xs.flatten out → xs ≠ [] →
    (∀ b ∈ xs, b ≠ []) → ∃ m, r = some m ∧ m.valid = true ∧ m.files = out := by
  induction h with
  | done => exact fun _ h => absurd rfl h
  | @refuse l x xs h =>
    intro out hg _ _
    obtain ⟨m, e, _⟩ := ends_reads h (rest := xs.flatten) (out := out) (by simpa [Before] using hg)
    cases e
  | @next l m x xs r h h2 ih =>
    intro out hg _ hne
    obtain ⟨m', e, k⟩ := ends_reads h (rest := xs.flatten) (out := out) (by simpa [Before] using hg)
    cases e
    have hne' : ∀ b ∈ xs, b ≠ [] := fun b hb => hne b (List.mem_cons_of_mem _ hb)
    rcases k with k | ⟨k1, k2⟩
    · exact fed_after h2 k hne'
    · exact ih k2 (by rintro rfl; exact k1 rfl) hne'

end Brski.Form
