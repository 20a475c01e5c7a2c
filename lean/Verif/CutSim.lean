import Verif.CutLemmas

/-!
# Messages that arrive in pieces: comparing two connections (lemmas)

`Upto q s t`: on `t` the same bytes arrive as on `s`, followed by `q`; nothing follows an orderly end.
-/

namespace Brski.Cut
open Outcome Routes

variable {q : Bytes} {s t : Strm}

/-- On `t` arrives what arrives on `s` and then `q`. -/
structure Upto (q : Bytes) (s t : Strm) : Prop where
  bytes : t.bytes = s.bytes ++ q
  fin : s.orderly = true → q = [] ∧ t.orderly = true

theorem takeLine_append {a : Bytes} (h : (10 : UInt8) ∈ a) (b : Bytes) : Wire.takeLine (a ++ b) = Wire.takeLine a := by
  induction a with
  | nil => cases h
  | cons c a ih =>
    by_cases hc : c = 10
    · simp [Wire.takeLine, hc]
    · have : (10 : UInt8) ∈ a := by
        cases h with
        | head => exact absurd rfl hc
        | tail _ h => exact h
      simp [Wire.takeLine, hc, ih this]

theorem dropLine_append {a : Bytes} (h : (10 : UInt8) ∈ a) (b : Bytes) : Wire.dropLine (a ++ b) = Wire.dropLine a ++ b := by
  induction a with
  | nil => cases h
  | cons c a ih =>
    by_cases hc : c = 10
    · simp [Wire.dropLine, hc]
    · have : (10 : UInt8) ∈ a := by
        cases h with
        | head => exact absurd rfl hc
        | tail _ h => exact h
      simp [Wire.dropLine, hc, ih this]

theorem getline_sim (h : Upto q s t) {acc l : Bytes} {s' : Strm} (hg : getline acc s = some (l, s')) :
    ∃ t', getline acc t = some (l, t') ∧ Upto q s' t' := by
  cases ho : s.orderly with
  | true =>
    obtain ⟨hq, hto⟩ := h.fin ho
    have hb := h.bytes
    rw [hq, List.append_nil] at hb
    rw [getline_orderly _ ho] at hg
    rw [getline_orderly _ hto, hb]
    split at hg
    · cases hg
    · rename_i hn
      rw [if_neg hn]
      cases hg
      exact ⟨_, rfl, by simp [hq], fun _ => ⟨hq, rfl⟩⟩
  | false =>
    rw [getline_failing _ ho] at hg
    split at hg
    · rename_i hm
      cases hg
      have hm' : (10 : UInt8) ∈ t.bytes := by rw [h.bytes]; exact List.mem_append_left _ hm
      have e1 : Wire.takeLine t.bytes = Wire.takeLine s.bytes := by rw [h.bytes, takeLine_append hm]
      have e2 : Wire.dropLine t.bytes = Wire.dropLine s.bytes ++ q := by rw [h.bytes, dropLine_append hm]
      cases hto : t.orderly with
      | true =>
        rw [getline_orderly _ hto, if_neg (fun hh => by rw [hh.1] at hm'; cases hm'), e1, e2]
        exact ⟨_, rfl, rfl, fun h => by cases h⟩
      | false =>
        rw [getline_failing _ hto, if_pos hm', e1, e2]
        exact ⟨_, rfl, rfl, fun h => by cases h⟩
    · cases hg

theorem readLines_sim {s t s' : Strm} (h : Upto q s t) (hr : (readLines s).2 = some s') :
    (readLines t).1 = (readLines s).1 ∧ ∃ t', (readLines t).2 = some t' ∧ Upto q s' t' := by
  rw [readLines_step] at hr ⊢
  cases hg : getline [] s with
  | none => rw [hg] at hr; cases hr
  | some p =>
    obtain ⟨l, r⟩ := p
    obtain ⟨r', g1, g2⟩ := getline_sim h hg
    have hlt := getline_lt hg
    rw [hg] at hr
    rw [readLines_step s, g1, hg]
    dsimp only at hr ⊢
    by_cases he : Wire.endsCrlf l = true
    · rw [if_pos he] at hr ⊢
      rw [if_pos he]
      by_cases hl : l.length = 2
      · rw [if_pos hl] at hr ⊢
        rw [if_pos hl]
        cases hr
        exact ⟨rfl, _, rfl, g2⟩
      · rw [if_neg hl] at hr ⊢
        rw [if_neg hl]
        by_cases h8 : l.length > 8192
        · rw [if_pos h8] at hr; cases hr
        · rw [if_neg h8] at hr ⊢
          rw [if_neg h8]
          obtain ⟨i1, i2⟩ := readLines_sim g2 hr
          exact ⟨by rw [i1], i2⟩
    · rw [if_neg he] at hr ⊢
      rw [if_neg he]
      exact readLines_sim g2 hr
termination_by s.bytes.length

theorem withLength_append {len : Nat} {s : Strm} (x : Bytes) (hl : len ≤ s.bytes.length) :
    ∃ s', withLength append len x s = some (x ++ s.bytes.take len, s') ∧ s'.bytes = s.bytes.drop len ∧ s'.orderly = s.orderly := by
  obtain ⟨ps, s', h1, h2, h3, h4⟩ := withLength_pieces hl
  refine ⟨s', ?_, h2, h3⟩
  rw [h4, foldlM_append_flatten, h1]
  rfl

theorem withLength_sim (h : Upto q s t) {len : Nat} {x y : Bytes} {s' : Strm} (hw : withLength append len x s = some (y, s')) :
    ∃ t', withLength append len x t = some (y, t') ∧ Upto q s' t' := by
  by_cases hl : s.bytes.length < len
  · rw [withLength_short hl] at hw; cases hw
  · have hl := Nat.le_of_not_lt hl
    obtain ⟨s2, a1, a2, a3⟩ := withLength_append x hl
    rw [a1] at hw
    cases hw
    obtain ⟨t2, b1, b2, b3⟩ := withLength_append (len := len) (s := t) x (by rw [h.bytes, List.length_append]; omega)
    rw [h.bytes, List.take_append_of_le_length hl] at b1
    refine ⟨t2, b1, ?_, ?_⟩
    · rw [b2, a2, h.bytes, List.drop_append_of_le_length hl]
    · rw [a3, b3]; exact h.fin

theorem untilEnd_sim (h : Upto [] s t) {x y : Bytes} {s' : Strm} (hw : untilEnd append x s = some (y, s')) :
    ∃ t', untilEnd append x t = some (y, t') := by
  obtain ⟨ps, s2, a1, _, _, a4⟩ := untilEnd_pieces s
  obtain ⟨qs, t2, b1, _, _, b4⟩ := untilEnd_pieces t
  rw [a4, foldlM_append_flatten, a1] at hw
  have hb := h.bytes
  rw [List.append_nil] at hb
  rw [b4, foldlM_append_flatten, b1, hb]
  cases hw
  exact ⟨t2, rfl⟩

variable {σ : Type}

theorem chunks_step (out : σ → Bytes → Option σ) (line : Bytes) (x : σ) (s : Strm) : chunks out line x s =
    match Wire.strtoull 16 line with
    | none => none
    | some n =>
      if n = 2 ^ 64 - 1 then none
      else if n = 0 then some (x, s)
      else
        match withLength out n x s with
        | none => none
        | some (x, s0) =>
          match getline [] s0 with
          | none => none
          | some (l, r) =>
            if BoolTime.cstr l ≠ [13, 10] then none
            else
              match getline [] r with
              | none => none
              | some (l2, r2) => chunks out l2 x r2 := by
  rw [chunks.eq_def]
  split <;> rename_i h1 <;> simp only [h1]
  split
  · rfl
  · split
    · rfl
    · split <;> rename_i h2 <;> simp only [h2]
      split <;> rename_i h3 <;> simp only [h3]
      split
      · rfl
      · split <;> rename_i h4 <;> simp only [h4]

theorem chunks_sim {s t s' : Strm} (h : Upto q s t) {line x y : Bytes} (hw : chunks append line x s = some (y, s')) :
    ∃ t', chunks append line x t = some (y, t') ∧ Upto q s' t' := by
  rw [chunks_step] at hw ⊢
  cases hn : Wire.strtoull 16 line with
  | none => rw [hn] at hw; cases hw
  | some n =>
    rw [hn] at hw
    dsimp only at hw ⊢
    by_cases hm : n = 2 ^ 64 - 1
    · rw [if_pos hm] at hw; cases hw
    · rw [if_neg hm] at hw ⊢
      by_cases h0 : n = 0
      · rw [if_pos h0] at hw ⊢
        cases hw
        exact ⟨t, rfl, h⟩
      · rw [if_neg h0] at hw ⊢
        cases hl : withLength append n x s with
        | none => rw [hl] at hw; cases hw
        | some p =>
          obtain ⟨x1, s1⟩ := p
          obtain ⟨t1, a1, a2⟩ := withLength_sim h hl
          have l1 := withLength_le hl
          rw [hl] at hw
          rw [a1]
          dsimp only at hw ⊢
          cases hg : getline [] s1 with
          | none => rw [hg] at hw; cases hw
          | some p =>
            obtain ⟨l, s2⟩ := p
            obtain ⟨t2, b1, b2⟩ := getline_sim a2 hg
            have l2 := getline_lt hg
            rw [hg] at hw
            rw [b1]
            dsimp only at hw ⊢
            by_cases hc : BoolTime.cstr l ≠ [13, 10]
            · rw [if_pos hc] at hw; cases hw
            · rw [if_neg hc] at hw ⊢
              cases hg2 : getline [] s2 with
              | none => rw [hg2] at hw; cases hw
              | some p =>
                obtain ⟨l', s3⟩ := p
                obtain ⟨t3, c1, c2⟩ := getline_sim b2 hg2
                have l3 := getline_lt hg2
                rw [hg2] at hw
                rw [c1]
                dsimp only at hw ⊢
                have : s3.bytes.length < s.bytes.length := by omega
                exact chunks_sim c2 hw
termination_by s.bytes.length

theorem trailer_sim {s t : Strm} (h : Upto q s t) :
    (trailer s = .ub → trailer t = .ub) ∧
      ∀ ls s', trailer s = .ok (some (ls, s')) → ∃ t', trailer t = .ok (some (ls, t')) ∧ Upto q s' t' := by
  rw [trailer_step s]
  cases hg : getline [] s with
  | none => exact ⟨fun h => (by cases h), fun _ _ h => by cases h⟩
  | some p =>
    obtain ⟨l, r⟩ := p
    obtain ⟨r', g1, g2⟩ := getline_sim h hg
    have hlt := getline_lt hg
    rw [trailer_step t, g1]
    dsimp only
    by_cases hc : BoolTime.cstr l = [13, 10]
    · rw [if_pos hc, if_pos hc]
      refine ⟨fun h => (by cases h), fun _ _ h => ?_⟩
      cases h
      exact ⟨_, rfl, g2⟩
    · rw [if_neg hc, if_neg hc]
      by_cases h8 : l.length > 8192
      · rw [if_pos h8, if_pos h8]
        exact ⟨fun h => (by cases h), fun _ _ h => by cases h⟩
      · rw [if_neg h8, if_neg h8]
        by_cases h2 : l.length < 2
        · rw [if_pos h2, if_pos h2]
          exact ⟨fun _ => rfl, fun _ _ h => by cases h⟩
        · rw [if_neg h2, if_neg h2]
          obtain ⟨i1, i2⟩ := trailer_sim g2
          cases ht : trailer r with
          | ub =>
            rw [i1 ht]
            exact ⟨fun _ => rfl, fun _ _ h => by cases h⟩
          | ok o =>
            refine ⟨fun h => (by cases h), fun ls s' h => ?_⟩
            cases o with
            | none => cases h
            | some p =>
              obtain ⟨ls2, s2⟩ := p
              obtain ⟨t2, j1, j2⟩ := i2 _ _ ht
              rw [j1]
              cases h
              exact ⟨t2, rfl, j2⟩
termination_by s.bytes.length

/-- The end of the content is told by the message: chunks or a length. -/
def framed (hs : List Field) : Prop := Wire.isChunked hs = true ∨ Wire.hasField hs (str "Content-Length") = true

theorem readContent_sim (h : Upto q s t) {hs : List Field} (hf : q = [] ∨ framed hs) {x : Bytes} :
    (readContent append x hs s = .ub → readContent append x hs t = .ub) ∧
      (∀ y s' ls, readContent append x hs s = .ok (.ok (y, s', ls)) → ∃ t', readContent append x hs t = .ok (.ok (y, t', ls))) ∧
      ∀ st, readContent append x hs s = .ok (.error st) → st ≠ 400 → readContent append x hs t = .ok (.error st) := by
  unfold readContent
  dsimp only
  by_cases he : Wire.headerValue hs (str "Content-Encoding") = str "gzip" ∨
      Wire.headerValue hs (str "Content-Encoding") = str "deflate" ∨ Wire.hasBr (Wire.headerValue hs (str "Content-Encoding")) = true
  · simp only [if_pos he]
    exact ⟨fun h => (by cases h), fun _ _ _ h => (by cases h), fun _ h _ => h⟩
  · simp only [if_neg he]
    by_cases hc : Wire.isChunked hs = true
    · simp only [if_pos hc]
      cases hg : getline [] s with
      | none =>
        refine ⟨fun h => (by cases h), fun _ _ _ h => (by cases h), fun _ h hn => ?_⟩
        cases h
        exact absurd rfl hn
      | some p =>
        obtain ⟨l, s1⟩ := p
        obtain ⟨t1, a1, a2⟩ := getline_sim h hg
        rw [a1]
        dsimp only
        cases hk : chunks append l x s1 with
        | none =>
          refine ⟨fun h => (by cases h), fun _ _ _ h => (by cases h), fun _ h hn => ?_⟩
          cases h
          exact absurd rfl hn
        | some p =>
          obtain ⟨y, s2⟩ := p
          obtain ⟨t2, b1, b2⟩ := chunks_sim a2 hk
          rw [b1]
          dsimp only
          obtain ⟨i1, i2⟩ := trailer_sim b2
          cases ht : trailer s2 with
          | ub =>
            rw [i1 ht]
            exact ⟨fun _ => rfl, fun _ _ _ h => (by cases h), fun _ h => by cases h⟩
          | ok o =>
            cases o with
            | none =>
              refine ⟨fun h => (by cases h), fun _ _ _ h => (by cases h), fun _ h hn => ?_⟩
              cases h
              exact absurd rfl hn
            | some p =>
              obtain ⟨ls, s3⟩ := p
              obtain ⟨t3, c1, _⟩ := i2 _ _ ht
              rw [c1]
              refine ⟨fun h => (by cases h), fun _ _ _ h => ?_, fun _ h => by cases h⟩
              cases h
              exact ⟨t3, rfl⟩
    · simp only [if_neg hc]
      by_cases hl : (!Wire.hasField hs (str "Content-Length")) = true
      · simp only [if_pos hl]
        have hq : q = [] := by
          rcases hf with hq | hc' | hh
          · exact hq
          · exact absurd hc' hc
          · rw [hh] at hl; cases hl
        subst hq
        cases hu : untilEnd append x s with
        | none =>
          refine ⟨fun h => (by cases h), fun _ _ _ h => (by cases h), fun _ h hn => ?_⟩
          cases h
          exact absurd rfl hn
        | some p =>
          obtain ⟨y, s1⟩ := p
          obtain ⟨t1, a1⟩ := untilEnd_sim h hu
          rw [a1]
          refine ⟨fun h => (by cases h), fun _ _ _ h => ?_, fun _ h => by cases h⟩
          cases h
          exact ⟨t1, rfl⟩
      · simp only [if_neg hl]
        cases hu : withLength append (Wire.contentLength hs) x s with
        | none =>
          refine ⟨fun h => (by cases h), fun _ _ _ h => (by cases h), fun _ h hn => ?_⟩
          cases h
          exact absurd rfl hn
        | some p =>
          obtain ⟨y, s1⟩ := p
          obtain ⟨t1, a1, _⟩ := withLength_sim h hu
          rw [a1]
          refine ⟨fun h => (by cases h), fun _ _ _ h => ?_, fun _ h => by cases h⟩
          cases h
          exact ⟨t1, rfl⟩

theorem readStatus_sim {s t s' : Strm} (h : Upto q s t) {st : Nat} (hr : readStatus s = some (st, s')) :
    ∃ t', readStatus t = some (st, t') ∧ Upto q s' t' := by
  rw [readStatus_step] at hr ⊢
  cases hg : getline [] s with
  | none => rw [hg] at hr; cases hr
  | some p =>
    obtain ⟨l, r⟩ := p
    obtain ⟨r', g1, g2⟩ := getline_sim h hg
    have hlt := getline_lt hg
    rw [hg] at hr
    rw [g1]
    dsimp only at hr ⊢
    cases hs : Wire.statusOf l with
    | none => rw [hs] at hr; cases hr
    | some n =>
      rw [hs] at hr
      dsimp only at hr ⊢
      by_cases h1 : n = 100
      · rw [if_pos h1] at hr ⊢
        cases hg2 : getline [] r with
        | none => rw [hg2] at hr; cases hr
        | some p =>
          obtain ⟨l2, r2⟩ := p
          obtain ⟨r2', k1, k2⟩ := getline_sim g2 hg2
          have := getline_lt hg2
          rw [hg2] at hr
          rw [k1]
          dsimp only at hr ⊢
          have : r2.bytes.length < s.bytes.length := by omega
          exact readStatus_sim k2 hr
      · rw [if_neg h1] at hr ⊢
        cases hr
        exact ⟨_, rfl, g2⟩
termination_by s.bytes.length

end Brski.Cut
