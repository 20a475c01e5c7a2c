import Verif.Cut

/-!
# Messages that arrive in pieces (lemmas)
-/

namespace Brski.Cut
open Outcome Routes

/-! ## The functions without their termination proofs -/

theorem getline_step (acc : Bytes) (s : Strm) : getline acc s =
    match s.read 1 with
    | .err => none
    | .eof => if acc = [] then none else some (acc, s)
    | .data b s' => if b = [10] then some (acc ++ b, s') else getline (acc ++ b) s' := by
  rw [getline.eq_def]
  split <;> rename_i h <;> simp only [h]

theorem readLines_step (s : Strm) : readLines s =
    match getline [] s with
    | none => ([], none)
    | some (l, r) =>
      if Wire.endsCrlf l then
        if l.length = 2 then ([], some r)
        else if l.length > 8192 then ([], none)
        else (l.take (l.length - 2) :: (readLines r).1, (readLines r).2)
      else readLines r := by
  rw [readLines.eq_def]
  split <;> rename_i h <;> simp only [h]

theorem wire_readLines_step (s : Bytes) : Wire.readLines s =
    match Wire.getLine s with
    | none => ([], none)
    | some (l, r) =>
      if Wire.endsCrlf l then
        if l.length = 2 then ([], some r)
        else if l.length > 8192 then ([], none)
        else (l.take (l.length - 2) :: (Wire.readLines r).1, (Wire.readLines r).2)
      else Wire.readLines r := by
  rw [Wire.readLines.eq_def]
  split <;> rename_i h <;> simp only [h]

theorem trailer_step (s : Strm) : trailer s =
    match getline [] s with
    | none => .ok none
    | some (l, r) =>
      if BoolTime.cstr l = [13, 10] then .ok (some ([], r))
      else if l.length > 8192 then .ok none
      else if l.length < 2 then .ub
      else (trailer r).bind fun t => .ok (t.map fun p => (l.take (l.length - 2) :: p.1, p.2)) := by
  rw [trailer.eq_def]
  split <;> rename_i h <;> simp only [h]

theorem wire_trailer_step (s : Bytes) : Wire.trailer s =
    match Wire.getLine s with
    | none => .ok none
    | some (l, r) =>
      if BoolTime.cstr l = [13, 10] then .ok (some ([], r))
      else if l.length > 8192 then .ok none
      else if l.length < 2 then .ub
      else (Wire.trailer r).bind fun t => .ok (t.map fun p => (l.take (l.length - 2) :: p.1, p.2)) := by
  rw [Wire.trailer.eq_def]
  split <;> rename_i h <;> simp only [h]

/-! ## Reading -/

theorem read_nil {s : Strm} {n : Nat} (h : s.bytes = []) : s.read n = if s.orderly then .eof else .err := by
  rw [Strm.read, if_pos h]

theorem read_one {s : Strm} {c : UInt8} {t : Bytes} (h : s.bytes = c :: t) :
    s.read 1 = .data [c] ⟨t, s.cuts.tail, s.orderly⟩ := by
  have hk : min 1 (max 1 (s.cuts.headD 1)) = 1 := by omega
  rw [Strm.read, if_neg (by rw [h]; simp), hk, h]
  simp

theorem read_data {s : Strm} {n : Nat} (h : s.bytes ≠ []) (hn : 0 < n) :
    ∃ k, 0 < k ∧ k ≤ n ∧ k ≤ s.bytes.length ∧ s.read n = .data (s.bytes.take k) ⟨s.bytes.drop k, s.cuts.tail, s.orderly⟩ := by
  have hp : 0 < s.bytes.length := List.length_pos_iff.2 h
  refine ⟨min (min n (max 1 (s.cuts.headD n))) s.bytes.length, by omega, by omega, by omega, ?_⟩
  rw [Strm.read, if_neg h]
  by_cases hk : min n (max 1 (s.cuts.headD n)) ≤ s.bytes.length
  · rw [Nat.min_eq_left hk]
  · have hk : s.bytes.length ≤ min n (max 1 (s.cuts.headD n)) := by omega
    rw [Nat.min_eq_right hk, List.take_of_length_le hk, List.drop_of_length_le hk,
      List.take_length, List.drop_length]

/-- A line of a connection that ends in an orderly way. -/
theorem getline_orderly (acc : Bytes) {s : Strm} (ho : s.orderly = true) :
    getline acc s = if s.bytes = [] ∧ acc = [] then none
      else some (acc ++ Wire.takeLine s.bytes, ⟨Wire.dropLine s.bytes, s.cuts.drop (Wire.takeLine s.bytes).length, true⟩) := by
  rw [getline_step]
  cases hb : s.bytes with
  | nil =>
    have hr := read_nil (n := 1) hb
    rw [ho, if_pos rfl] at hr
    rw [hr]
    dsimp only
    by_cases ha : acc = []
    · rw [if_pos ha, if_pos ⟨rfl, ha⟩]
    · rw [if_neg ha, if_neg (fun h => ha h.2)]
      obtain ⟨b, c, o⟩ := s
      dsimp only at hb ho
      subst hb
      subst ho
      simp [Wire.takeLine, Wire.dropLine]
  | cons c t =>
    have hr := read_one hb
    rw [hr, if_neg (c := (c :: t : Bytes) = [] ∧ acc = []) (fun h => by cases h.1)]
    dsimp only
    by_cases hc : c = 10
    · subst hc
      simp [Wire.takeLine, Wire.dropLine, ho]
    · have hc' : ¬ ([c] = [10]) := by intro h; apply hc; injection h
      rw [if_neg hc']
      have ih := getline_orderly (acc ++ [c]) (s := ⟨t, s.cuts.tail, s.orderly⟩) ho
      rw [ih]
      simp [Wire.takeLine, Wire.dropLine, hc]
termination_by s.bytes.length
decreasing_by rw [hb]; simp

/-- A line of a connection that ends with an error. -/
theorem getline_failing (acc : Bytes) {s : Strm} (ho : s.orderly = false) :
    getline acc s = if 10 ∈ s.bytes then
      some (acc ++ Wire.takeLine s.bytes, ⟨Wire.dropLine s.bytes, s.cuts.drop (Wire.takeLine s.bytes).length, false⟩) else none := by
  rw [getline_step]
  cases hb : s.bytes with
  | nil =>
    have hr := read_nil (n := 1) hb
    rw [ho] at hr
    rw [hr, if_neg (c := (10 : UInt8) ∈ ([] : Bytes)) (by simp)]
    rfl
  | cons c t =>
    have hr := read_one hb
    rw [hr]
    dsimp only
    by_cases hc : c = 10
    · subst hc
      simp [Wire.takeLine, Wire.dropLine, ho]
    · have hc' : ¬ ([c] = [10]) := by intro h; apply hc; injection h
      rw [if_neg hc']
      have ih := getline_failing (acc ++ [c]) (s := ⟨t, s.cuts.tail, s.orderly⟩) ho
      rw [ih]
      have hm : (10 ∈ c :: t) ↔ 10 ∈ t := by
        constructor
        · intro h
          cases h with
          | head => exact absurd rfl hc
          | tail _ h => exact h
        · exact fun h => List.mem_cons_of_mem _ h
      by_cases ht : 10 ∈ t
      · rw [if_pos ht, if_pos (hm.2 ht)]
        simp [Wire.takeLine, Wire.dropLine, hc]
      · rw [if_neg ht, if_neg (fun h => ht (hm.1 h))]
termination_by s.bytes.length
decreasing_by rw [hb]; simp

/-- The line reader on an orderly connection, by cases of `Wire.getLine`. -/
theorem getline_none {s : Strm} (ho : s.orderly = true) (h : Wire.getLine s.bytes = none) : getline [] s = none := by
  rw [getline_orderly _ ho]
  unfold Wire.getLine at h
  split at h
  · rename_i hb; simp [hb]
  · cases h

theorem getline_some {s : Strm} {l r : Bytes} (ho : s.orderly = true) (h : Wire.getLine s.bytes = some (l, r)) :
    ∃ s', getline [] s = some (l, s') ∧ s'.bytes = r ∧ s'.orderly = true := by
  rw [getline_orderly _ ho]
  unfold Wire.getLine at h
  split at h
  · cases h
  · rename_i hb
    cases h
    rw [if_neg (fun h => hb h.1)]
    exact ⟨_, rfl, rfl, rfl⟩

theorem readLines_orderly {s : Strm} (ho : s.orderly = true) :
    (readLines s).1 = (Wire.readLines s.bytes).1 ∧
      (match (Wire.readLines s.bytes).2 with
        | none => (readLines s).2 = none
        | some r => ∃ s', (readLines s).2 = some s' ∧ s'.bytes = r ∧ s'.orderly = true) := by
  rw [readLines_step, wire_readLines_step]
  cases hg : Wire.getLine s.bytes with
  | none =>
    rw [getline_none ho hg]
    exact ⟨rfl, rfl⟩
  | some p =>
    obtain ⟨l, r⟩ := p
    obtain ⟨s', h1, h2, h3⟩ := getline_some ho hg
    have hlt := Wire.getLine_lt hg
    rw [h1]
    have ih := readLines_orderly h3
    rw [h2] at ih
    dsimp only
    by_cases he : Wire.endsCrlf l = true
    · rw [if_pos he, if_pos he]
      by_cases hl : l.length = 2
      · rw [if_pos hl, if_pos hl]
        exact ⟨rfl, _, rfl, h2, h3⟩
      · rw [if_neg hl, if_neg hl]
        by_cases h8 : l.length > 8192
        · rw [if_pos h8, if_pos h8]
          exact ⟨rfl, rfl⟩
        · rw [if_neg h8, if_neg h8]
          refine ⟨by rw [ih.1], ih.2⟩
    · rw [if_neg he, if_neg he]
      exact ih
termination_by s.bytes.length
decreasing_by rw [h2]; exact hlt

/-! ## Content -/

variable {σ : Type}

theorem foldlM_append_flatten (ps : List Bytes) (x : Bytes) : ps.foldlM append x = some (x ++ ps.flatten) := by
  induction ps generalizing x with
  | nil => simp
  | cons p ps ih =>
    rw [List.foldlM_cons]
    show (some (x ++ p)).bind _ = _
    simp only [Option.bind_some]
    rw [ih]
    simp

/-- Content with a length: it arrives in some pieces that do not depend on the receiver. -/
theorem withLength_pieces {len : Nat} {s : Strm} (hl : len ≤ s.bytes.length) :
    ∃ (ps : List Bytes) (s' : Strm), ps.flatten = s.bytes.take len ∧ s'.bytes = s.bytes.drop len ∧ s'.orderly = s.orderly ∧
      ∀ {σ : Type} (out : σ → Bytes → Option σ) (x : σ), withLength out len x s = (ps.foldlM out x).map (·, s') := by
  by_cases h0 : len = 0
  · refine ⟨[], s, ?_, ?_, rfl, ?_⟩
    · simp [h0]
    · simp [h0]
    · intro σ out x
      rw [withLength, dif_pos h0]
      rfl
  · have hb : s.bytes ≠ [] := by intro h; rw [h] at hl; simp at hl; exact h0 hl
    obtain ⟨k, hk, hkn, hks, hr⟩ := read_data (n := min len 4096) hb (by omega)
    obtain ⟨ps, s', h1, h2, h3, h4⟩ := withLength_pieces (len := len - k) (s := ⟨s.bytes.drop k, s.cuts.tail, s.orderly⟩)
      (by simp only [List.length_drop]; omega)
    have hlk : (s.bytes.take k).length = k := by rw [List.length_take]; omega
    refine ⟨s.bytes.take k :: ps, s', ?_, ?_, h3, ?_⟩
    · rw [List.flatten_cons, h1]
      have : len = k + (len - k) := by omega
      conv => rhs; rw [this]
      rw [List.take_add]
    · rw [h2]
      simp only [List.drop_drop]
      congr 1
      omega
    · intro σ out x
      rw [withLength, dif_neg h0]
      split
      · rename_i b t hr'
        rw [hr] at hr'
        have h' : b = s.bytes.take k ∧ t = ⟨s.bytes.drop k, s.cuts.tail, s.orderly⟩ := by
          injection hr' with h1 h2; exact ⟨h1.symm, h2.symm⟩
        obtain ⟨rfl, rfl⟩ := h'
        rw [List.foldlM_cons]
        cases out x (s.bytes.take k) with
        | none => rfl
        | some y =>
          dsimp only
          rw [hlk, h4]
          rfl
      · rename_i hr'
        exact absurd hr (hr' _ _)
termination_by s.bytes.length
decreasing_by simp only [List.length_drop]; omega

theorem withLength_short {len : Nat} {s : Strm} (hl : s.bytes.length < len) (out : σ → Bytes → Option σ) (x : σ) :
    withLength out len x s = none := by
  rw [withLength, dif_neg (by omega)]
  split
  · rename_i b t hr
    split
    · rfl
    · have hb : s.bytes ≠ [] := by
        intro h
        rw [read_nil h] at hr
        split at hr <;> cases hr
      obtain ⟨k, hk, hkn, hks, hr2⟩ := read_data (n := min len 4096) hb (by omega)
      rw [hr] at hr2
      have h' : b = s.bytes.take k ∧ t = ⟨s.bytes.drop k, s.cuts.tail, s.orderly⟩ := by
        injection hr2 with h1 h2; exact ⟨h1, h2⟩
      obtain ⟨rfl, rfl⟩ := h'
      apply withLength_short
      simp only [List.length_drop, List.length_take]
      omega
  · rfl
termination_by s.bytes.length
decreasing_by simp only [List.length_drop]; omega

/-- Content up to the end of the connection, orderly or not. -/
theorem untilEnd_pieces (s : Strm) :
    ∃ (ps : List Bytes) (s' : Strm), ps.flatten = s.bytes ∧ s'.bytes = [] ∧ s'.orderly = s.orderly ∧
      ∀ {σ : Type} (out : σ → Bytes → Option σ) (x : σ), untilEnd out x s = (ps.foldlM out x).map (·, s') := by
  by_cases hb : s.bytes = []
  · refine ⟨[], s, hb.symm ▸ rfl, hb, rfl, ?_⟩
    intro σ out x
    have hr := read_nil (n := 4096) hb
    rw [untilEnd]
    split
    · rename_i h
      rw [hr] at h
      split at h <;> cases h
    · rfl
  · obtain ⟨k, hk, hkn, hks, hr⟩ := read_data (n := 4096) hb (by decide)
    obtain ⟨ps, s', h1, h2, h3, h4⟩ := untilEnd_pieces ⟨s.bytes.drop k, s.cuts.tail, s.orderly⟩
    refine ⟨s.bytes.take k :: ps, s', ?_, h2, h3, ?_⟩
    · rw [List.flatten_cons, h1]
      exact List.take_append_drop _ _
    · intro σ out x
      rw [untilEnd]
      split
      · rename_i b t hr'
        rw [hr] at hr'
        have h' : b = s.bytes.take k ∧ t = ⟨s.bytes.drop k, s.cuts.tail, s.orderly⟩ := by
          injection hr' with h1 h2; exact ⟨h1.symm, h2.symm⟩
        obtain ⟨rfl, rfl⟩ := h'
        rw [List.foldlM_cons]
        cases out x (s.bytes.take k) with
        | none => rfl
        | some y =>
          dsimp only
          rw [h4]
          rfl
      · rename_i hr'
        exact absurd hr (hr' _ _)
termination_by s.bytes.length
decreasing_by simp only [List.length_drop]; omega

theorem chunks_none {line : Bytes} {s : Strm} (ho : s.orderly = true) (h : Wire.chunks line s.bytes = none)
    (out : σ → Bytes → Option σ) (x : σ) : chunks out line x s = none := by
  rw [Wire.chunks.eq_def] at h
  rw [chunks.eq_def]
  cases hn : Wire.strtoull 16 line with
  | none => rfl
  | some n =>
    rw [hn] at h
    dsimp only at h ⊢
    by_cases hm : n = 2 ^ 64 - 1
    · rw [if_pos hm]
    · rw [if_neg hm] at h ⊢
      by_cases h0 : n = 0
      · rw [if_pos h0] at h; cases h
      · rw [if_neg h0] at h ⊢
        by_cases hl : s.bytes.length < n
        · split
          · rfl
          · rename_i hw; rw [withLength_short hl] at hw; cases hw
        · rw [if_neg hl] at h
          split
          · rfl
          · rename_i y s0 hw
            obtain ⟨ps, s', h1, h2, h3, h4⟩ := withLength_pieces (Nat.le_of_not_lt hl)
            rw [h4] at hw
            have hs0 : s0 = s' := by
              cases hf : ps.foldlM out x with
              | none => rw [hf] at hw; cases hw
              | some z => rw [hf] at hw; injection hw with hw; injection hw with _ hw; exact hw.symm
            subst hs0
            rw [ho] at h3
            split
            · rfl
            · rename_i l r hg
              split at h
              · rename_i hg'
                rw [← h2] at hg'
                rw [getline_none h3 hg'] at hg
                cases hg
              · rename_i l' r' hg'
                rw [← h2] at hg'
                obtain ⟨t, g1, g2, g3⟩ := getline_some h3 hg'
                rw [g1] at hg
                have h' : l' = l ∧ t = r := by injection hg with hg; injection hg with a b; exact ⟨a, b⟩
                obtain ⟨rfl, rfl⟩ := h'
                by_cases hc : BoolTime.cstr l' ≠ [13, 10]
                · rw [if_pos hc]
                · rw [if_neg hc] at h ⊢
                  split
                  · rfl
                  · rename_i l2 r2 hg2
                    split at h
                    · rename_i hg2'
                      rw [← g2] at hg2'
                      rw [getline_none g3 hg2'] at hg2
                      cases hg2
                    · rename_i l2' r2' hg2'
                      rw [← g2] at hg2'
                      obtain ⟨t2, k1, k2, k3⟩ := getline_some g3 hg2'
                      rw [k1] at hg2
                      have h' : l2' = l2 ∧ t2 = r2 := by injection hg2 with hg; injection hg with a b; exact ⟨a, b⟩
                      obtain ⟨rfl, rfl⟩ := h'
                      have := Wire.getLine_lt hg'
                      have := Wire.getLine_lt hg2'
                      have hlen : t2.bytes.length < s.bytes.length := by
                        rw [k2]; rw [h2] at *; rw [g2] at *
                        simp only [List.length_drop] at *
                        omega
                      apply chunks_none k3 _ out y
                      rw [k2]
                      cases hw : Wire.chunks l2' r2' with
                      | none => rfl
                      | some p => rw [hw] at h; cases h
termination_by s.bytes.length

theorem chunks_some {line c r : Bytes} {s : Strm} (ho : s.orderly = true) (h : Wire.chunks line s.bytes = some (c, r)) :
    ∃ (ps : List Bytes) (s' : Strm), ps.flatten = c ∧ s'.bytes = r ∧ s'.orderly = true ∧
      ∀ {σ : Type} (out : σ → Bytes → Option σ) (x : σ), chunks out line x s = (ps.foldlM out x).map (·, s') := by
  rw [Wire.chunks.eq_def] at h
  cases hn : Wire.strtoull 16 line with
  | none => rw [hn] at h; cases h
  | some n =>
    rw [hn] at h
    dsimp only at h
    by_cases hm : n = 2 ^ 64 - 1
    · rw [if_pos hm] at h; cases h
    · rw [if_neg hm] at h
      by_cases h0 : n = 0
      · rw [if_pos h0] at h
        cases h
        refine ⟨[], s, rfl, rfl, ho, ?_⟩
        intro σ out x
        rw [chunks.eq_def, hn]
        dsimp only
        rw [if_neg hm, if_pos h0]
        rfl
      · rw [if_neg h0] at h
        by_cases hl : s.bytes.length < n
        · rw [if_pos hl] at h; cases h
        · rw [if_neg hl] at h
          obtain ⟨ps, s', h1, h2, h3, h4⟩ := withLength_pieces (Nat.le_of_not_lt hl)
          rw [ho] at h3
          split at h
          · cases h
          · rename_i l' r' hg'
            rw [← h2] at hg'
            obtain ⟨t, g1, g2, g3⟩ := getline_some h3 hg'
            by_cases hc : BoolTime.cstr l' ≠ [13, 10]
            · rw [if_pos hc] at h; cases h
            · rw [if_neg hc] at h
              split at h
              · cases h
              · rename_i l2' r2' hg2'
                rw [← g2] at hg2'
                obtain ⟨t2, k1, k2, k3⟩ := getline_some g3 hg2'
                have := Wire.getLine_lt hg'
                have := Wire.getLine_lt hg2'
                have hlen : t2.bytes.length < s.bytes.length := by
                  rw [k2]; rw [h2] at *; rw [g2] at *
                  simp only [List.length_drop] at *
                  omega
                cases hw : Wire.chunks l2' r2' with
                | none => rw [hw] at h; cases h
                | some p =>
                  rw [hw] at h
                  obtain ⟨c', r''⟩ := p
                  rw [← k2] at hw
                  obtain ⟨qs, s'', q1, q2, q3, q4⟩ := chunks_some k3 hw
                  have h' : s.bytes.take n ++ c' = c ∧ r'' = r := by
                    injection h with h; injection h with a b; exact ⟨a, b⟩
                  obtain ⟨rfl, rfl⟩ := h'
                  refine ⟨ps ++ qs, s'', by rw [List.flatten_append, h1, q1], q2, q3, ?_⟩
                  intro σ out x
                  rw [chunks.eq_def, hn]
                  dsimp only
                  rw [if_neg hm, if_neg h0, List.foldlM_append]
                  cases hf : ps.foldlM out x with
                  | none =>
                    split
                    · rfl
                    · rename_i hw'
                      rw [h4, hf] at hw'
                      cases hw'
                  | some y =>
                    split
                    · rename_i hw'
                      rw [h4, hf] at hw'
                      cases hw'
                    · rename_i y' s0 hw'
                      rw [h4, hf] at hw'
                      have h' : y = y' ∧ s' = s0 := by injection hw' with hw; injection hw with a b; exact ⟨a, b⟩
                      obtain ⟨rfl, rfl⟩ := h'
                      split
                      · rename_i hg; rw [g1] at hg; cases hg
                      · rename_i l3 r3 hg
                        rw [g1] at hg
                        have h' : l' = l3 ∧ t = r3 := by injection hg with hg; injection hg with a b; exact ⟨a, b⟩
                        obtain ⟨rfl, rfl⟩ := h'
                        rw [if_neg hc]
                        split
                        · rename_i hg; rw [k1] at hg; cases hg
                        · rename_i l4 r4 hg
                          rw [k1] at hg
                          have h' : l2' = l4 ∧ t2 = r4 := by injection hg with hg; injection hg with a b; exact ⟨a, b⟩
                          obtain ⟨rfl, rfl⟩ := h'
                          rw [q4]
                          rfl
termination_by s.bytes.length

/-- The trailer on an orderly connection. -/
theorem trailer_orderly {s : Strm} (ho : s.orderly = true) :
    match Wire.trailer s.bytes with
    | .ub => trailer s = .ub
    | .ok none => trailer s = .ok none
    | .ok (some (ls, r)) => ∃ s', trailer s = .ok (some (ls, s')) ∧ s'.bytes = r ∧ s'.orderly = true := by
  rw [wire_trailer_step]
  cases hg : Wire.getLine s.bytes with
  | none =>
    rw [trailer_step, getline_none ho hg]
  | some p =>
    obtain ⟨l, r⟩ := p
    obtain ⟨t, g1, g2, g3⟩ := getline_some ho hg
    have hlt := Wire.getLine_lt hg
    have hst : ∀ P : Outcome (Option (List Bytes × Strm)) → Prop,
        P (if BoolTime.cstr l = [13, 10] then .ok (some ([], t))
          else if l.length > 8192 then .ok none
          else if l.length < 2 then .ub
          else (trailer t).bind fun t => .ok (t.map fun p => (l.take (l.length - 2) :: p.1, p.2))) → P (trailer s) := by
      intro P hP
      rw [trailer_step, g1]
      exact hP
    dsimp only
    by_cases hc : BoolTime.cstr l = [13, 10]
    · rw [if_pos hc]
      apply hst fun o => ∃ s', o = .ok (some ([], s')) ∧ s'.bytes = r ∧ s'.orderly = true
      rw [if_pos hc]
      exact ⟨t, rfl, g2, g3⟩
    · rw [if_neg hc]
      by_cases h8 : l.length > 8192
      · rw [if_pos h8]
        apply hst fun o => o = .ok none
        rw [if_neg hc, if_pos h8]
      · rw [if_neg h8]
        by_cases h2 : l.length < 2
        · rw [if_pos h2]
          apply hst fun o => o = .ub
          rw [if_neg hc, if_neg h8, if_pos h2]
        · rw [if_neg h2]
          have ih := trailer_orderly g3
          rw [g2] at ih
          cases hw : Wire.trailer r with
          | ub =>
            rw [hw] at ih
            apply hst fun o => o = .ub
            rw [if_neg hc, if_neg h8, if_neg h2, ih]
            rfl
          | ok o =>
            rw [hw] at ih
            cases o with
            | none =>
              apply hst fun o => o = .ok none
              rw [if_neg hc, if_neg h8, if_neg h2, ih]
              rfl
            | some p =>
              obtain ⟨ls, r'⟩ := p
              obtain ⟨s', k1, k2, k3⟩ := ih
              apply hst fun o => ∃ s', o = .ok (some (_, s')) ∧ s'.bytes = r' ∧ s'.orderly = true
              rw [if_neg hc, if_neg h8, if_neg h2, k1]
              exact ⟨s', rfl, k2, k3⟩
termination_by s.bytes.length
decreasing_by rw [g2]; exact hlt

/-- What reading content gives for a receiver that gets the pieces `ps`. -/
def contentOf (w : Outcome Wire.Content) (ps : List Bytes) (s' : Strm) (out : σ → Bytes → Option σ) (x : σ) :
    Outcome (Except Nat (σ × Strm × List Bytes)) :=
  match w with
  | .ub => if (ps.foldlM out x).isSome then .ub else .ok (.error 400)
  | .ok (.failed st) => .ok (.error st)
  | .ok (.read _ _ ls) =>
    match ps.foldlM out x with
    | none => .ok (.error 400)
    | some y => .ok (.ok (y, s', ls))

/-- Reading content of an orderly connection: the receiver gets the content in some pieces. -/
theorem readContent_pieces (hs : List Field) {s : Strm} (ho : s.orderly = true) :
    ∃ (ps : List Bytes) (s' : Strm), (∀ c r ls, Wire.readContent hs s.bytes = .ok (.read c r ls) → ps.flatten = c ∧ s'.bytes = r) ∧
      s'.orderly = true ∧
      ∀ {σ : Type} (out : σ → Bytes → Option σ) (x : σ),
        readContent out x hs s = contentOf (Wire.readContent hs s.bytes) ps s' out x := by
  unfold readContent Wire.readContent
  dsimp only
  by_cases he : Wire.headerValue hs (str "Content-Encoding") = str "gzip" ∨
      Wire.headerValue hs (str "Content-Encoding") = str "deflate" ∨ Wire.hasBr (Wire.headerValue hs (str "Content-Encoding")) = true
  · simp only [if_pos he]
    exact ⟨[], s, fun _ _ _ h => (by cases h), ho, fun _ _ => rfl⟩
  · simp only [if_neg he]
    by_cases hc : Wire.isChunked hs = true
    · simp only [if_pos hc]
      cases hg : Wire.getLine s.bytes with
      | none =>
        rw [getline_none ho hg]
        exact ⟨[], s, fun _ _ _ h => (by cases h), ho, fun _ _ => rfl⟩
      | some p =>
        obtain ⟨l, r⟩ := p
        obtain ⟨t, g1, g2, g3⟩ := getline_some ho hg
        rw [g1]
        dsimp only
        rw [← g2]
        cases hk : Wire.chunks l t.bytes with
        | none =>
          refine ⟨[], s, fun _ _ _ h => (by cases h), ho, fun out x => ?_⟩
          rw [chunks_none g3 hk]
          rfl
        | some p =>
          obtain ⟨c, r'⟩ := p
          obtain ⟨ps, t', k1, k2, k3, k4⟩ := chunks_some g3 hk
          have ht := trailer_orderly k3
          dsimp only
          rw [← k2]
          cases hw : Wire.trailer t'.bytes with
          | ub =>
            rw [hw] at ht
            dsimp only at ht
            refine ⟨ps, s, fun _ _ _ h => (by cases h), ho, fun out x => ?_⟩
            rw [k4]
            cases hf : ps.foldlM out x with
            | none => simp [contentOf, hf, Outcome.bind]
            | some y => simp [contentOf, hf, ht, Outcome.bind]
          | ok o =>
            rw [hw] at ht
            cases o with
            | none =>
              dsimp only at ht
              refine ⟨ps, s, fun _ _ _ h => (by cases h), ho, fun out x => ?_⟩
              rw [k4]
              cases hf : ps.foldlM out x with
              | none => simp [contentOf, Outcome.bind]
              | some y => simp [contentOf, ht, Outcome.bind]
            | some q =>
              obtain ⟨ls, r2⟩ := q
              obtain ⟨t2, m1, m2, m3⟩ := ht
              refine ⟨ps, t2, fun _ _ _ h => ?_, m3, fun out x => ?_⟩
              · cases h
                exact ⟨k1, m2⟩
              · rw [k4]
                cases hf : ps.foldlM out x with
                | none => simp [contentOf, hf, Outcome.bind]
                | some y => simp [contentOf, hf, m1, Outcome.bind]
    · simp only [if_neg hc]
      by_cases hl : (!Wire.hasField hs (str "Content-Length")) = true
      · simp only [if_pos hl]
        obtain ⟨ps, t, k1, k2, k3, k4⟩ := untilEnd_pieces s
        refine ⟨ps, t, fun _ _ _ h => ?_, by rw [k3, ho], fun out x => ?_⟩
        · cases h
          exact ⟨k1, k2⟩
        · rw [k4]
          cases hf : ps.foldlM out x <;> simp [contentOf, hf]
      · simp only [if_neg hl]
        by_cases hn : s.bytes.length < Wire.contentLength hs
        · simp only [if_pos hn]
          refine ⟨[], s, fun _ _ _ h => (by cases h), ho, fun out x => ?_⟩
          rw [withLength_short hn]
          rfl
        · simp only [if_neg hn]
          obtain ⟨ps, t, k1, k2, k3, k4⟩ := withLength_pieces (Nat.le_of_not_lt hn)
          refine ⟨ps, t, fun _ _ _ h => ?_, by rw [k3, ho], fun out x => ?_⟩
          · cases h
            exact ⟨k1, k2⟩
          · rw [k4]
            cases hf : ps.foldlM out x <;> simp [contentOf, hf]

/-- Content that is collected, on an orderly connection. -/
theorem readContent_append (hs : List Field) {s : Strm} (ho : s.orderly = true) :
    ∃ s', readContent append [] hs s =
      match Wire.readContent hs s.bytes with
      | .ub => .ub
      | .ok (.failed st) => .ok (.error st)
      | .ok (.read c _ ls) => .ok (.ok (c, s', ls)) := by
  obtain ⟨ps, s', h1, _, h3⟩ := readContent_pieces hs ho
  refine ⟨s', ?_⟩
  rw [h3, contentOf.eq_def]
  have hf := foldlM_append_flatten ps []
  cases hw : Wire.readContent hs s.bytes with
  | ub => simp [hf]
  | ok w =>
    cases w with
    | failed st => rfl
    | read c r ls =>
      have := (h1 _ _ _ hw).1
      subst this
      simp [hf]

/-! ## Server and client -/

/-- The type of the content of a request is not multipart. -/
def plain (hs : List Field) : Prop :=
  Wire.startsWith (str "multipart/form-data") (Wire.headerValue hs (str "Content-Type")) = false

theorem readBody_plain (ok : Bytes → Bool) (mp : Wire.Multipart) (m : Method) {hs : List Field} (hp : plain hs) {s : Strm}
    (ho : s.orderly = true) : readBody ok m hs s = Wire.readBody mp m hs s.bytes := by
  obtain ⟨s', h⟩ := readContent_append hs ho
  unfold readBody Wire.readBody
  unfold plain at hp
  dsimp only
  rw [hp]
  simp only [Bool.false_and, Bool.false_eq_true, if_false]
  by_cases hd : m = Method.delete ∧ Wire.hasField hs (str "Content-Length") = false
  · rw [if_pos hd, if_pos hd]
  · rw [if_neg hd, if_neg hd, h]
    cases Wire.readContent hs s.bytes with
    | ub => rfl
    | ok w => cases w <;> rfl

/-- For every way in which the content arrives there is a parser in the sense of `Wire` with the same result, unless content is
refused before something undefined would happen. -/
theorem readBody_parser (ok : Bytes → Bool) (m : Method) (hs : List Field) {s : Strm} (ho : s.orderly = true) :
    ∃ mp : Wire.Multipart, Wire.readBody mp m hs s.bytes = .ub ∨ readBody ok m hs s = Wire.readBody mp m hs s.bytes := by
  by_cases hp : plain hs
  · exact ⟨⟨fun _ => false, fun _ _ => false⟩, .inr (readBody_plain ok _ m hp ho)⟩
  · have hp : Wire.startsWith (str "multipart/form-data") (Wire.headerValue hs (str "Content-Type")) = true := by
      unfold plain at hp
      simpa using hp
    cases hbd : boundaryOf (Wire.headerValue hs (str "Content-Type")) with
    | none =>
      refine ⟨⟨fun _ => false, fun _ _ => false⟩, .inr ?_⟩
      unfold readBody Wire.readBody
      simp [hp, hbd]
    | some bd =>
      obtain ⟨ps, s', h1, _, h3⟩ := readContent_pieces hs ho
      refine ⟨⟨fun _ => true, fun _ _ => (ps.foldlM (Parser.parse ok) (Parser.new bd)).any (·.valid)⟩, ?_⟩
      unfold readBody Wire.readBody
      simp only [hp, hbd, Bool.not_true, Bool.and_false, Bool.false_eq_true, if_false, if_true]
      by_cases hd : m = Method.delete ∧ Wire.hasField hs (str "Content-Length") = false
      · rw [if_pos hd, if_pos hd]; exact .inr rfl
      · rw [if_neg hd, if_neg hd, h3]
        cases hw : Wire.readContent hs s.bytes with
        | ub => exact .inl rfl
        | ok w =>
          right
          cases w with
          | failed st => rfl
          | read c r ls =>
            cases hf : ps.foldlM (Parser.parse ok) (Parser.new bd) with
            | none => simp [contentOf, hf, Outcome.bind]
            | some y =>
              cases hv : y.valid <;> simp [contentOf, hf, hv, Outcome.bind]

theorem readStatus_step (s : Strm) : readStatus s =
    match getline [] s with
    | none => none
    | some (l, r) =>
      match Wire.statusOf l with
      | none => none
      | some st =>
        if st = 100 then
          match getline [] r with
          | none => none
          | some (_, r2) => readStatus r2
        else some (st, r) := by
  rw [readStatus.eq_def]
  split <;> rename_i h <;> simp only [h]
  split <;> rename_i h1 <;> simp only [h1]
  split
  · split <;> rename_i h2 <;> simp only [h2]
  · rfl

theorem wire_readStatus_step (s : Bytes) : Wire.readStatus s =
    match Wire.getLine s with
    | none => none
    | some (l, r) =>
      match Wire.statusOf l with
      | none => none
      | some st =>
        if st = 100 then
          match Wire.getLine r with
          | none => none
          | some (_, r2) => Wire.readStatus r2
        else some (st, r) := by
  rw [Wire.readStatus.eq_def]
  split <;> rename_i h <;> simp only [h]
  split <;> rename_i h1 <;> simp only [h1]
  split
  · split <;> rename_i h2 <;> simp only [h2]
  · rfl

theorem readStatus_orderly {s : Strm} (ho : s.orderly = true) :
    match Wire.readStatus s.bytes with
    | none => readStatus s = none
    | some (st, r) => ∃ s', readStatus s = some (st, s') ∧ s'.bytes = r ∧ s'.orderly = true := by
  rw [wire_readStatus_step, readStatus_step]
  cases hg : Wire.getLine s.bytes with
  | none =>
    rw [getline_none ho hg]
  | some p =>
    obtain ⟨l, r⟩ := p
    obtain ⟨t, g1, g2, g3⟩ := getline_some ho hg
    rw [g1]
    dsimp only
    cases Wire.statusOf l with
    | none => rfl
    | some st =>
      dsimp only
      by_cases h1 : st = 100
      · rw [if_pos h1, if_pos h1, ← g2]
        cases hg2 : Wire.getLine t.bytes with
        | none => rw [getline_none g3 hg2]
        | some p =>
          obtain ⟨l2, r2⟩ := p
          obtain ⟨t2, k1, k2, k3⟩ := getline_some g3 hg2
          rw [k1]
          dsimp only
          rw [← k2]
          have := Wire.getLine_lt hg
          have := Wire.getLine_lt hg2
          have : t2.bytes.length < s.bytes.length := by rw [k2]; rw [g2] at *; omega
          exact readStatus_orderly k3
      · rw [if_neg h1, if_neg h1]
        exact ⟨t, rfl, g2, g3⟩
termination_by s.bytes.length

end Brski.Cut
