import Verif.CutConn
import Verif.CutSim

/-!
# Connections whose requests arrive in pieces (lemmas)
-/

namespace Brski.CutConn
open Outcome Routes Conn Cut

/-- An orderly connection with these bytes to come. -/
def Left (s : Strm) (r : Bytes) : Prop := s.bytes = r ∧ s.orderly = true

theorem left_spent {s : Strm} (ho : s.orderly = true) : Left (spent s) [] := ⟨rfl, ho⟩

theorem linesRest_step (s : Strm) : linesRest s =
    match getline [] s with
    | none => spent s
    | some (l, r) => if Wire.endsCrlf l = true ∧ (l.length = 2 ∨ l.length > 8192) then r else linesRest r := by
  rw [linesRest.eq_def]
  split <;> rename_i h <;> simp only [h]

theorem afterLines_step (s : Bytes) : afterLines s =
    match Wire.getLine s with
    | none => []
    | some (l, r) => if Wire.endsCrlf l = true ∧ (l.length = 2 ∨ l.length > 8192) then r else afterLines r := by
  rw [afterLines.eq_def]
  split <;> rename_i h <;> simp only [h]

theorem linesRest_left {s : Strm} (ho : s.orderly = true) : Left (linesRest s) (afterLines s.bytes) := by
  rw [linesRest_step, afterLines_step]
  cases hg : Wire.getLine s.bytes with
  | none =>
    rw [getline_none ho hg]
    exact left_spent ho
  | some p =>
    obtain ⟨l, r⟩ := p
    obtain ⟨s', h1, h2, h3⟩ := getline_some ho hg
    have hlt := Wire.getLine_lt hg
    rw [h1]
    dsimp only
    have ih := linesRest_left h3
    rw [h2] at ih
    split
    · exact ⟨h2, h3⟩
    · exact ih
termination_by s.bytes.length
decreasing_by rw [h2]; exact hlt

theorem trailerRest_step (s : Strm) : trailerRest s =
    match getline [] s with
    | none => spent s
    | some (l, r) => if BoolTime.cstr l = [13, 10] ∨ l.length > 8192 then r else trailerRest r := by
  rw [trailerRest.eq_def]
  split <;> rename_i h <;> simp only [h]

theorem trailerStop_step (s : Bytes) : trailerStop s =
    match Wire.getLine s with
    | none => []
    | some (l, r) => if BoolTime.cstr l = [13, 10] ∨ l.length > 8192 then r else trailerStop r := by
  rw [trailerStop.eq_def]
  split <;> rename_i h <;> simp only [h]

theorem trailerRest_left {s : Strm} (ho : s.orderly = true) : Left (trailerRest s) (trailerStop s.bytes) := by
  rw [trailerRest_step, trailerStop_step]
  cases hg : Wire.getLine s.bytes with
  | none =>
    rw [getline_none ho hg]
    exact left_spent ho
  | some p =>
    obtain ⟨l, r⟩ := p
    obtain ⟨s', h1, h2, h3⟩ := getline_some ho hg
    have hlt := Wire.getLine_lt hg
    rw [h1]
    dsimp only
    have ih := trailerRest_left h3
    rw [h2] at ih
    split
    · exact ⟨h2, h3⟩
    · exact ih
termination_by s.bytes.length
decreasing_by rw [h2]; exact hlt

theorem lengthRest_left (len : Nat) (x : Bytes) {s : Strm} (ho : s.orderly = true) :
    Left (lengthRest append len x s) (s.bytes.drop len) := by
  rw [lengthRest]
  split
  · rename_i h0
    exact ⟨by simp [h0], ho⟩
  · rename_i h0
    split
    · rename_i b t hr
      have hb : s.bytes ≠ [] := by
        intro h
        rw [read_nil h] at hr
        split at hr <;> cases hr
      obtain ⟨k, hk, hkn, hks, hr2⟩ := read_data (n := min len 4096) hb (by omega)
      rw [hr] at hr2
      have h' : b = s.bytes.take k ∧ t = ⟨s.bytes.drop k, s.cuts.tail, s.orderly⟩ := by
        injection hr2 with h1 h2; exact ⟨h1, h2⟩
      obtain ⟨rfl, rfl⟩ := h'
      have hlk : (s.bytes.take k).length = k := by rw [List.length_take]; omega
      show Left (lengthRest append (len - (s.bytes.take k).length) _ _) _
      have ih := lengthRest_left (len - (s.bytes.take k).length) (x ++ s.bytes.take k)
        (s := ⟨s.bytes.drop k, s.cuts.tail, s.orderly⟩) ho
      refine ⟨ih.1.trans ?_, ih.2⟩
      simp only [List.drop_drop, hlk]
      congr 1
      omega
    · rename_i hn
      have hb : s.bytes = [] := by
        by_cases hb : s.bytes = []
        · exact hb
        · obtain ⟨k, _, _, _, hr2⟩ := read_data (n := min len 4096) hb (by omega)
          exact absurd hr2 (hn _ _)
      exact ⟨by simp [hb], ho⟩
termination_by s.bytes.length
decreasing_by simp only [List.length_drop]; omega

theorem endRest_left (x : Bytes) {s : Strm} (ho : s.orderly = true) : Left (endRest append x s) [] := by
  rw [endRest]
  split
  · rename_i b t hr
    have hlt := read_lt (by decide) hr
    have ht : t.orderly = true := by
      by_cases hb : s.bytes = []
      · rw [read_nil hb, ho] at hr
        cases hr
      · obtain ⟨k, _, _, _, hr2⟩ := read_data (n := 4096) hb (by decide)
        rw [hr] at hr2
        injection hr2 with _ h2
        rw [h2]
        exact ho
    exact endRest_left (x ++ b) ht
  · rename_i hn
    have hb : s.bytes = [] := by
      by_cases hb : s.bytes = []
      · exact hb
      · obtain ⟨k, _, _, _, hr2⟩ := read_data (n := 4096) hb (by omega)
        exact absurd hr2 (hn _ _)
    exact ⟨hb, ho⟩
termination_by s.bytes.length

variable {σ : Type}

theorem chunksRest_step (out : σ → Bytes → Option σ) (line : Bytes) (x : σ) (s : Strm) : chunksRest out line x s =
    match Wire.strtoull 16 line with
    | none => s
    | some n =>
      if n = 2 ^ 64 - 1 ∨ n = 0 then s
      else
        match withLength out n x s with
        | none => lengthRest out n x s
        | some (x, s0) =>
          match getline [] s0 with
          | none => spent s0
          | some (l, r) =>
            if BoolTime.cstr l ≠ [13, 10] then r
            else
              match getline [] r with
              | none => spent r
              | some (l2, r2) => chunksRest out l2 x r2 := by
  rw [chunksRest.eq_def]
  split <;> rename_i h1 <;> simp only [h1]
  split
  · rfl
  · split <;> rename_i h2 <;> simp only [h2]
    split <;> rename_i h3 <;> simp only [h3]
    split
    · rfl
    · split <;> rename_i h4 <;> simp only [h4]

theorem chunksStop_step (line s : Bytes) : chunksStop line s =
    match Wire.strtoull 16 line with
    | none => s
    | some n =>
      if n = 2 ^ 64 - 1 ∨ n = 0 then s
      else if s.length < n then []
      else
        match Wire.getLine (s.drop n) with
        | none => []
        | some (l, r) =>
          if BoolTime.cstr l ≠ [13, 10] then r
          else
            match Wire.getLine r with
            | none => []
            | some (l2, r2) => chunksStop l2 r2 := by
  rw [chunksStop.eq_def]
  split <;> rename_i h1 <;> simp only [h1]
  split
  · rfl
  · split
    · rfl
    · split <;> rename_i h3 <;> simp only [h3]
      split
      · rfl
      · split <;> rename_i h4 <;> simp only [h4]

theorem chunksRest_left (line x : Bytes) {s : Strm} (ho : s.orderly = true) :
    Left (chunksRest append line x s) (chunksStop line s.bytes) := by
  rw [chunksRest_step, chunksStop_step]
  cases Wire.strtoull 16 line with
  | none => exact ⟨rfl, ho⟩
  | some n =>
    dsimp only
    by_cases h0 : n = 2 ^ 64 - 1 ∨ n = 0
    · rw [if_pos h0, if_pos h0]; exact ⟨rfl, ho⟩
    · rw [if_neg h0, if_neg h0]
      by_cases hl : s.bytes.length < n
      · rw [if_pos hl, withLength_short hl]
        have h := lengthRest_left n x ho
        exact ⟨h.1.trans (List.drop_of_length_le (by omega)), h.2⟩
      · rw [if_neg hl]
        obtain ⟨s0, w1, w2, w3⟩ := withLength_append (len := n) x (Nat.le_of_not_lt hl)
        rw [w1]
        dsimp only
        rw [ho] at w3
        rw [← w2]
        cases hg : Wire.getLine s0.bytes with
        | none => rw [getline_none w3 hg]; exact left_spent w3
        | some p =>
          obtain ⟨l, r⟩ := p
          obtain ⟨s1, g1, g2, g3⟩ := getline_some w3 hg
          have hlt := Wire.getLine_lt hg
          rw [g1]
          dsimp only
          by_cases hc : BoolTime.cstr l ≠ [13, 10]
          · rw [if_pos hc, if_pos hc]; exact ⟨g2, g3⟩
          · rw [if_neg hc, if_neg hc, ← g2]
            cases hk : Wire.getLine s1.bytes with
            | none => rw [getline_none g3 hk]; exact left_spent g3
            | some p =>
              obtain ⟨l2, r2⟩ := p
              obtain ⟨s2, k1, k2, k3⟩ := getline_some g3 hk
              have hlt2 := Wire.getLine_lt hk
              rw [k1]
              dsimp only
              have ih := chunksRest_left l2 (x ++ s.bytes.take n) k3
              rw [k2] at ih
              exact ih
termination_by s.bytes.length
decreasing_by
  rw [k2]
  have : s0.bytes.length ≤ s.bytes.length := by rw [w2, List.length_drop]; omega
  rw [g2] at hlt2
  omega

theorem contentRest_left (hs : List Field) (x : Bytes) {s : Strm} (ho : s.orderly = true) :
    Left (contentRest append x hs s) (Conn.contentRest hs s.bytes) := by
  unfold contentRest Conn.contentRest
  dsimp only
  by_cases he : Wire.headerValue hs (str "Content-Encoding") = str "gzip" ∨
      Wire.headerValue hs (str "Content-Encoding") = str "deflate" ∨ Wire.hasBr (Wire.headerValue hs (str "Content-Encoding")) = true
  · rw [if_pos he, if_pos he]; exact ⟨rfl, ho⟩
  · rw [if_neg he, if_neg he]
    by_cases hc : Wire.isChunked hs = true
    · rw [if_pos hc, if_pos hc]
      cases hg : Wire.getLine s.bytes with
      | none => rw [getline_none ho hg]; exact left_spent ho
      | some p =>
        obtain ⟨l, r⟩ := p
        obtain ⟨t, g1, g2, g3⟩ := getline_some ho hg
        rw [g1]
        dsimp only
        rw [← g2]
        cases hk : Wire.chunks l t.bytes with
        | none =>
          rw [chunks_none g3 hk]
          exact chunksRest_left l x g3
        | some q =>
          obtain ⟨c, r'⟩ := q
          obtain ⟨ps, t', _, k2, k3, k4⟩ := chunks_some g3 hk
          rw [k4, foldlM_append_flatten]
          subst k2
          exact trailerRest_left k3
    · rw [if_neg hc, if_neg hc]
      by_cases hl : (!Wire.hasField hs (str "Content-Length")) = true
      · rw [if_pos hl, if_pos hl]; exact endRest_left x ho
      · rw [if_neg hl, if_neg hl]; exact lengthRest_left _ x ho

theorem bodyRest_left (ok : Bytes → Bool) (mp : Wire.Multipart) (stop : Bytes → Nat) (m : Method) {hs : List Field} (hp : plain hs)
    {s : Strm} (ho : s.orderly = true) : Left (bodyRest ok m hs s) (Conn.bodyRest mp stop m hs s.bytes) := by
  unfold bodyRest Conn.bodyRest
  unfold plain at hp
  dsimp only
  rw [hp]
  simp only [Bool.false_and, Bool.false_eq_true, if_false]
  by_cases hd : m = Method.delete ∧ Wire.hasField hs (str "Content-Length") = false
  · rw [if_pos hd, if_pos hd]; exact ⟨rfl, ho⟩
  · rw [if_neg hd, if_neg hd]; exact contentRest_left hs [] ho

/-- What a request does on a connection that arrives in pieces agrees with what it does on the whole. -/
def Agree : Outcome (Option (Done × Strm)) → Outcome (Option Done) → Prop
  | .ub, .ub => True
  | .ok none, .ok none => True
  | .ok (some (d, t)), .ok (some e) => d = e ∧ Left t e.rest
  | _, _ => False

theorem leave_agree {interim closed : Bool} {reply : Res} {ran : Option (Endpoint × List Field × Bytes)} {t : Strm} {r : Bytes}
    (h : Left t r) : Agree (leave interim reply ran t closed) (.ok (some ⟨interim, reply, ran, r, closed⟩)) := by
  obtain ⟨rfl, ho⟩ := h
  exact ⟨rfl, rfl, ho⟩

/-- One request. -/
theorem serveNext_agree (rs : List Route) (ok : Bytes → Bool) (mp : Wire.Multipart) (bd : Bytes) (stop : Bytes → Nat)
    (dyn : List Field → Bytes → Endpoint → Reply) (close : Bool) {s : Strm} (ho : s.orderly = true)
    (hp : ∀ l r line ls r', Wire.getLine s.bytes = some (l, r) → parseRequestLine l = some line → Wire.expectsContent line.method = true →
      Wire.readLines r = (ls, some r') → plain (readHeaders ls)) :
    Agree (serveNext rs ok bd dyn close s) (Conn.serveNext rs mp bd stop dyn close s.bytes) := by
  unfold serveNext Conn.serveNext
  cases hg : Wire.getLine s.bytes with
  | none => rw [getline_none ho hg]; trivial
  | some p =>
    obtain ⟨l, r⟩ := p
    obtain ⟨s', h1, rfl, h3⟩ := getline_some ho hg
    rw [h1]
    dsimp only
    cases hq : (if 8192 < l.length then none else parseRequestLine l) with
    | none =>
      dsimp only
      apply leave_agree
      split
      · exact linesRest_left h3
      · exact ⟨rfl, h3⟩
    | some line =>
      dsimp only
      obtain ⟨hl, hr⟩ := readLines_orderly h3
      cases hs : readLines s' with
      | mk a b =>
        cases ht : Wire.readLines s'.bytes with
        | mk a' b' =>
          rw [hs, ht] at hl hr
          dsimp only at hl hr
          subst hl
          cases b' with
          | none =>
            dsimp only at hr
            subst hr
            exact leave_agree (linesRest_left h3)
          | some r2 =>
            obtain ⟨s2, rfl, rfl, h6⟩ := hr
            dsimp only
            by_cases h4 : (rangesOf (readHeaders a)).2 = false
            · rw [if_pos h4, if_pos h4]
              exact leave_agree ⟨rfl, h6⟩
            · rw [if_neg h4, if_neg h4]
              split
              · rename_i hex
                have hq : parseRequestLine l = some line := by
                  split at hq
                  · cases hq
                  · exact hq
                have hpl := hp _ _ _ _ _ hg hq hex ht
                rw [readBody_plain ok mp line.method hpl h6]
                cases Wire.readBody mp line.method (readHeaders a) s2.bytes with
                | ub => trivial
                | ok w =>
                  cases w with
                  | error st => exact leave_agree (bodyRest_left ok mp stop line.method hpl h6)
                  | ok q => exact leave_agree (bodyRest_left ok mp stop line.method hpl h6)
              · exact leave_agree ⟨rfl, h6⟩

end Brski.CutConn
