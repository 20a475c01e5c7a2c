import Verif.EnrolLog
import Verif.PropsEnroll

/-!
# C106: the log entries of enrolments served at the same time are whole lines
-/

namespace Brski.Props
open Brski.Server Brski.EnrolLog BoolTime

/-- At every time the file consists of what it held before and of whole texts, each written once; at the end
of all of them (specification for /repo/src/brski/registrar/registrar_api.cpp:74-82).  `ws` are the texts with
their pieces. -/
def WholeTexts (ws : List (Bytes × List Bytes)) : Prop :=
  ∀ (old : Bytes) (out : List Bytes) (left : List (List Bytes)), Writes (ws.map Prod.snd) out left →
    ∃ done rest : List Bytes, (ws.map Prod.fst).Perm (done ++ rest) ∧ file old out = old ++ done.flatten ∧
      ((∀ p ∈ left, p = []) → rest.flatten = [])

/-- **C106** as stated, for streams with a buffer of `n` bytes: texts of any length
(specification for /repo/src/brski/registrar/registrar_api.cpp:74-82). -/
def C106_statement (n : Nat) : Prop :=
  ∀ ws : List (Bytes × List Bytes), (∀ w ∈ ws, (∃ time i l, w.1 = logLine time i l ∧ OneLine w.1) ∧ Cut n w.1 w.2) →
    WholeTexts ws

theorem perm_pull {α : Type} (a : List α) (x : α) (b : List α) : (a ++ x :: b).Perm (x :: (a ++ b)) :=
  List.perm_middle

theorem writes_perm {ps : List (List Bytes)} {out : List Bytes} {left : List (List Bytes)} (h : Writes ps out left) :
    ps.flatten.Perm (out ++ left.flatten) := by
  induction h with
  | none => exact .refl _
  | @next out l r c cs _ ih =>
    refine ih.trans ?_
    simp only [List.flatten_append, List.flatten_cons, List.append_assoc, List.singleton_append, List.cons_append]
    exact List.Perm.append_left _ (perm_pull _ _ _)

/-- A text that fits into the buffer is one piece, or none if it is empty. -/
theorem cut_short {n : Nat} {t : Bytes} {p : List Bytes} (h : Cut n t p) (hn : t.length ≤ n) :
    p = [t] ∨ p = [] ∧ t = [] := by
  have h1 := h.one hn
  have h2 := h.all
  match p, h1 with
  | [], _ => exact .inr ⟨rfl, by simpa using h2.symm⟩
  | [x], _ => exact .inl (by simpa using h2)

theorem nonempty_flatten (l : List Bytes) : (l.filter (· ≠ [])).flatten = l.flatten := by
  induction l with
  | nil => rfl
  | cons a l ih =>
    by_cases h : a = []
    · subst h; simpa using ih
    · rw [List.filter_cons_of_pos (by simpa using h), List.flatten_cons, List.flatten_cons, ih]

/-- **C106**, the part that holds: texts that fit into the buffer.  Missing: longer texts. -/
theorem C106_partial (n : Nat) (ws : List (Bytes × List Bytes)) (hc : ∀ w ∈ ws, Cut n w.1 w.2)
    (hn : ∀ w ∈ ws, w.1.length ≤ n) : WholeTexts ws := by
  intro old out left h
  have hp := writes_perm h
  have he : (ws.map Prod.snd).flatten = (ws.map Prod.fst).filter (· ≠ []) := by
    clear hp h
    induction ws with
    | nil => rfl
    | cons w ws ih =>
      have ih := ih (fun w hw => hc w (by simp [hw])) fun w hw => hn w (by simp [hw])
      rcases cut_short (hc w (by simp)) (hn w (by simp)) with e | ⟨e, e'⟩
      · have hne : w.1 ≠ [] := fun e0 => (hc w (by simp)).some (by rw [e, e0]; simp)
        rw [List.map_cons, List.flatten_cons, List.map_cons, List.filter_cons_of_pos (by simpa using hne), ih, e]
        rfl
      · rw [List.map_cons, List.flatten_cons, List.map_cons, List.filter_cons_of_neg (by simpa using e'), ih, e]
        rfl
  rw [he] at hp
  refine ⟨out, left.flatten ++ (ws.map Prod.fst).filter (fun t => !decide (t ≠ [])), ?_, rfl, fun hl => ?_⟩
  · rw [← List.append_assoc]
    exact (List.filter_append_perm (fun t => decide (t ≠ [])) (ws.map Prod.fst)).symm.trans (hp.append_right _)
  · have h1 : left.flatten = [] := List.flatten_eq_nil_iff.2 hl
    rw [h1, List.nil_append]
    refine List.flatten_eq_nil_iff.2 fun t ht => ?_
    simpa using (List.mem_filter.1 ht).2

theorem natDec_length (k : Nat) : ∀ m, m < 10 ^ k → 0 < k → (natDec m).length ≤ k := by
  induction k with
  | zero => intro m _ h; omega
  | succ k ih =>
    intro m hm _
    rw [natDec]
    split
    · simp
    · rename_i h
      rcases Nat.eq_zero_or_pos k with e | e
      · subst e; simp at hm; omega
      · have := ih (m / 10) (by rw [Nat.div_lt_iff_lt_mul (by decide)]; rw [Nat.pow_succ] at hm; omega) e
        simp; omega

theorem hexNat_length (k : Nat) : ∀ m, m < 16 ^ k → 0 < k → (hexNat m).length ≤ k := by
  induction k with
  | zero => intro m _ h; omega
  | succ k ih =>
    intro m hm _
    rw [hexNat]
    split
    · simp
    · rename_i h
      rcases Nat.eq_zero_or_pos k with e | e
      · subst e; simp at hm; omega
      · have := ih (m / 16) (by rw [Nat.div_lt_iff_lt_mul (by decide)]; rw [Nat.pow_succ] at hm; omega) e
        simp; omega

/-- The length of a line: 71 characters and the two serial numbers (numbers of 64 bits). -/
theorem logLine_length (time : Nat) (i l : Meta) (ht : time < 2 ^ 64) (hi : i.number < 2 ^ 64) (hl : l.number < 2 ^ 64) :
    (logLine time i l).length ≤ 71 + (serialText i).length + (serialText l).length := by
  have h1 := natDec_length 20 time (by have : (2 : Nat) ^ 64 < 10 ^ 20 := by decide
                                       omega) (by decide)
  have h2 := hexNat_length 16 i.number (by have : (2 : Nat) ^ 64 = 16 ^ 16 := by decide
                                           omega) (by decide)
  have h3 := hexNat_length 16 l.number (by have : (2 : Nat) ^ 64 = 16 ^ 16 := by decide
                                           omega) (by decide)
  have e1 : (str " 0x").length = 3 := by decide
  have e2 : (str " \"").length = 2 := by decide
  have e3 : (str "\" 0x").length = 4 := by decide
  have e4 : (str "\"\n").length = 2 := by decide
  simp only [logLine, List.length_append, e1, e2, e3, e4]
  omega

/-- The entries of any number of enrolments, written by their threads in any order: with a buffer of 4096
bytes and serial numbers of at most 2000 bytes the log consists of whole entries at every time. -/
theorem C106_enrolments_partial (ts : List (Nat × Meta × Meta)) (pieces : Nat × Meta × Meta → List Bytes)
    (hts : ∀ t ∈ ts, t.1 < 2 ^ 64 ∧ t.2.1.number < 2 ^ 64 ∧ t.2.2.number < 2 ^ 64 ∧
      (serialText t.2.1).length ≤ 2000 ∧ (serialText t.2.2).length ≤ 2000)
    (hc : ∀ t ∈ ts, Cut 4096 (logLine t.1 t.2.1 t.2.2) (pieces t)) :
    WholeTexts (ts.map fun t => (logLine t.1 t.2.1 t.2.2, pieces t)) := by
  refine C106_partial 4096 _ (fun w hw => ?_) fun w hw => ?_
  · obtain ⟨t, ht, rfl⟩ := List.mem_map.1 hw
    exact hc t ht
  · obtain ⟨t, ht, rfl⟩ := List.mem_map.1 hw
    obtain ⟨h1, h2, h3, h4, h5⟩ := hts t ht
    have := logLine_length t.1 t.2.1 t.2.2 h1 h2 h3
    show (logLine t.1 t.2.1 t.2.2).length ≤ 4096
    omega

/-- One enrolment at a time leaves whole entries, however long (one thread: its pieces are in order). -/
theorem C106_alone (old t : Bytes) (p : List Bytes) (n : Nat) (h : Cut n t p) (out : List Bytes)
    (hw : Writes [p] out [[]]) : file old out = old ++ t := by
  have key : ∀ (ps : List (List Bytes)) (out : List Bytes) (left : List (List Bytes)), Writes ps out left →
      ∀ p, ps = [p] → ∃ q, left = [q] ∧ p = out ++ q := by
    intro ps out left hw
    induction hw with
    | none => intro p e; exact ⟨p, e, rfl⟩
    | @next out l r c cs _ ih =>
      intro p e
      obtain ⟨q, e1, e2⟩ := ih p e
      have : l = [] ∧ r = [] := by
        have := congrArg List.length e1
        simp at this
        exact ⟨List.eq_nil_of_length_eq_zero (by omega), List.eq_nil_of_length_eq_zero (by omega)⟩
      obtain ⟨rfl, rfl⟩ := this
      simp only [List.nil_append, List.cons.injEq, and_true] at e1
      subst e1
      exact ⟨cs, rfl, by rw [e2]; simp⟩
  obtain ⟨q, e1, e2⟩ := key _ _ _ hw p rfl
  simp only [List.cons.injEq, and_true] at e1
  subst e1
  rw [List.append_nil] at e2
  rw [file, ← e2, h.all]

/-! ## Long entries are torn -/

theorem fullBuffers_cut (n : Nat) (hn : 0 < n) : ∀ k t, t.length ≤ k → Cut n t (fullBuffers n t) := by
  intro k
  induction k with
  | zero =>
    intro t ht
    obtain rfl : t = [] := List.eq_nil_of_length_eq_zero (by omega)
    rw [fullBuffers]
    simp only [List.length_nil, Nat.zero_le, or_true, dite_true, if_true]
    exact ⟨rfl, by simp, by simp⟩
  | succ k ih =>
    intro t ht
    rw [fullBuffers]
    by_cases h : n = 0 ∨ t.length ≤ n
    · rw [dif_pos h]
      split
      · rename_i e; subst e; exact ⟨rfl, by simp, by simp⟩
      · rename_i e
        exact ⟨by simp, by simpa using fun e0 => e e0, by simp⟩
    · rw [dif_neg h]
      have hl : n < t.length := by omega
      have := ih (t.drop n) (by rw [List.length_drop]; omega)
      refine ⟨by rw [List.flatten_cons, this.all, List.take_append_drop], ?_, fun hle => by omega⟩
      intro hm
      rcases List.mem_cons.1 hm with e | e
      · have := congrArg List.length e
        rw [List.length_take, List.length_nil] at this
        omega
      · exact this.some e

/-- The first line of a text (specification). -/
def firstLine (t : Bytes) : Bytes := t.takeWhile (· ≠ 10)

theorem firstLine_app (l : Bytes) (hl : (10 : UInt8) ∉ l) (t : Bytes) : firstLine (l ++ 10 :: t) = l := by
  induction l with
  | nil => rfl
  | cons a l ih =>
    have ha : a ≠ 10 := fun e => hl (by simp [e])
    have := ih fun hm => hl (by simp [hm])
    unfold firstLine at this ⊢
    rw [List.cons_append, List.takeWhile_cons_of_pos (by simpa using ha), this]

/-- Two lines of the same length that do not fit into the buffer but into two: written at the same time they
can be torn, so that the first line of the log is neither of them. -/
theorem C106_torn (n : Nat) (hn : 0 < n) (a b : Bytes) (ha : (10 : UInt8) ∉ a) (hb : (10 : UInt8) ∉ b)
    (hl : a.length = b.length) (h1 : n ≤ a.length) (h2 : a.length < 2 * n) :
    ∃ out, Writes [fullBuffers n (a ++ [10]), fullBuffers n (b ++ [10])] out [[], []] ∧
      firstLine (file [] out) = a.take n ++ b.take n ++ a.drop n ∧ firstLine (file [] out) ≠ a ∧
      firstLine (file [] out) ≠ b := by
  have two : ∀ x : Bytes, n ≤ x.length → x.length < 2 * n →
      fullBuffers n (x ++ [10]) = [x.take n, x.drop n ++ [10]] := by
    intro x h1 h2
    rw [fullBuffers, dif_neg (by simp; omega), fullBuffers,
      dif_pos (.inr (by simp; omega)), if_neg (by
        intro e
        have := congrArg List.length e
        simp at this; omega), List.take_append_of_le_length h1, List.drop_append_of_le_length h1]
  rw [two a h1 h2, two b (by omega) (by omega)]
  have hf : firstLine (file [] [a.take n, b.take n, a.drop n ++ [10], b.drop n ++ [10]]) =
      a.take n ++ b.take n ++ a.drop n := by
    have e : file [] [a.take n, b.take n, a.drop n ++ [10], b.drop n ++ [10]] =
        (a.take n ++ b.take n ++ a.drop n) ++ 10 :: (b.drop n ++ [10]) := by simp [file]
    rw [e]
    refine firstLine_app _ (fun hm => ?_) _
    rcases List.mem_append.1 hm with hm | hm
    · rcases List.mem_append.1 hm with hm | hm
      · exact ha (List.mem_of_mem_take hm)
      · exact hb (List.mem_of_mem_take hm)
    · exact ha (List.mem_of_mem_drop hm)
  have hlen : (firstLine (file [] [a.take n, b.take n, a.drop n ++ [10], b.drop n ++ [10]])).length = a.length + n := by
    rw [hf]
    simp only [List.length_append, List.length_take, List.length_drop]
    omega
  refine ⟨_, ?_, hf, fun e => ?_, fun e => ?_⟩
  · exact Writes.next (l := [[]]) (r := []) (c := b.drop n ++ [10]) (cs := [])
      (Writes.next (l := []) (r := [[b.drop n ++ [10]]]) (c := a.drop n ++ [10]) (cs := [])
      (Writes.next (l := [[a.drop n ++ [10]]]) (r := []) (c := b.take n) (cs := [b.drop n ++ [10]])
      (Writes.next (l := []) (r := [[b.take n, b.drop n ++ [10]]]) (c := a.take n) (cs := [a.drop n ++ [10]])
      (Writes.none _))))
  · rw [e] at hlen; omega
  · rw [e] at hlen; omega

/-- An entry for a client whose serial number consists of `k` letters
(/repo/src/brski/registrar/registrar_api.cpp:76-78). -/
def longEntry (c : UInt8) (k : Nat) : Bytes := logLine 1000 ⟨1, some (List.replicate k c)⟩ ⟨2, none⟩

theorem longEntry_eq (c : UInt8) (k : Nat) :
    longEntry c k = (str "1000 0x1 \"" ++ List.replicate k c ++ str "\" 0x2 \"NULL\"") ++ [10] := by
  have e0 : natDec 1000 ++ str " 0x" ++ hexNat 1 ++ str " \"" = str "1000 0x1 \"" := by decide +kernel
  have e1 : str "\" 0x" ++ (hexNat 2 ++ (str " \"" ++ (str "NULL" ++ str "\"\n"))) = str "\" 0x2 \"NULL\"" ++ [10] := by
    decide +kernel
  show natDec 1000 ++ str " 0x" ++ hexNat 1 ++ str " \"" ++ List.replicate k c ++ str "\" 0x" ++ hexNat 2 ++ str " \"" ++
    str "NULL" ++ str "\"\n" = _
  rw [e0]
  simp only [List.append_assoc]
  rw [e1]

/-- The code violates C106, whatever the size of the buffer: two clients with serial numbers as long as the
buffer enrol at the same time. -/
theorem C106_violated (n : Nat) (hn : 23 < n) : ¬ C106_statement n := by
  intro h
  have hno : ∀ c : UInt8, c ≠ 10 → (10 : UInt8) ∉ str "1000 0x1 \"" ++ List.replicate n c ++ str "\" 0x2 \"NULL\"" := by
    intro c hc hm
    rcases List.mem_append.1 hm with hm | hm
    · rcases List.mem_append.1 hm with hm | hm
      · revert hm; decide
      · exact hc (List.eq_of_mem_replicate hm).symm
    · revert hm; decide
  have hlen : ∀ c : UInt8, (str "1000 0x1 \"" ++ List.replicate n c ++ str "\" 0x2 \"NULL\"").length = n + 22 := by
    intro c
    have e1 : (str "1000 0x1 \"").length = 10 := by decide
    have e2 : (str "\" 0x2 \"NULL\"").length = 12 := by decide
    simp only [List.length_append, List.length_replicate, e1, e2]
    omega
  obtain ⟨out, hw, _, hA, hB⟩ := C106_torn n (by omega) (str "1000 0x1 \"" ++ List.replicate n 65 ++ str "\" 0x2 \"NULL\"")
    (str "1000 0x1 \"" ++ List.replicate n 66 ++ str "\" 0x2 \"NULL\"") (hno 65 (by decide)) (hno 66 (by decide))
    (by rw [hlen, hlen]) (by rw [hlen]; omega) (by rw [hlen]; omega)
  rw [← longEntry_eq, ← longEntry_eq] at hw
  have hln : ∀ c : UInt8, c ≠ 10 → OneLine (longEntry c n) := fun c hc => ⟨_, longEntry_eq c n, hno c hc⟩
  obtain ⟨done, rest, hp, hf, hr⟩ := h
    [(longEntry 65 n, fullBuffers n (longEntry 65 n)), (longEntry 66 n, fullBuffers n (longEntry 66 n))]
    (by
      intro w hw
      rcases List.mem_cons.1 hw with rfl | hw
      · exact ⟨⟨_, _, _, rfl, hln 65 (by decide)⟩, fullBuffers_cut n (by omega) _ _ (Nat.le_refl _)⟩
      · obtain rfl : w = _ := by simpa using hw
        exact ⟨⟨_, _, _, rfl, hln 66 (by decide)⟩, fullBuffers_cut n (by omega) _ _ (Nat.le_refl _)⟩)
    [] out [[], []] hw
  have hr := hr (by simp)
  have hall : ∀ x ∈ done ++ rest, x = longEntry 65 n ∨ x = longEntry 66 n := by
    intro x hx
    have := hp.mem_iff.2 hx
    simpa using this
  have hrest : rest = [] := by
    cases rest with
    | nil => rfl
    | cons x xs =>
      have hx := hall x (by simp)
      have : x = [] := by
        have := List.flatten_eq_nil_iff.1 hr x (by simp)
        exact this
      rcases hx with e | e <;> rw [this, longEntry_eq] at e <;> simp at e
  subst hrest
  rw [List.append_nil] at hp hall
  cases done with
  | nil => have := hp.length_eq; simp at this
  | cons x xs =>
    rw [List.nil_append] at hf
    rcases hall x (by simp) with e | e
    · refine hA ?_
      rw [hf, List.flatten_cons, e, longEntry_eq, List.append_assoc _ [10], List.singleton_append]
      exact firstLine_app _ (hno 65 (by decide)) _
    · refine hB ?_
      rw [hf, List.flatten_cons, e, longEntry_eq, List.append_assoc _ [10], List.singleton_append]
      exact firstLine_app _ (hno 66 (by decide)) _

/-! ## Cases -/

/-- Two short entries: whichever is written first, the log consists of both. -/
example : WholeTexts [(longEntry 65 3, [longEntry 65 3]), (longEntry 66 4, [longEntry 66 4])] :=
  C106_partial 4096 _ (fun w hw => by
      rcases List.mem_cons.1 hw with rfl | hw
      · exact ⟨by simp, by decide +kernel, fun _ => by simp⟩
      · obtain rfl : w = _ := by simpa using hw
        exact ⟨by simp, by decide +kernel, fun _ => by simp⟩)
    (by decide +kernel)

example : Writes [[longEntry 65 3], [longEntry 66 4]] [longEntry 66 4, longEntry 65 3] [[], []] :=
  Writes.next (l := []) (r := [[]]) (Writes.next (l := [[longEntry 65 3]]) (r := []) (Writes.none _))

example : WholeTexts ([(1000, ⟨1, some (str "S1")⟩, ⟨2, none⟩), (1001, ⟨3, none⟩, ⟨4, some (str "S2")⟩)].map fun t =>
    (logLine t.1 t.2.1 t.2.2, [logLine t.1 t.2.1 t.2.2])) :=
  C106_enrolments_partial _ (fun t => [logLine t.1 t.2.1 t.2.2]) (by decide +kernel) (fun t ht => by
    refine ⟨by simp, ?_, fun _ => by simp⟩
    revert t
    decide +kernel)

/-- Pieces of a text longer than the buffer, and its thread alone. -/
example : fullBuffers 4 (str "abcdefghi") = [str "abcd", str "efgh", str "i"] := by decide +kernel
example : file (str "x\n") [str "ab", str "c\n"] = str "x\n" ++ str "abc\n" :=
  C106_alone _ (str "abc\n") [str "ab", str "c\n"] 2 ⟨by decide, by decide, by decide⟩ _
    (Writes.next (l := []) (r := []) (Writes.next (l := []) (r := []) (Writes.none _)))

/-- A torn log. -/
example : ∃ out, Writes [fullBuffers 4 (str "aaaaaa\n"), fullBuffers 4 (str "bbbbbb\n")] out [[], []] ∧
    firstLine (file [] out) = str "aaaabbbbaa" := by
  obtain ⟨out, h1, h2, _⟩ := C106_torn 4 (by decide) (str "aaaaaa") (str "bbbbbb") (by decide) (by decide) (by decide)
    (by decide) (by decide)
  exact ⟨out, h1, h2.trans (by decide)⟩

end Brski.Props
