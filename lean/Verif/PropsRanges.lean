import Verif.Ranges
import Verif.PropsChunks2
import Verif.Base64Lemmas

/-!
# C93: replies are complete or say which part they are
-/

namespace Brski.Props
open Routes Ranges

/-! ## Without ranges -/

/-- Without ranges the reply is the one of `Routes.writeResponse`. -/
theorem respond_none (close : Bool) (m : Method) (bd : Bytes) (need : Bool) (r : Res) :
    respond close m [] bd need r = writeResponse close m need r := by
  unfold respond writeResponse finish applyRanges
  simp only [List.length_nil, gt_iff_lt, Nat.not_lt_zero, if_false]
  generalize (if 400 ≤ r.status then errorHandler r else r) = r1
  by_cases h : (need = true ∨ 400 ≤ r.status)
  · by_cases hb : r1.body = []
    · simp [h, hb]
    · simp [h, hb]
  · simp [h]

/-- Without ranges a request is answered as `Routes.process` says. -/
theorem answer_none (rs : List Route) (dyn : Endpoint → Reply) (close : Bool) (bd line : Bytes) (l : Line) (hlen : line.length ≤ 8192)
    (hl : parseRequestLine line = some l) : answer rs dyn close [] bd l = process rs dyn close line := by
  unfold answer process
  rw [if_neg (by omega), hl]
  simp only [respond_none]
  rfl

/-! ## The field -/

/-- The text of a number that may be missing (specification). -/
def NumOf (x : Bytes) : Option Nat → Prop
  | none => x = []
  | some n => Denotes x n ∧ n < 2 ^ 63

/-- The text of a range (specification: RFC 9110 section 14.1.2). -/
def partText (x y : Bytes) : Bytes := x ++ 45 :: y

/-- Further ranges, each behind a comma and optional blanks (specification: RFC 9110 section 14.2). -/
def moreText (l : List (Bytes × Bytes × Bytes)) : Bytes := l.flatMap fun p => 44 :: (p.1 ++ partText p.2.1 p.2.2)

/-- A range that is not the wrong way round (specification). -/
def Forward : Rng → Prop
  | (some a, some b) => a ≤ b
  | _ => True

/-- A list of texts and what they denote (specification). -/
def RangesWritten : List (Bytes × Bytes × Bytes) → List Rng → Prop
  | [], [] => True
  | p :: ps, r :: rs => (∀ c ∈ p.1, c = 32 ∨ c = 9) ∧ NumOf p.2.1 r.1 ∧ NumOf p.2.2 r.2 ∧ RangesWritten ps rs
  | _, _ => False

theorem numOf_digits {x : Bytes} {n : Option Nat} (h : NumOf x n) : ∀ c ∈ x, isNum c = true := by
  cases n with
  | none => cases h; simp
  | some n =>
    intro c hc
    have := h.1.2.1 c hc
    simp [isNum, UInt8.le_iff_toNat_le, this]

theorem dropWhile_all {p : UInt8 → Bool} : ∀ {x : Bytes} (r : Bytes), (∀ c ∈ x, p c = true) → (x ++ r).dropWhile p = r.dropWhile p
  | [], _, _ => rfl
  | c :: x, r, h => by
    rw [List.cons_append, List.dropWhile_cons, if_pos (h c List.mem_cons_self)]
    exact dropWhile_all r fun c hc => h c (List.mem_cons_of_mem _ hc)

theorem takeWhile_prefix {p : UInt8 → Bool} : ∀ {x : Bytes} (r : Bytes), (∀ c ∈ x, p c = true) → (x ++ r).takeWhile p = x ++ r.takeWhile p
  | [], _, _ => rfl
  | c :: x, r, h => by
    rw [List.cons_append, List.takeWhile_cons, if_pos (h c List.mem_cons_self), List.cons_append]
    rw [takeWhile_prefix r fun c hc => h c (List.mem_cons_of_mem _ hc)]

theorem afterRange_part {x y r : Bytes} (hx : ∀ c ∈ x, isNum c = true) (hy : ∀ c ∈ y, isNum c = true) (hr : r.head?.any isNum = false) :
    afterRange (partText x y ++ r) = some r := by
  unfold afterRange partText
  rw [List.append_assoc, dropWhile_all _ hx, List.cons_append]
  rw [List.dropWhile_cons, if_neg (by decide)]
  simp only
  rw [dropWhile_all _ hy]
  cases r with
  | nil => rfl
  | cons c r => rw [List.dropWhile_cons, if_neg (by simpa using hr)]

theorem more_head (l : List (Bytes × Bytes × Bytes)) : (moreText l).head?.any isNum = false := by
  cases l with
  | nil => rfl
  | cons p l => simp only [moreText, List.flatMap_cons, List.cons_append, List.head?_cons]; decide

theorem wellFormed_written : ∀ (l : List (Bytes × Bytes × Bytes)) (rs : List Rng) (x y : Bytes), RangesWritten l rs → (∀ c ∈ x, isNum c = true) →
    (∀ c ∈ y, isNum c = true) → wellFormed (partText x y ++ moreText l) = true
  | [], rs, x, y, _, hx, hy => by
    have h := afterRange_part (r := moreText []) hx hy (more_head [])
    unfold wellFormed
    split
    · rename_i h0; rw [h0] at h; cases h
    · rfl
    · rename_i h0; rw [h0] at h; cases h
  | p :: l, rs, x, y, hw, hx, hy => by
    have h := afterRange_part (r := moreText (p :: l)) hx hy (more_head _)
    cases rs with
    | nil => exact hw.elim
    | cons r rs =>
      obtain ⟨h1, h2, h3, h4⟩ := hw
      have ih := wellFormed_written l rs p.2.1 p.2.2 h4 (numOf_digits h2) (numOf_digits h3)
      unfold wellFormed
      split
      · rename_i h0; rw [h0] at h; cases h
      · rfl
      · rename_i c r' h0
        rw [h0] at h
        simp only [moreText, List.flatMap_cons, List.cons_append, Option.some.injEq, List.cons.injEq] at h
        rw [if_pos h.1, h.2, List.append_assoc, dropWhile_all _ fun c hc => by rcases h1 c hc with rfl | rfl <;> decide]
        have e : (partText p.2.1 p.2.2 ++ moreText l).dropWhile isWhite = partText p.2.1 p.2.2 ++ moreText l := by
          cases hp : p.2.1 with
          | nil => rfl
          | cons d x' =>
            have hd := numOf_digits h2 d (by rw [hp]; exact List.mem_cons_self)
            rw [partText, List.cons_append, List.cons_append, List.dropWhile_cons, if_neg]
            revert hd
            exact Base64.forall_uint8 (P := fun d => isNum d = true → ¬ isWhite d = true) (by decide +kernel) d
        show wellFormed ((partText p.2.1 p.2.2 ++ moreText l).dropWhile isWhite) = true
        rw [e]
        exact ih

theorem part_chars {x y : Bytes} (hx : ∀ c ∈ x, isNum c = true) (hy : ∀ c ∈ y, isNum c = true) : ∀ c ∈ partText x y, c ≠ 44 ∧ isBlank c = false := by
  intro c hc
  have hn : ∀ c, isNum c = true → c ≠ 44 ∧ isBlank c = false := fun c hc => by
    exact Base64.forall_uint8 (P := fun d => isNum d = true → d ≠ 44 ∧ isBlank d = false) (by decide +kernel) c hc
  rcases List.mem_append.1 hc with hc | hc
  · exact hn c (hx c hc)
  · rcases List.mem_cons.1 hc with rfl | hc
    · decide
    · exact hn c (hy c hc)

theorem pieces_written : ∀ (l : List (Bytes × Bytes × Bytes)) (rs : List Rng) (s : Bytes), RangesWritten l rs → (44 : UInt8) ∉ s →
    pieces 44 (s ++ moreText l) = s :: l.map fun p => p.1 ++ partText p.2.1 p.2.2
  | [], _, s, _, h => by simp [moreText, pieces_none h]
  | p :: l, [], _, hw, _ => hw.elim
  | p :: l, r :: rs, s, ⟨h1, h2, h3, h4⟩, h => by
    have hp : (44 : UInt8) ∉ p.1 ++ partText p.2.1 p.2.2 := by
      intro hm
      rcases List.mem_append.1 hm with hm | hm
      · rcases h1 _ hm with e | e <;> revert e <;> decide
      · exact (part_chars (numOf_digits h2) (numOf_digits h3) _ hm).1 rfl
    have e : moreText (p :: l) = 44 :: (p.1 ++ partText p.2.1 p.2.2 ++ moreText l) := by
      simp [moreText, List.flatMap_cons]
    rw [e, pieces_cons _ h, pieces_written l rs _ h4 hp]
    rfl

theorem trim_part {w x y : Bytes} (hw : ∀ c ∈ w, c = 32 ∨ c = 9) (hx : ∀ c ∈ x, isNum c = true) (hy : ∀ c ∈ y, isNum c = true) :
    trim (w ++ partText x y) = partText x y := by
  have hp := fun c hc => (part_chars hx hy c hc).2
  have : (w ++ partText x y).dropWhile isBlank = partText x y := by
    rw [dropWhile_all _ fun c hc => by rcases hw c hc with rfl | rfl <;> decide]
    exact dropWhile_none _ _ hp
  rw [trim, this, dropWhile_none _ _ (by simpa using hp), List.reverse_reverse]

theorem partText_ne (x y : Bytes) : partText x y ≠ [] := by simp [partText]

theorem split_written (l : List (Bytes × Bytes × Bytes)) (rs : List Rng) (hw : RangesWritten l rs) {x y : Bytes} (hx : ∀ c ∈ x, isNum c = true)
    (hy : ∀ c ∈ y, isNum c = true) : splitAll 44 (partText x y ++ moreText l) = partText x y :: l.map fun p => partText p.2.1 p.2.2 := by
  rw [splitAll, pieces_written l rs _ hw fun hm => (part_chars hx hy _ hm).1 rfl, List.map_cons, List.map_map]
  have e1 : trim (partText x y) = partText x y := by simpa using trim_part (w := []) (by simp) hx hy
  have e2 : l.map (trim ∘ fun p => p.1 ++ partText p.2.1 p.2.2) = l.map fun p => partText p.2.1 p.2.2 := by
    induction l generalizing rs with
    | nil => rfl
    | cons p l ih =>
      cases rs with
      | nil => exact hw.elim
      | cons r rs =>
        obtain ⟨h1, h2, h3, h4⟩ := hw
        rw [List.map_cons, List.map_cons, ih rs h4]
        simp only [Function.comp]
        rw [trim_part h1 (numOf_digits h2) (numOf_digits h3)]
  rw [e1, e2, List.filter_eq_self.2]
  intro s hs
  rcases List.mem_cons.1 hs with rfl | hs
  · simpa using partText_ne x y
  · obtain ⟨p, -, rfl⟩ := List.mem_map.1 hs
    simpa using partText_ne _ _

theorem stoll_num {x : Bytes} {n : Option Nat} (h : NumOf x n) : stoll x = some n := by
  cases n with
  | none => cases h; rfl
  | some n =>
    obtain ⟨⟨h1, -, h3⟩, h4⟩ := h
    unfold stoll
    rw [if_neg h1]
    simp only [h3, if_pos h4]

theorem item_part {x y : Bytes} {r : Rng} (hx : NumOf x r.1) (hy : NumOf y r.2) :
    item (partText x y) = match r with
      | (some a, some b) => if b < a then .stop else .add (some a, some b)
      | r => .add r := by
  have e : (partText x y).dropWhile isWhite = partText x y := by
    cases x with
    | nil => rfl
    | cons d x =>
      have hd := numOf_digits hx d List.mem_cons_self
      rw [partText, List.cons_append, List.dropWhile_cons, if_neg]
      revert hd
      exact Base64.forall_uint8 (P := fun d => isNum d = true → ¬ isWhite d = true) (by decide +kernel) d
  have e2 : (partText x y).dropWhile isNum = 45 :: y := by
    rw [partText, dropWhile_all _ (numOf_digits hx), List.dropWhile_cons, if_neg (by decide)]
  have e3 : (partText x y).takeWhile isNum = x := by
    rw [partText, takeWhile_prefix _ (numOf_digits hx), List.takeWhile_cons, if_neg (by decide), List.append_nil]
  have e4 : y.dropWhile isNum = [] := by simpa using dropWhile_all [] (numOf_digits hy)
  unfold item
  simp only [e, e2, e3, e4, if_true, stoll_num hx, stoll_num hy]
  obtain ⟨a, b⟩ := r
  cases a <;> cases b <;> rfl

theorem items_written : ∀ (l : List (Bytes × Bytes × Bytes)) (rs : List Rng), RangesWritten l rs → (∀ r ∈ rs, Forward r) →
    items (l.map fun p => partText p.2.1 p.2.2) = (rs, true)
  | [], [], _, _ => rfl
  | [], _ :: _, hw, _ => hw.elim
  | _ :: _, [], hw, _ => hw.elim
  | p :: l, r :: rs, ⟨_, h2, h3, h4⟩, hf => by
    have ih := items_written l rs h4 fun r hr => hf r (List.mem_cons_of_mem _ hr)
    have hr := hf r List.mem_cons_self
    rw [List.map_cons, items, item_part h2 h3, ih]
    obtain ⟨a, b⟩ := r
    cases a with
    | none => rfl
    | some a =>
      cases b with
      | none => rfl
      | some b =>
        simp only [if_neg (show ¬ b < a from Nat.not_lt.2 hr)]

/-- **C93**, the field: a list of ranges is read as it is written. -/
theorem C93_field {x y : Bytes} {g : Rng} (hx : NumOf x g.1) (hy : NumOf y g.2) (l : List (Bytes × Bytes × Bytes)) (rs : List Rng)
    (hw : RangesWritten l rs) (hf : ∀ r ∈ g :: rs, Forward r) :
    parseRanges (str "bytes=" ++ (partText x y ++ moreText l)) = (g :: rs, true) := by
  have hit := items_written (([], x, y) :: l) (g :: rs) ⟨by simp, hx, hy, hw⟩ hf
  unfold parseRanges
  have e : (str "bytes=").length = 6 := by decide
  rw [List.take_left' e, List.drop_left' e, if_pos ⟨rfl, wellFormed_written l rs _ _ hw (numOf_digits hx) (numOf_digits hy)⟩,
    split_written l rs hw (numOf_digits hx) (numOf_digits hy)]
  exact hit

/-- The hypotheses of `C93_field` can be met. -/
example : parseRanges (str "bytes=0-3, -5,07-") = ([(some 0, some 3), (none, some 5), (some 7, none)], true) := by decide +kernel

example : NumOf (str "0") (some 0) ∧ NumOf (str "3") (some 3) ∧
    RangesWritten [(str " ", [], str "5"), ([], str "07", [])] [(none, some 5), (some 7, none)] := by
  refine ⟨?_, ?_, by decide, rfl, ?_, by decide, ?_, rfl, trivial⟩ <;> exact ⟨⟨by decide, by decide, by decide⟩, by decide⟩

/-! ## The part -/

/-- The positions a range asks for in a text of length `len` (specification: RFC 9110 section 14.1.2; `-` alone, which is not allowed
there, is taken for everything). -/
def Within (len : Nat) : Rng → Nat → Bool
  | (some a, some b), i => a ≤ i && i ≤ b
  | (some a, none), i => a ≤ i
  | (none, some k), i => len ≤ i + k
  | (none, none), _ => true

/-- The bytes at the positions a range asks for (specification). -/
def partOf (g : Rng) (s : Bytes) : Bytes := (s.zipIdx.filter fun p => Within s.length g p.2).map (·.1)

theorem filter_below (a b : Nat) : ∀ (s : Bytes) (k : Nat),
    ((s.zipIdx k).filter fun p => decide (a ≤ p.2) && decide (p.2 ≤ b)).map (·.1) = (s.drop (a - k)).take (b + 1 - max a k)
  | [], k => by simp
  | c :: s, k => by
    rw [List.zipIdx_cons, List.filter_cons]
    have ih := filter_below a b s (k + 1)
    by_cases h : a ≤ k
    · by_cases h' : k ≤ b
      · rw [if_pos (by simp [h, h']), List.map_cons, ih, show a - k = 0 by omega, show a - (k + 1) = 0 by omega]
        rw [show b + 1 - max a k = (b + 1 - max a (k + 1)) + 1 by omega]
        simp
      · rw [if_neg (by simp [h']), ih, show b + 1 - max a k = 0 by omega, show b + 1 - max a (k + 1) = 0 by omega]
        simp
    · rw [if_neg (by simp [h]), ih, show a - k = (a - (k + 1)) + 1 by omega, List.drop_succ_cons,
        show max a k = max a (k + 1) by omega]

theorem filter_from (a : Nat) (s : Bytes) : (s.zipIdx.filter fun p => decide (a ≤ p.2)).map (·.1) = s.drop a := by
  have h := filter_below a (a + s.length) s 0
  have e : s.zipIdx.filter (fun p => decide (a ≤ p.2) && decide (p.2 ≤ a + s.length)) = s.zipIdx.filter fun p => decide (a ≤ p.2) := by
    apply List.filter_congr
    intro p hp
    have : p.2 < s.length := by
      have := List.snd_lt_of_mem_zipIdx hp
      omega
    have : p.2 ≤ a + s.length := by omega
    simp [this]
  rw [e] at h
  rw [h]
  rw [List.take_of_length_le]
  · simp
  · simp; omega

/-- What the code cuts out is what the range asks for. -/
theorem substr_partOf (g : Rng) (hf : Forward g) (s : Bytes) (hs : s.length < 2 ^ 63) (h0 : (offsetLength s.length g).1 < s.length) :
    substr s (offsetLength s.length g).1 (offsetLength s.length g).2 = partOf g s := by
  obtain ⟨a, b⟩ := g
  unfold partOf substr
  cases a with
  | none =>
    cases b with
    | none =>
      simp only [offsetLength, Within, List.drop_zero, List.take_length]
      rw [List.filter_eq_self.2 (by simp), List.zipIdx_map_fst]
    | some k =>
      simp only [offsetLength, Within]
      have e : s.zipIdx.filter (fun p => decide (s.length ≤ p.2 + k)) = s.zipIdx.filter fun p => decide (s.length - k ≤ p.2) := by
        apply List.filter_congr
        intro p _
        rw [decide_eq_decide]
        omega
      rw [e, filter_from, List.take_of_length_le]
      rw [List.length_drop]
      omega
  | some a =>
    cases b with
    | none =>
      simp only [offsetLength] at h0
      simp only [offsetLength, Within]
      rw [filter_from, List.take_of_length_le]
      rw [List.length_drop]
      have : (((s.length : Int) - 1 - a + 1) % 2 ^ 64) = (s.length : Int) - a := by
        rw [Int.emod_eq_of_lt] <;> omega
      rw [this]
      omega
    | some b =>
      have hab : a ≤ b := hf
      simp only [offsetLength, Within]
      have := filter_below a b s 0
      simp only [Nat.sub_zero, Nat.max_zero] at this
      rw [this, show b - a + 1 = b + 1 - a by omega]

theorem partOf_empty (g : Rng) (hf : Forward g) (s : Bytes) (hs : s ≠ []) (h0 : ¬ (offsetLength s.length g).1 < s.length) : partOf g s = [] := by
  obtain ⟨a, b⟩ := g
  have hl : 0 < s.length := List.length_pos_iff.2 hs
  unfold partOf
  rw [List.map_eq_nil_iff, List.filter_eq_nil_iff]
  intro p hp
  have hlt : p.2 < s.length := by
    have := List.snd_lt_of_mem_zipIdx hp
    omega
  cases a with
  | none =>
    cases b with
    | none => exact absurd hl h0
    | some k =>
      simp only [offsetLength] at h0
      simp only [Within, decide_eq_true_eq]
      omega
  | some a =>
    cases b with
    | none => simp only [offsetLength] at h0; simp only [Within, decide_eq_true_eq]; omega
    | some b => simp only [offsetLength] at h0; simp only [Within, Bool.and_eq_true, decide_eq_true_eq]; omega

/-! ## The reply -/

/-- Fields of a reply that `finish` leaves alone or adds. -/
theorem finish_named (c : Bool) (m : Method) {r : Res} (hs : Sorted r.headers) (n : Bytes) (h1 : ¬ SameName (str "Keep-Alive") n)
    (h2 : ¬ SameName (str "Content-Type") n) (h3 : SameName (str "Content-Length") n → fieldsNamed (str "Content-Length") r.headers ≠ [])
    (h4 : ¬ SameName (str "Accept-Ranges") n) :
    Sorted (finish c m r).headers ∧ (finish c m r).status = r.status ∧ (finish c m r).body = (if m = .head then [] else r.body) ∧
    (¬ SameName (str "Connection") n → fieldsNamed n (finish c m r).headers = fieldsNamed n r.headers) ∧
    (n = str "Connection" → fieldsNamed n (finish c m r).headers = fieldsNamed n r.headers ++ if c then [(str "Connection", str "close")] else []) := by
  have keep : ∀ (r : Res) (k v : Bytes), (setHeader r k v).status = r.status ∧ (setHeader r k v).body = r.body := by
    intro r k v
    unfold setHeader
    split <;> exact ⟨rfl, rfl⟩
  have step : ∀ (p : Prop) [Decidable p] (r : Res) (k v : Bytes), Sorted r.headers → (p → ¬ SameName k n) →
      Sorted (if p then setHeader r k v else r).headers ∧ (if p then setHeader r k v else r).status = r.status ∧
      (if p then setHeader r k v else r).body = r.body ∧
      fieldsNamed n (if p then setHeader r k v else r).headers = fieldsNamed n r.headers := by
    intro p _ r k v h hk
    split
    · rename_i hp
      exact ⟨setHeader_sorted h k v, (keep r k v).1, (keep r k v).2, setHeader_other h (hk hp)⟩
    · exact ⟨h, rfl, rfl, rfl⟩
  unfold finish
  simp only
  have e3 : Sorted (setHeader r (keepField c).1 (keepField c).2).headers := setHeader_sorted hs _ _
  have b3 := keep r (keepField c).1 (keepField c).2
  have l3 : fieldsNamed (str "Content-Length") (setHeader r (keepField c).1 (keepField c).2).headers = fieldsNamed (str "Content-Length") r.headers :=
    setHeader_other hs (by cases c <;> decide)
  have n3 : (¬ SameName (str "Connection") n → fieldsNamed n (setHeader r (keepField c).1 (keepField c).2).headers = fieldsNamed n r.headers) ∧
      (n = str "Connection" → fieldsNamed n (setHeader r (keepField c).1 (keepField c).2).headers =
        fieldsNamed n r.headers ++ if c then [(str "Connection", str "close")] else []) := by
    cases c with
    | true =>
      exact ⟨fun h => setHeader_other hs h, fun h => by
        subst h; exact setHeader_this hs (k := str "Connection") (v := str "close") (by decide) (by decide)⟩
    | false =>
      have := setHeader_other hs (k := str "Keep-Alive") (v := str "timeout=5, max=5") h1
      exact ⟨fun _ => this, fun _ => by rw [if_neg (by decide), List.append_nil]; exact this⟩
  generalize setHeader r (keepField c).1 (keepField c).2 = r3 at e3 b3 l3 n3 ⊢
  have e4 := step ((!hasHeader r3 (str "Content-Type") && decide (r3.body ≠ [])) = true) r3 (str "Content-Type") (str "text/plain") e3 fun _ => h2
  have l4 : fieldsNamed (str "Content-Length") (if (!hasHeader r3 (str "Content-Type") && decide (r3.body ≠ [])) = true then
      setHeader r3 (str "Content-Type") (str "text/plain") else r3).headers = fieldsNamed (str "Content-Length") r3.headers := by
    split
    · exact setHeader_other e3 (by decide)
    · rfl
  generalize (if (!hasHeader r3 (str "Content-Type") && decide (r3.body ≠ [])) = true then
    setHeader r3 (str "Content-Type") (str "text/plain") else r3) = r4 at e4 l4 ⊢
  have e5 := step ((!hasHeader r4 (str "Content-Length") && decide (r4.body = [])) = true) r4 (str "Content-Length") (str "0") e4.1 (by
    intro hp hn
    have := (hasHeader_iff r4 (str "Content-Length")).2 (by rw [l4, l3]; exact h3 hn)
    simp [this] at hp)
  generalize (if (!hasHeader r4 (str "Content-Length") && decide (r4.body = [])) = true then
    setHeader r4 (str "Content-Length") (str "0") else r4) = r5 at e5 ⊢
  have e6 := step ((!hasHeader r5 (str "Accept-Ranges") && decide (m = .head)) = true) r5 (str "Accept-Ranges") (str "bytes") e5.1 fun _ => h4
  generalize (if (!hasHeader r5 (str "Accept-Ranges") && decide (m = .head)) = true then
    setHeader r5 (str "Accept-Ranges") (str "bytes") else r5) = r6 at e6 ⊢
  have en := (e6.2.2.2.trans e5.2.2.2).trans e4.2.2.2
  refine ⟨e6.1, ((e6.2.1.trans e5.2.1).trans e4.2.1).trans b3.1, ?_, fun h => en.trans (n3.1 h), fun h => en.trans (n3.2 h)⟩
  rw [((e6.2.2.1.trans e5.2.2.1).trans e4.2.2.1).trans b3.2]

theorem setHeader_keeps (r : Res) (k v : Bytes) : (setHeader r k v).status = r.status ∧ (setHeader r k v).body = r.body := by
  unfold setHeader
  split <;> exact ⟨rfl, rfl⟩

theorem filter_erase_other {q : Field → Bool} {f : Field} (hf : q f = false) : ∀ l : List Field, (l.erase f).filter q = l.filter q
  | [] => rfl
  | g :: l => by
    rw [List.erase_cons]
    split
    · rename_i h
      have : g = f := by simpa using h
      rw [List.filter_cons, this, hf]
      rfl
    · rw [List.filter_cons, List.filter_cons, filter_erase_other hf l]

/-- Ranges do not touch the field `Connection`. -/
theorem applyRanges_connection (rs : List Rng) (bd : Bytes) {r : Res} (hs : Sorted r.headers) :
    Sorted (applyRanges rs bd r).headers ∧ fieldsNamed (str "Connection") (applyRanges rs bd r).headers = fieldsNamed (str "Connection") r.headers := by
  unfold applyRanges
  have h0 : ∀ p : Bytes × Res, (p = if rs.length > 1 then
      match r.headers.find? fun f => !ciLt f.1 (str "Content-Type") && !ciLt (str "Content-Type") f.1 with
      | some f => (f.2, setHeader { r with headers := r.headers.erase f } (str "Content-Type") (str "multipart/byteranges; boundary=" ++ bd))
      | none => ([], setHeader r (str "Content-Type") (str "multipart/byteranges; boundary=" ++ bd))
    else ([], r)) → Sorted p.2.headers ∧ fieldsNamed (str "Connection") p.2.headers = fieldsNamed (str "Connection") r.headers := by
    intro p hp
    split at hp
    · split at hp
      · rename_i f hf
        subst hp
        have hsub : Sorted (r.headers.erase f) := List.Pairwise.sublist List.erase_sublist hs
        refine ⟨setHeader_sorted (r := ⟨_, _, _⟩) hsub _ _, ?_⟩
        rw [setHeader_other (r := ⟨_, _, _⟩) hsub (by decide)]
        apply filter_erase_other
        have := List.find?_some hf
        rw [decide_eq_false_iff_not]
        intro hx
        have hct : SameName f.1 (str "Content-Type") := by
          simp only [Bool.and_eq_true, Bool.not_eq_true'] at this
          exact ciLt_tri this.1 this.2
        exact absurd (hct.symm.trans hx) (by decide)
      · subst hp
        exact ⟨setHeader_sorted hs _ _, setHeader_other hs (by decide)⟩
    · subst hp
      exact ⟨hs, rfl⟩
  generalize hp : (if rs.length > 1 then
      match r.headers.find? fun f => !ciLt f.1 (str "Content-Type") && !ciLt (str "Content-Type") f.1 with
      | some f => (f.2, setHeader { r with headers := r.headers.erase f } (str "Content-Type") (str "multipart/byteranges; boundary=" ++ bd))
      | none => ([], setHeader r (str "Content-Type") (str "multipart/byteranges; boundary=" ++ bd))
    else ([], r)) = p
  obtain ⟨h1, h2⟩ := h0 p hp.symm
  clear h0
  obtain ⟨ct, r1⟩ := p
  simp only at h1 h2 ⊢
  split
  · exact ⟨h1, h2⟩
  · have fin : ∀ r2 : Res, Sorted r2.headers → fieldsNamed (str "Connection") r2.headers = fieldsNamed (str "Connection") r.headers →
        Sorted (setHeader r2 (str "Content-Length") (BoolTime.natDec r2.body.length)).headers ∧
        fieldsNamed (str "Connection") (setHeader r2 (str "Content-Length") (BoolTime.natDec r2.body.length)).headers =
          fieldsNamed (str "Connection") r.headers := fun r2 a b =>
      ⟨setHeader_sorted a _ _, by rw [setHeader_other a (by decide)]; exact b⟩
    apply fin
    · split
      · exact h1
      · split <;> exact setHeader_sorted h1 _ _
      · split <;> exact h1
    · split
      · exact h2
      · rename_i g
        have := setHeader_other h1 (k := str "Content-Range") (v := rangeText g r1.body.length) (n := str "Connection") (by decide)
        split <;> exact this.trans h2
      · split <;> exact h2

/-- The announcement of the end of the connection (specification). -/
def Announces (r : Res) : Prop := (str "Connection", str "close") ∈ r.headers

theorem announces_named (r : Res) : Announces r ↔ (str "Connection", str "close") ∈ fieldsNamed (str "Connection") r.headers := by
  unfold Announces fieldsNamed
  rw [List.mem_filter]
  exact ⟨fun h => ⟨h, by simp [SameName]⟩, fun h => h.1⟩

theorem errorHandler_fields {r : Res} (hs : Sorted r.headers) (n : Bytes) (hn : ¬ SameName (str "Content-Type") n) :
    Sorted (errorHandler r).headers ∧ fieldsNamed n (errorHandler r).headers = fieldsNamed n r.headers ∧
    (errorHandler r).body = (if r.body = [] then str "Router error" else r.body) ∧ (errorHandler r).status = r.status := by
  unfold errorHandler
  have hb : Sorted (if r.body = [] then { r with body := str "Router error" } else r).headers ∧
      fieldsNamed n (if r.body = [] then { r with body := str "Router error" } else r).headers = fieldsNamed n r.headers ∧
      (if r.body = [] then { r with body := str "Router error" } else r).body = (if r.body = [] then str "Router error" else r.body) ∧
      (if r.body = [] then { r with body := str "Router error" } else r).status = r.status := by
    split <;> exact ⟨hs, rfl, rfl, rfl⟩
  exact ⟨setHeader_sorted hb.1 _ _, by rw [setHeader_other hb.1 hn]; exact hb.2.1, (setHeader_keeps _ _ _).2.trans hb.2.2.1,
    (setHeader_keeps _ _ _).1.trans hb.2.2.2⟩

theorem respond_announces {c : Bool} {m : Method} {rs : List Rng} {bd : Bytes} {need : Bool} {r : Res} (hs : Sorted r.headers)
    (h0 : fieldsNamed (str "Connection") r.headers = []) : Announces (respond c m rs bd need r) ↔ c = true := by
  unfold respond
  simp only
  have h1 : Sorted (if 400 ≤ r.status then errorHandler r else r).headers ∧
      fieldsNamed (str "Connection") (if 400 ≤ r.status then errorHandler r else r).headers = [] := by
    split
    · have := errorHandler_fields hs (str "Connection") (by decide)
      exact ⟨this.1, this.2.1.trans h0⟩
    · exact ⟨hs, h0⟩
  generalize (if 400 ≤ r.status then errorHandler r else r) = r1 at h1 ⊢
  have h2 : Sorted (if need = true ∨ 400 ≤ r.status then applyRanges rs bd r1 else r1).headers ∧
      fieldsNamed (str "Connection") (if need = true ∨ 400 ≤ r.status then applyRanges rs bd r1 else r1).headers = [] := by
    split
    · have := applyRanges_connection rs bd h1.1
      exact ⟨this.1, this.2.trans h1.2⟩
    · exact h1
  generalize (if need = true ∨ 400 ≤ r.status then applyRanges rs bd r1 else r1) = r2 at h2 ⊢
  have h3 := (finish_named c m h2.1 (str "Connection") (by decide) (by decide) (fun h => absurd h (by decide)) (by decide)).2.2.2.2 rfl
  rw [announces_named, h3, h2.2]
  cases c <;> simp

theorem setResponse_fields (e : Endpoint) (r : Reply) (n : Bytes) (hn : ¬ SameName (str "Content-Type") n) :
    Sorted (setResponse ⟨0, [], []⟩ r.body [(str "Content-Type", e.contentType)] r.status).headers ∧
    fieldsNamed n (setResponse ⟨0, [], []⟩ r.body [(str "Content-Type", e.contentType)] r.status).headers = [] ∧
    (setResponse ⟨0, [], []⟩ r.body [(str "Content-Type", e.contentType)] r.status).body = r.body ∧
    (setResponse ⟨0, [], []⟩ r.body [(str "Content-Type", e.contentType)] r.status).status = r.status := by
  have e1 : Sorted (setHeader ⟨0, [], []⟩ (str "Content-Type") e.contentType).headers ∧
      fieldsNamed n (setHeader ⟨0, [], []⟩ (str "Content-Type") e.contentType).headers = [] :=
    ⟨setHeader_sorted (r := ⟨0, [], []⟩) List.Pairwise.nil _ _, by
      rw [setHeader_other (r := ⟨0, [], []⟩) List.Pairwise.nil hn]; rfl⟩
  have e2 : ∀ (r : Res) (b ct : Bytes), Sorted r.headers → fieldsNamed n r.headers = [] →
      Sorted (setContent r b ct).headers ∧ fieldsNamed n (setContent r b ct).headers = [] ∧ (setContent r b ct).body = b := by
    intro r b ct h h'
    unfold setContent
    have hf : Sorted (List.filter (fun f : Field => ciLt f.1 (str "Content-Type") || ciLt (str "Content-Type") f.1) r.headers) :=
      List.Pairwise.filter _ h
    refine ⟨setHeader_sorted (r := ⟨_, _, _⟩) hf _ _, ?_, (setHeader_keeps _ _ _).2⟩
    rw [setHeader_other (r := ⟨_, _, _⟩) hf hn]
    unfold fieldsNamed at h' ⊢
    rw [List.filter_eq_nil_iff] at h' ⊢
    exact fun f hm => h' f (List.mem_filter.1 hm).1
  have e3 := e2 _ r.body ((List.lookup (str "Content-Type") [(str "Content-Type", e.contentType)]).getD []) e1.1 e1.2
  exact ⟨e3.1, e3.2.1, e3.2.2, rfl⟩

theorem answer_announces (rs : List Route) (dyn : Endpoint → Reply) (c : Bool) (rg : List Rng) (bd : Bytes) (l : Line) :
    Announces (answer rs dyn c rg bd l) ↔ c = true := by
  unfold answer
  split
  · exact respond_announces List.Pairwise.nil rfl
  · exact respond_announces List.Pairwise.nil rfl
  · rename_i e _
    have := setResponse_fields e (e.stub.getD (dyn e)) (str "Connection") (by decide)
    exact respond_announces this.1 this.2.1

/-! ## C93 -/

/-- **C93** as stated: whatever `Range` field a request carries, a reply of a handler that is not empty is sent as a whole, unless
the status says that it is a part (206) or that there is no such part (416). -/
def C93_statement : Prop :=
  ∀ (rs : List Route) (dyn : Endpoint → Reply) (close : Bool) (bd : Bytes) (l : Line) (e : Endpoint) (v : Bytes),
    routing rs l = some (some e) → l.method ≠ .head → (e.stub.getD (dyn e)).body ≠ [] →
    let w := answer rs dyn close (parseRanges v).1 bd l
    w.status = 206 ∨ w.status = 416 ∨ w.body = (e.stub.getD (dyn e)).body

/-- The code violates C93: a part of the voucher is sent with status 200. -/
theorem C93_violated : ¬ C93_statement := by
  intro h
  have := h registrarRoutes (fun _ => ⟨200, str "voucher"⟩) false [] ⟨.post, str "/.well-known/brski/requestvoucher"⟩
    .registrarRequestVoucher (str "bytes=0-3") (by decide +kernel) (by decide) (by decide)
  revert this
  decide +kernel

/-- The text for a `Content-Range` field has no line break. -/
theorem rangeText_no_crlf (g : Rng) (n : Nat) : hasCrlf (rangeText g n) = false := by
  have hn : ∀ o : Option Nat, ∀ c ∈ numText o, c ≠ 13 ∧ c ≠ 10 := by
    intro o c hc
    cases o with
    | none => cases hc
    | some n =>
      have := (natDec_denotes n).2.1 c hc
      constructor <;> rintro rfl <;> revert this <;> decide
  rw [hasCrlf_false]
  intro c hc
  have hm : c ∈ rangeText g n := by
    unfold BoolTime.cstr at hc
    exact (List.takeWhile_sublist _).mem hc
  unfold rangeText at hm
  simp only [List.mem_append] at hm
  have hl : ∀ c ∈ str "bytes " ++ str "-" ++ str "/", c ≠ 13 ∧ c ≠ 10 := by decide
  rcases hm with ((((hm | hm) | hm) | hm) | hm) | hm
  · exact hl c (by simp [hm])
  · exact hn _ c hm
  · exact hl c (by simp [hm])
  · exact hn _ c hm
  · exact hl c (by simp [hm])
  · exact hn (some n) c hm

/-- **C93** for one range: the reply is the part asked for, with its length and its position in the fields, or 416 without content
if there is no such part. -/
theorem C93_partial (rs : List Route) (dyn : Endpoint → Reply) (close : Bool) (bd : Bytes) (l : Line) (e : Endpoint)
    (he : routing rs l = some (some e)) (g : Rng) (hf : Forward g) (hb : (e.stub.getD (dyn e)).body ≠ [])
    (hlen : (e.stub.getD (dyn e)).body.length < 2 ^ 63) :
    let r := e.stub.getD (dyn e)
    let w := answer rs dyn close [g] bd l
    w.status = (if partOf g r.body = [] then 416 else r.status) ∧ w.body = (if l.method = .head then [] else partOf g r.body) ∧
    fieldsNamed (str "Content-Range") w.headers = [(str "Content-Range", rangeText g r.body.length)] ∧
    fieldsNamed (str "Content-Length") w.headers = [(str "Content-Length", BoolTime.natDec (partOf g r.body).length)] := by
  simp only
  unfold answer
  rw [he]
  simp only
  generalize e.stub.getD (dyn e) = r at hb hlen ⊢
  have hr := setResponse_fields e r (str "Content-Range") (by decide)
  have hl := setResponse_fields e r (str "Content-Length") (by decide)
  generalize setResponse ⟨0, [], []⟩ r.body [(str "Content-Type", e.contentType)] r.status = r0 at hr hl ⊢
  unfold respond
  simp only [true_or, if_true]
  have h1 : Sorted (if 400 ≤ r0.status then errorHandler r0 else r0).headers ∧
      fieldsNamed (str "Content-Range") (if 400 ≤ r0.status then errorHandler r0 else r0).headers = [] ∧
      fieldsNamed (str "Content-Length") (if 400 ≤ r0.status then errorHandler r0 else r0).headers = [] ∧
      (if 400 ≤ r0.status then errorHandler r0 else r0).body = r.body ∧
      (if 400 ≤ r0.status then errorHandler r0 else r0).status = r.status := by
    split
    · have a := errorHandler_fields hr.1 (str "Content-Range") (by decide)
      have b := errorHandler_fields hr.1 (str "Content-Length") (by decide)
      exact ⟨a.1, a.2.1.trans hr.2.1, b.2.1.trans hl.2.1, by rw [a.2.2.1, hr.2.2.1, if_neg hb], a.2.2.2.trans hr.2.2.2⟩
    · exact ⟨hr.1, hr.2.1, hl.2.1, hr.2.2.1, hr.2.2.2⟩
  generalize (if 400 ≤ r0.status then errorHandler r0 else r0) = r1 at h1 ⊢
  obtain ⟨s1, c1, l1, b1, t1⟩ := h1
  have hpart : (offsetLength r.body.length g).1 < r.body.length → partOf g r.body ≠ [] := by
    intro h
    rw [← substr_partOf g hf _ hlen h]
    unfold substr
    have hpos : 0 < (offsetLength r.body.length g).2 := by
      obtain ⟨a, b⟩ := g
      cases a <;> cases b <;> simp only [offsetLength] at h ⊢ <;> omega
    intro hn
    have := congrArg List.length hn
    simp only [List.length_take, List.length_drop, List.length_nil] at this
    omega
  have h2 : ∃ r2, applyRanges [g] bd r1 = r2 ∧ Sorted r2.headers ∧
      fieldsNamed (str "Content-Range") r2.headers = [(str "Content-Range", rangeText g r.body.length)] ∧
      fieldsNamed (str "Content-Length") r2.headers = [(str "Content-Length", BoolTime.natDec (partOf g r.body).length)] ∧
      r2.body = partOf g r.body ∧ r2.status = (if partOf g r.body = [] then 416 else r.status) := by
    refine ⟨_, rfl, ?_⟩
    unfold applyRanges
    simp only [List.length_cons, List.length_nil, Nat.zero_add, gt_iff_lt, Nat.lt_irrefl, if_false]
    rw [if_neg (by rw [b1]; exact hb)]
    rw [b1]
    have sR : Sorted (setHeader r1 (str "Content-Range") (rangeText g r.body.length)).headers := setHeader_sorted s1 _ _
    have cR := setHeader_this s1 (k := str "Content-Range") (v := rangeText g r.body.length) (by decide) (rangeText_no_crlf _ _)
    have lR := setHeader_other s1 (k := str "Content-Range") (v := rangeText g r.body.length) (n := str "Content-Length") (by decide)
    have kR := setHeader_keeps r1 (str "Content-Range") (rangeText g r.body.length)
    rw [c1, List.nil_append] at cR
    rw [l1] at lR
    generalize setHeader r1 (str "Content-Range") (rangeText g r.body.length) = rR at sR cR lR kR ⊢
    have fin : ∀ r2 : Res, r2.headers = rR.headers → r2.body = partOf g r.body → r2.status = (if partOf g r.body = [] then 416 else r.status) →
        Sorted (setHeader r2 (str "Content-Length") (BoolTime.natDec r2.body.length)).headers ∧
        fieldsNamed (str "Content-Range") (setHeader r2 (str "Content-Length") (BoolTime.natDec r2.body.length)).headers =
          [(str "Content-Range", rangeText g r.body.length)] ∧
        fieldsNamed (str "Content-Length") (setHeader r2 (str "Content-Length") (BoolTime.natDec r2.body.length)).headers =
          [(str "Content-Length", BoolTime.natDec (partOf g r.body).length)] ∧
        (setHeader r2 (str "Content-Length") (BoolTime.natDec r2.body.length)).body = partOf g r.body ∧
        (setHeader r2 (str "Content-Length") (BoolTime.natDec r2.body.length)).status = (if partOf g r.body = [] then 416 else r.status) := by
      intro r2 hh hb2 hs2
      have s2 : Sorted r2.headers := hh ▸ sR
      refine ⟨setHeader_sorted s2 _ _, ?_, ?_, (setHeader_keeps _ _ _).2.trans hb2, (setHeader_keeps _ _ _).1.trans hs2⟩
      · rw [setHeader_other s2 (by decide), hh, cR]
      · rw [setHeader_this s2 (by decide) (natDec_no_crlf _), hh, lR, hb2]
        rfl
    apply fin
    · split <;> rfl
    · split
      · rename_i h
        show substr rR.body _ _ = _
        rw [kR.2, b1]
        exact substr_partOf g hf _ hlen h
      · rename_i h
        exact (partOf_empty g hf _ hb h).symm
    · split
      · rename_i h
        rw [if_neg (hpart h)]
        exact kR.1.trans t1
      · rename_i h
        rw [if_pos (partOf_empty g hf _ hb h)]
  obtain ⟨r2, e2, s2, c2, l2, b2, t2⟩ := h2
  rw [e2]
  have fR := finish_named close l.method s2 (str "Content-Range") (by decide) (by decide) (fun h => absurd h (by decide)) (by decide)
  have fL := finish_named close l.method s2 (str "Content-Length") (by decide) (by decide) (fun _ => by rw [l2]; simp) (by decide)
  exact ⟨fR.2.1.trans t2, by rw [fR.2.2.1, b2], (fR.2.2.2.1 (by decide)).trans c2, (fL.2.2.2.1 (by decide)).trans l2⟩

/-- **C93** without ranges: the reply is complete. -/
theorem C93_partial_whole (rs : List Route) (dyn : Endpoint → Reply) (close : Bool) (bd : Bytes) (l : Line) (e : Endpoint)
    (he : routing rs l = some (some e)) (hm : l.method ≠ .head) (hb : (e.stub.getD (dyn e)).body ≠ []) :
    (answer rs dyn close [] bd l).body = (e.stub.getD (dyn e)).body ∧ (answer rs dyn close [] bd l).status = (e.stub.getD (dyn e)).status := by
  unfold answer
  rw [he]
  simp only [respond_none]
  have hr := setResponse_fields e (e.stub.getD (dyn e)) (str "Connection") (by decide)
  have := writeResponse_spec close l.method true hr.1
  simp only at this
  rw [this.2.1, this.1, hr.2.2.1, hr.2.2.2, if_neg hm, if_neg fun h => hb h.2]
  exact ⟨rfl, rfl⟩

/-- The hypotheses of C93 can be met, with parts and without. -/
example : partOf (some 1, some 2) (str "voucher") = str "ou" ∧ partOf (none, some 3) (str "voucher") = str "her" ∧
    partOf (some 7, none) (str "voucher") = [] ∧ Forward (some 1, some 2) :=
  ⟨by decide +kernel, by decide +kernel, by decide +kernel, (by decide : 1 ≤ 2)⟩

example :
    let w := answer registrarRoutes (fun _ => ⟨200, str "voucher"⟩) false [(some 7, none)] [] ⟨.post, str "/.well-known/brski/requestvoucher"⟩
    w.status = 416 ∧ w.body = [] := by decide +kernel

/-- Several ranges as the reply should have them (specification: RFC 9110 section 15.3.7.2). -/
def partsText (bd ct s : Bytes) (rs : List Rng) : Bytes :=
  rs.flatMap (fun g => str "--" ++ bd ++ str "\r\n" ++ (if ct = [] then [] else str "Content-Type: " ++ ct ++ str "\r\n") ++
    str "Content-Range: " ++ rangeText g s.length ++ str "\r\n\r\n" ++ partOf g s ++ str "\r\n") ++ str "--" ++ bd ++ str "--"

/-- The code violates C93 for several ranges: the parts are computed for a text of length 0, so open ranges are cut off at the
beginning, and the fields of the parts give this length. -/
theorem C93_violated_parts : ¬ ∀ (bd ct s : Bytes) (rs : List Rng), (∀ g ∈ rs, partOf g s ≠ []) →
    multipart bd ct s rs = some (partsText bd ct s rs) := by
  intro h
  have := h (str "b") [] (str "voucher") [(some 0, none), (none, some 3)] (by decide +kernel)
  revert this
  decide +kernel

/-- What is sent for `bytes=0-,-3`: two empty parts. -/
example : multipart (str "b") [] (str "voucher") [(some 0, none), (none, some 3)] =
    some (str "--b\r\nContent-Range: bytes 0-/0\r\n\r\n\r\n--b\r\nContent-Range: bytes -3/0\r\n\r\n\r\n--b--") := by decide +kernel

/-- Error texts are cut as well, and a field that is refused with 416 cuts the text for it. -/
example : (answer registrarRoutes (fun _ => ⟨200, []⟩) false [(some 0, some 3)] [] ⟨.get, str "/"⟩).body = str "Rout" ∧
    parseRanges (str "bytes=0-3,9-2") = ([(some 0, some 3)], false) := by decide +kernel

end Brski.Props
