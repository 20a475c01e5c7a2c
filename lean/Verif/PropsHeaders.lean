import Verif.PropsTarget

/-!
# Properties C47, C62: header fields of requests, error replies
-/

namespace Brski.Props
open Routes

/-! ## The order of field names -/

/-- Names that differ in the case of letters only (specification: RFC 9110 section 5.1). -/
def SameName (a b : Bytes) : Prop := a.map lower = b.map lower

instance (a b : Bytes) : Decidable (SameName a b) := inferInstanceAs (Decidable (_ = _))

theorem ciLt_same : ∀ {a b : Bytes}, SameName a b → ciLt a b = false
  | [], [], _ => rfl
  | [], _ :: _, h => by cases h
  | _ :: _, [], h => by cases h
  | a :: s, b :: t, h => by
    simp only [SameName, List.map_cons, List.cons.injEq] at h
    have ih := ciLt_same (a := s) (b := t) h.2
    simp [ciLt, h.1, ih]

theorem ciLt_asymm : ∀ {a b : Bytes}, ciLt a b = true → ciLt b a = false
  | [], [], h => by cases h
  | [], _ :: _, _ => rfl
  | _ :: _, [], h => by cases h
  | a :: s, b :: t, h => by
    simp only [ciLt, Bool.or_eq_true, decide_eq_true_eq, Bool.and_eq_true, beq_iff_eq] at h
    simp only [ciLt, Bool.or_eq_false_iff, decide_eq_false_iff_not, Bool.and_eq_false_iff]
    rcases h with h | ⟨h1, h2⟩
    · refine ⟨fun h' => absurd (UInt8.lt_trans h h') (UInt8.lt_irrefl _), .inl ?_⟩
      rw [beq_eq_false_iff_ne]
      intro e
      rw [e] at h
      exact UInt8.lt_irrefl _ h
    · rw [h1]
      exact ⟨UInt8.lt_irrefl _, .inr (ciLt_asymm h2)⟩

theorem ciLt_of_not {a b c : Bytes} : ciLt a b = true → ciLt c b = false → ciLt a c = true := by
  induction a generalizing b c with
  | nil =>
    intro h1 h2
    cases b with
    | nil => cases h1
    | cons b t =>
      cases c with
      | nil => cases h2
      | cons => rfl
  | cons a s ih =>
    intro h1 h2
    cases b with
    | nil => cases h1
    | cons b t =>
      cases c with
      | nil => cases h2
      | cons c u =>
        simp only [ciLt, Bool.or_eq_true, decide_eq_true_eq, Bool.and_eq_true, beq_iff_eq] at h1 ⊢
        simp only [ciLt, Bool.or_eq_false_iff, decide_eq_false_iff_not, Bool.and_eq_false_iff, beq_eq_false_iff_ne] at h2
        obtain ⟨g1, g2⟩ := h2
        rcases h1 with h | ⟨h, h'⟩
        · left
          rw [UInt8.lt_iff_toNat_lt] at *
          omega
        · by_cases e : lower c = lower b
          · right
            refine ⟨h.trans e.symm, ih h' ?_⟩
            rcases g2 with g2 | g2
            · exact absurd e g2
            · exact g2
          · left
            rw [UInt8.lt_iff_toNat_lt] at *
            have : (lower c).toNat ≠ (lower b).toNat := fun h => e (UInt8.toNat_inj.1 h)
            rw [h]
            omega

/-! ## The multimap keeps the order of fields with the same name -/

/-- The fields are sorted by name. -/
def Sorted (hs : List Field) : Prop := hs.Pairwise fun x y => ciLt y.1 x.1 = false

/-- The fields with a name. -/
def fieldsNamed (n : Bytes) (hs : List Field) : List Field := hs.filter fun f => SameName f.1 n

theorem mem_takeWhile_imp {α : Type} {p : α → Bool} : ∀ {l : List α} {a : α}, a ∈ l.takeWhile p → p a = true
  | [], _, h => by simp at h
  | b :: l, a, h => by
    by_cases hb : p b = true
    · rw [List.takeWhile_cons_of_pos hb] at h
      rcases List.mem_cons.1 h with rfl | h
      · exact hb
      · exact mem_takeWhile_imp h
    · rw [List.takeWhile_cons_of_neg hb] at h
      simp at h

theorem emplace_behind {hs : List Field} (h : Sorted hs) (f : Field) :
    ∀ g ∈ hs.dropWhile (fun g => !ciLt f.1 g.1), ciLt f.1 g.1 = true := by
  induction hs with
  | nil => intro g hg; simp at hg
  | cons x hs ih =>
    obtain ⟨h1, h2⟩ := List.pairwise_cons.1 h
    by_cases hx : ciLt f.1 x.1 = true
    · rw [List.dropWhile_cons_of_neg (by simp [hx])]
      intro g hg
      rcases List.mem_cons.1 hg with rfl | hg
      · exact hx
      · exact ciLt_of_not hx (h1 g hg)
    · rw [List.dropWhile_cons_of_pos (by simpa using hx)]
      exact ih h2

theorem emplace_sorted {hs : List Field} (h : Sorted hs) (f : Field) : Sorted (emplace hs f) := by
  have hb := emplace_behind h f
  have hsplit := List.takeWhile_append_dropWhile (p := fun g : Field => !ciLt f.1 g.1) (l := hs)
  have h' := h
  unfold Sorted at h'
  rw [← hsplit] at h'
  rw [List.pairwise_append] at h'
  obtain ⟨p1, p2, p3⟩ := h'
  unfold Sorted emplace
  rw [List.pairwise_append]
  refine ⟨p1, List.pairwise_cons.2 ⟨fun g hg => ciLt_asymm (hb g hg), p2⟩, ?_⟩
  intro x hx y hy
  rcases List.mem_cons.1 hy with rfl | hy
  · simpa using mem_takeWhile_imp hx
  · exact p3 x hx y hy

theorem emplace_named {hs : List Field} (h : Sorted hs) (f : Field) (n : Bytes) :
    fieldsNamed n (emplace hs f) = fieldsNamed n hs ++ fieldsNamed n [f] := by
  have hsplit := List.takeWhile_append_dropWhile (p := fun g : Field => !ciLt f.1 g.1) (l := hs)
  unfold fieldsNamed emplace
  conv => rhs; rw [← hsplit]
  rw [List.filter_append, List.filter_append, List.append_assoc]
  congr 1
  by_cases hf : SameName f.1 n
  · have : (hs.dropWhile fun g => !ciLt f.1 g.1).filter (fun f => SameName f.1 n) = [] := by
      refine List.filter_eq_nil_iff.2 fun g hg hs' => ?_
      have h1 := emplace_behind h f g hg
      rw [ciLt_same (Eq.trans hf (Eq.symm (show SameName g.1 n by simpa using hs')))] at h1
      cases h1
    rw [List.filter_cons_of_pos (by simpa using hf), this]
    simp [hf]
  · rw [List.filter_cons_of_neg (by simpa using hf)]
    simp [hf]

theorem foldl_emplace (fs : List Field) : ∀ hs, Sorted hs → Sorted (fs.foldl emplace hs) ∧
    ∀ n, fieldsNamed n (fs.foldl emplace hs) = fieldsNamed n hs ++ fieldsNamed n fs := by
  induction fs with
  | nil => intro hs h; exact ⟨h, fun n => by simp [fieldsNamed]⟩
  | cons f fs ih =>
    intro hs h
    obtain ⟨i1, i2⟩ := ih _ (emplace_sorted h f)
    refine ⟨i1, fun n => ?_⟩
    rw [List.foldl_cons, i2, emplace_named h, List.append_assoc]
    congr 1
    exact (List.filter_append [f] fs).symm

/-! ## C47 -/

/-- Values joined by `", "` (specification). -/
def joined : List Bytes → Bytes
  | [] => []
  | [v] => v
  | v :: vs => v ++ [44, 32] ++ joined vs

/-- A header field as sent: name without colon, value without blanks around it, and any blanks before and after the
value (specification: RFC 9112 section 5). -/
structure SentField where
  name : Bytes
  value : Bytes
  pre : Bytes
  post : Bytes
  hpre : ∀ c ∈ pre ++ post, c = 32 ∨ c = 9
  hname : name ≠ [] ∧ (58 : UInt8) ∉ name
  hvalue : ∃ c, value.head? = some c ∧ isBlank c = false
  hend : ∃ c, value.getLast? = some c ∧ isBlank c = false

/-- Its line (specification). -/
def SentField.line (f : SentField) : Bytes := f.name ++ [58] ++ f.pre ++ f.value ++ f.post

/-- **C47** as stated: for every name that was received, in any spelling, the map has exactly one entry, and its
value is all the received values joined by `", "` in the order received. -/
def C47_statement : Prop :=
  ∀ (fs : List SentField) (n : Bytes), (∃ f ∈ fs, SameName f.name n) →
    ∃ k, (getRequestHeader (readHeaders (fs.map SentField.line))).filter (fun e => SameName e.1 n) =
      [(k, joined ((fs.filter fun f => SameName f.name n).map SentField.value))]

theorem mapSet_lookup (m : List Field) (k v k' : Bytes) :
    (mapSet m k v).lookup k' = if k' = k then some v else m.lookup k' := by
  induction m with
  | nil =>
    simp only [mapSet, List.lookup]
    by_cases h : k' = k
    · simp [h]
    · rw [if_neg h]
      have : (k' == k) = false := by simpa using h
      simp [this]
  | cons e m ih =>
    simp only [mapSet]
    by_cases he : e.1 = k
    · rw [if_pos he]
      simp only [List.lookup]
      by_cases h : k' = k
      · simp [h]
      · have h2 : (k' == k) = false := by simpa using h
        have h3 : (k' == e.1) = false := by rw [he]; exact h2
        simp [h2, h3, h]
    · rw [if_neg he]
      simp only [List.lookup]
      by_cases h : k' = e.1
      · have h2 : (k' == e.1) = true := by simpa using h
        have h3 : k' ≠ k := fun e' => he (h ▸ e')
        simp [h2, h3]
      · have h2 : (k' == e.1) = false := by simpa using h
        simp only [h2, ih]

theorem mapSet_keys (m : List Field) (k v : Bytes) (h : (m.map Prod.fst).Nodup) :
    ((mapSet m k v).map Prod.fst).Nodup ∧ ∀ x, x ∈ (mapSet m k v).map Prod.fst → x = k ∨ x ∈ m.map Prod.fst := by
  induction m with
  | nil => simp [mapSet]
  | cons e m ih =>
    rw [List.map_cons, List.nodup_cons] at h
    simp only [mapSet]
    by_cases he : e.1 = k
    · rw [if_pos he]
      subst he
      exact ⟨by rw [List.map_cons, List.nodup_cons]; exact h, fun x hx => .inr hx⟩
    · rw [if_neg he]
      obtain ⟨i1, i2⟩ := ih h.2
      refine ⟨?_, ?_⟩
      · rw [List.map_cons, List.nodup_cons]
        refine ⟨fun hm => ?_, i1⟩
        rcases i2 _ hm with h' | h'
        · exact he h'
        · exact h.1 h'
      · intro x hx
        rw [List.map_cons, List.mem_cons] at hx
        rcases hx with rfl | hx
        · exact .inr (by simp)
        · rcases i2 _ hx with h' | h'
          · exact .inl h'
          · exact .inr (by rw [List.map_cons]; exact List.mem_cons_of_mem _ h')

/-- The values of the fields spelled exactly like `k`. -/
def spelled (k : Bytes) (hs : List Field) : List Bytes := (hs.filter fun f => f.1 = k).map Prod.snd

theorem joined_snoc : ∀ (vs : List Bytes) (v : Bytes), vs ≠ [] → joined (vs ++ [v]) = joined vs ++ [44, 32] ++ v
  | [], _, h => absurd rfl h
  | [a], v, _ => by simp [joined]
  | a :: b :: vs, v, _ => by
    have ih := joined_snoc (b :: vs) v (by simp)
    simp only [List.cons_append, joined] at ih ⊢
    rw [ih]
    simp

/-- The entry of the map for `k` given the values so far. -/
def entryOf (vs : List Bytes) : Option Bytes := if vs = [] then none else some (joined vs)

theorem entryOf_snoc (vs : List Bytes) (v : Bytes) :
    entryOf (vs ++ [v]) = some (match entryOf vs with | some w => w ++ [44, 32] ++ v | none => v) := by
  unfold entryOf
  rw [if_neg (by simp)]
  by_cases h : vs = []
  · simp [h, joined]
  · simp only [if_neg h, joined_snoc vs v h]

theorem getRequestHeader_aux (hs : List Field) : ∀ (m : List Field) (done : List Field),
    (m.map Prod.fst).Nodup → (∀ k, m.lookup k = entryOf (spelled k done)) →
    let m' := hs.foldl mergeField m
    (m'.map Prod.fst).Nodup ∧ ∀ k, m'.lookup k = entryOf (spelled k (done ++ hs)) := by
  induction hs with
  | nil => intro m done h1 h2; exact ⟨h1, by simpa using h2⟩
  | cons f hs ih =>
    intro m done h1 h2
    have hcomma : str ", " = [44, 32] := by decide
    have hm : mergeField m f =
        mapSet m f.1 (match entryOf (spelled f.1 done) with | some w => w ++ [44, 32] ++ f.2 | none => f.2) := by
      rw [mergeField, h2 f.1, hcomma]
      cases entryOf (spelled f.1 done) <;> rfl
    have := ih (mapSet m f.1 (match entryOf (spelled f.1 done) with | some w => w ++ [44, 32] ++ f.2 | none => f.2))
      (done ++ [f]) (mapSet_keys _ _ _ h1).1 (by
        intro k
        rw [mapSet_lookup]
        by_cases hk : k = f.1
        · subst hk
          rw [if_pos rfl, ← entryOf_snoc]
          congr 1
          simp [spelled, List.filter_append]
        · rw [if_neg hk, h2 k]
          congr 1
          have : f.1 ≠ k := fun e => hk e.symm
          simp [spelled, List.filter_append, this])
    rw [List.foldl_cons, hm]
    simpa using this

theorem getRequestHeader_spec (hs : List Field) :
    ((getRequestHeader hs).map Prod.fst).Nodup ∧ ∀ k, (getRequestHeader hs).lookup k = entryOf (spelled k hs) := by
  have := getRequestHeader_aux hs [] [] (by simp) (by intro k; simp [entryOf, spelled])
  exact ⟨this.1, fun k => by simpa [getRequestHeader] using this.2 k⟩

theorem spelled_named (k : Bytes) (hs : List Field) : spelled k hs = spelled k (fieldsNamed k hs) := by
  unfold spelled fieldsNamed
  rw [List.filter_filter]
  congr 1
  refine List.filter_congr fun f _ => ?_
  by_cases h : f.1 = k
  · have : SameName f.1 k := by rw [h]; rfl
    simp [h, SameName]
  · simp [h]

/-- How a value arrives: percent decoded, unless the field is `Location`. -/
def arrives (f : SentField) : Bytes := if SameName f.name (str "location") then f.value else decodeUrl f.value

theorem parseHeader_line (f : SentField) : parseHeader f.line = some (f.name, arrives f) := by
  obtain ⟨c, hc, hcb⟩ := f.hvalue
  obtain ⟨d, hd, hdb⟩ := f.hend
  have hne : f.value ≠ [] := fun h => by rw [h] at hc; cases hc
  have hbl : ∀ c ∈ f.pre ++ f.post, isBlank c = true := fun c hc => by
    rcases f.hpre c hc with rfl | rfl <;> rfl
  have h1 : (f.line.reverse.dropWhile isBlank).reverse = f.name ++ 58 :: (f.pre ++ f.value) := by
    have hl : f.line = (f.name ++ 58 :: (f.pre ++ f.value)) ++ f.post := by simp [SentField.line]
    rw [hl, List.reverse_append, List.dropWhile_append,
      if_pos (by rw [List.isEmpty_iff]; exact (takeWhile_all' _ _ fun c hc => hbl c (by
        rw [List.mem_reverse] at hc; exact List.mem_append_right _ hc)).2)]
    have hl : (f.name ++ 58 :: (f.pre ++ f.value)).getLast? = some d := by
      rw [List.getLast?_append, List.getLast?_cons, List.getLast?_append, hd]; rfl
    rw [← List.head?_reverse] at hl
    cases hr : (f.name ++ 58 :: (f.pre ++ f.value)).reverse with
    | nil => rw [hr] at hl; cases hl
    | cons x xs =>
      rw [hr] at hl
      simp only [List.head?_cons, Option.some.injEq] at hl
      rw [List.dropWhile_cons_of_neg (by rw [hl, hdb]; simp), ← hr, List.reverse_reverse]
  have h2 := takeWhile_append_stop (fun c : UInt8 => decide (c ≠ 58)) 58 (f.pre ++ f.value) (by simp) f.name
    (fun c hc => decide_eq_true fun e => f.hname.2 (e ▸ hc))
  unfold parseHeader
  simp only [h1]
  rw [h2.1, h2.2]
  have h3 : (f.pre ++ f.value).dropWhile isBlank = f.value := by
    rw [List.dropWhile_append,
      if_pos (by rw [List.isEmpty_iff]; exact (takeWhile_all' _ _ fun c hc => hbl c (List.mem_append_left _ hc)).2)]
    cases hv : f.value with
    | nil => rfl
    | cons x xs =>
      rw [hv] at hc
      simp only [List.head?_cons, Option.some.injEq] at hc
      rw [List.dropWhile_cons_of_neg (by rw [hc, hcb]; simp)]
  simp only [h3, hne, f.hname.1, or_self, if_false]
  have : (str "location").map lower = str "location" := by decide
  simp only [arrives, SameName, this]

theorem readHeaders_lines (fs : List SentField) (n : Bytes) :
    fieldsNamed n (readHeaders (fs.map SentField.line)) = fieldsNamed n (fs.map fun f => (f.name, arrives f)) := by
  have : (fs.map SentField.line).filterMap parseHeader = fs.map fun f => (f.name, arrives f) := by
    induction fs with
    | nil => rfl
    | cons f fs ih => rw [List.map_cons, List.filterMap_cons, parseHeader_line, List.map_cons, ih]
  rw [readHeaders, this]
  simpa [fieldsNamed] using (foldl_emplace (fs.map fun f => (f.name, arrives f)) [] List.Pairwise.nil).2 n

/-- **C47**, what holds: every spelling that was received is a key, once; its value is all the values received
under that spelling, percent decoded, joined by `", "` in the order received; there are no other keys. -/
theorem C47_partial (fs : List SentField) :
    ((getRequestHeader (readHeaders (fs.map SentField.line))).map Prod.fst).Nodup ∧
    ∀ k, (getRequestHeader (readHeaders (fs.map SentField.line))).lookup k =
      if ∃ f ∈ fs, f.name = k then some (joined ((fs.filter fun f => f.name = k).map arrives)) else none := by
  obtain ⟨h1, h2⟩ := getRequestHeader_spec (readHeaders (fs.map SentField.line))
  refine ⟨h1, fun k => ?_⟩
  have hs : spelled k (readHeaders (fs.map SentField.line)) = (fs.filter fun f => f.name = k).map arrives := by
    rw [spelled_named, readHeaders_lines, ← spelled_named]
    simp only [spelled, List.filter_map, List.map_map]
    rfl
  rw [h2 k, hs, entryOf]
  by_cases h : ∃ f ∈ fs, f.name = k
  · obtain ⟨f, hf, hk⟩ := h
    rw [if_neg, if_pos ⟨f, hf, hk⟩]
    intro he
    have := List.filter_eq_nil_iff.1 (List.map_eq_nil_iff.1 he) f hf
    exact this (by simpa using hk)
  · rw [if_neg h, if_pos]
    rw [List.map_eq_nil_iff, List.filter_eq_nil_iff]
    intro f hf hk
    exact h ⟨f, hf, by simpa using hk⟩

/-- Values without percent sign arrive as sent. -/
theorem C47_partial_value (f : SentField) (h : (37 : UInt8) ∉ f.value) : arrives f = f.value := by
  have : ∀ s : Bytes, (37 : UInt8) ∉ s → decodeUrl s = s := by
    intro s
    induction s with
    | nil => intro _; rw [decodeUrl]
    | cons c s ih =>
      intro hs
      rw [decodeUrl_ne (fun e => hs (e ▸ List.mem_cons_self)), ih fun hm => hs (List.mem_cons_of_mem _ hm)]
  unfold arrives
  split
  · rfl
  · exact this _ h

/-- A field for instances. -/
def sent (n v : Bytes) (h1 : n ≠ [] ∧ (58 : UInt8) ∉ n) (h2 : ∃ c, v.head? = some c ∧ isBlank c = false)
    (h3 : ∃ c, v.getLast? = some c ∧ isBlank c = false) : SentField := ⟨n, v, [32], [], by simp, h1, h2, h3⟩

/-- `X-A: 1`, `X-B: 2`, `X-A: 3`. -/
def demoFields : List SentField :=
  [sent (str "X-A") (str "1") (by decide) ⟨49, by decide⟩ ⟨49, by decide⟩,
    sent (str "X-B") (str "2") (by decide) ⟨50, by decide⟩ ⟨50, by decide⟩,
    sent (str "X-A") (str "3") (by decide) ⟨51, by decide⟩ ⟨51, by decide⟩]

/-- Non-vacuity of C47. -/
example : getRequestHeader (readHeaders (demoFields.map SentField.line)) =
    [(str "X-A", str "1, 3"), (str "X-B", str "2")] := by decide +kernel

/-- The code violates C47: names are compared exactly, `A` and `a` are different keys. -/
theorem C47_violated : ¬ C47_statement := by
  intro h
  obtain ⟨k, hk⟩ := h [sent (str "A") (str "1") (by decide) ⟨49, by decide⟩ ⟨49, by decide⟩,
    sent (str "a") (str "2") (by decide) ⟨50, by decide⟩ ⟨50, by decide⟩] (str "A") ⟨_, List.mem_cons_self, rfl⟩
  have := congrArg List.length hk
  rw [List.length_singleton] at this
  clear hk
  revert this
  decide +kernel

/-- The code also changes values: `100%25` arrives as `100%`. -/
theorem C47_violated_value : getRequestHeader (readHeaders [str "A: 100%25"]) = [(str "A", str "100%")] := by
  decide +kernel

/-- Non-vacuity of C47 with other blanks: `A:1` and a tab, `A:` and two blanks, `2`. -/
example : getRequestHeader (readHeaders [str "A:1\t", str "A:  2 "]) = [(str "A", str "1, 2")] := by decide +kernel

theorem first_colon : ∀ x : Bytes, (58 : UInt8) ∈ x → ∃ a b, x = a ++ 58 :: b ∧ (58 : UInt8) ∉ a
  | [], h => by cases h
  | y :: ys, h => by
    by_cases hy : y = 58
    · exact ⟨[], ys, by rw [hy]; rfl, by simp⟩
    · obtain ⟨a, b, h1, h2⟩ := first_colon ys (by
        rcases List.mem_cons.1 h with h | h
        · exact absurd h.symm hy
        · exact h)
      exact ⟨y :: a, b, by rw [h1]; rfl, by simp [h2, Ne.symm hy]⟩

/-- **C47** Lines that are no fields are ignored: without colon, without a name, or without a value. -/
theorem C47_ignored (name blanks : Bytes) (hn : (58 : UInt8) ∉ name) (hb : ∀ c ∈ blanks, c = 32 ∨ c = 9)
    (before after : List Bytes) (l : Bytes) (hl : l = name ∨ l = name ++ 58 :: blanks ∨ ∃ v, l = 58 :: v) :
    readHeaders (before ++ l :: after) = readHeaders (before ++ after) := by
  have hnone : parseHeader l = none := by
    have hcut : ∀ {s x : Bytes}, x ∈ [(s.reverse.dropWhile isBlank).reverse] → ∃ t, s = x ++ t := by
      intro s x hx
      simp only [List.mem_singleton] at hx
      subst hx
      refine ⟨(s.reverse.takeWhile isBlank).reverse, ?_⟩
      rw [← List.reverse_append, List.takeWhile_append_dropWhile, List.reverse_reverse]
    unfold parseHeader
    obtain ⟨t, ht⟩ := hcut (s := l) List.mem_cons_self
    generalize (l.reverse.dropWhile isBlank).reverse = x at ht
    simp only
    rcases hl with rfl | rfl | ⟨v, rfl⟩
    · have : (58 : UInt8) ∉ x := fun h => hn (by rw [ht]; exact List.mem_append_left _ h)
      rw [(takeWhile_all' (fun c : UInt8 => decide (c ≠ 58)) x fun c hc => decide_eq_true fun e => this (e ▸ hc)).2]
    · by_cases h58 : (58 : UInt8) ∈ x
      · obtain ⟨a, b, rfl, ha⟩ := first_colon x h58
        have h2 := takeWhile_append_stop (fun c : UInt8 => decide (c ≠ 58)) 58 b (by simp) a
          (fun c hc => decide_eq_true fun e => ha (e ▸ hc))
        rw [h2.1, h2.2]
        have hab : a = name ∧ blanks = b ++ t := by
          have h3 := takeWhile_append_stop (fun c : UInt8 => decide (c ≠ 58)) 58 blanks (by simp) name
            (fun c hc => decide_eq_true fun e => hn (e ▸ hc))
          have h4 := takeWhile_append_stop (fun c : UInt8 => decide (c ≠ 58)) 58 (b ++ t) (by simp) a
            (fun c hc => decide_eq_true fun e => ha (e ▸ hc))
          rw [List.append_assoc, List.cons_append] at ht
          rw [ht] at h3
          exact ⟨h4.1.symm.trans h3.1, (List.cons.inj (h3.2.symm.trans h4.2)).2⟩
        have hbb : b.dropWhile isBlank = [] := (takeWhile_all' _ _ fun c hc => by
          rcases hb c (by rw [hab.2]; exact List.mem_append_left _ hc) with rfl | rfl <;> rfl).2
        simp [hbb]
      · rw [(takeWhile_all' (fun c : UInt8 => decide (c ≠ 58)) x fun c hc => decide_eq_true fun e => h58 (e ▸ hc)).2]
    · cases x with
      | nil => rfl
      | cons y ys =>
        have : y = 58 := (List.cons.inj ht).1.symm
        subst this
        simp
  unfold readHeaders
  rw [List.filterMap_append, List.filterMap_cons, hnone, List.filterMap_append]

/-- Non-vacuity of C47_ignored. -/
example : readHeaders [str "A: 1", str "Host", str ": x", str "B:  "] = [(str "A", str "1")] := by decide +kernel

/-! ## C62: error replies -/

/-- The content types announced by a response (specification). -/
def contentTypes (r : Res) : List Bytes := (fieldsNamed (str "Content-Type") r.headers).map Prod.snd

theorem ciLt_tri : ∀ {a b : Bytes}, ciLt a b = false → ciLt b a = false → SameName a b
  | [], [], _, _ => rfl
  | [], _ :: _, h, _ => by cases h
  | _ :: _, [], _, h => by cases h
  | a :: s, b :: t, h1, h2 => by
    simp only [ciLt, Bool.or_eq_false_iff, decide_eq_false_iff_not, Bool.and_eq_false_iff, beq_eq_false_iff_ne,
      UInt8.lt_iff_toNat_lt] at h1 h2
    have he : lower a = lower b := UInt8.toNat_inj.1 (by omega)
    have g1 : ciLt s t = false := h1.2.resolve_left fun h => h he
    have g2 : ciLt t s = false := h2.2.resolve_left fun h => h he.symm
    have ih : SameName s t := ciLt_tri g1 g2
    simp only [SameName, List.map_cons, he] at ih ⊢
    rw [ih]

theorem hasHeader_iff (r : Res) (k : Bytes) : hasHeader r k = true ↔ fieldsNamed k r.headers ≠ [] := by
  unfold hasHeader fieldsNamed
  rw [List.any_eq_true, ne_eq, List.filter_eq_nil_iff]
  constructor
  · rintro ⟨f, hf, h⟩ hn
    simp only [Bool.and_eq_true, Bool.not_eq_true'] at h
    exact hn f hf (by simpa using ciLt_tri h.1 h.2)
  · intro hn
    refine Classical.byContradiction fun hx => hn fun f hf h => hx ⟨f, hf, ?_⟩
    have h : SameName f.1 k := by simpa using h
    simp [ciLt_same h, ciLt_same (Eq.symm h : SameName k f.1)]

theorem setHeader_sorted {r : Res} (h : Sorted r.headers) (k v : Bytes) : Sorted (setHeader r k v).headers := by
  unfold setHeader
  split
  · exact emplace_sorted h (k, v)
  · exact h

theorem setHeader_rest (r : Res) (k v : Bytes) : (setHeader r k v).status = r.status ∧ (setHeader r k v).body = r.body := by
  unfold setHeader
  split <;> exact ⟨rfl, rfl⟩

theorem setHeader_other {r : Res} (h : Sorted r.headers) {k v n : Bytes} (hk : ¬ SameName k n) :
    fieldsNamed n (setHeader r k v).headers = fieldsNamed n r.headers := by
  unfold setHeader
  split
  · simp only [emplace_named h]
    simp [fieldsNamed, hk]
  · rfl

theorem setHeader_this {r : Res} (h : Sorted r.headers) {k v : Bytes} (hk : hasCrlf k = false) (hv : hasCrlf v = false) :
    fieldsNamed k (setHeader r k v).headers = fieldsNamed k r.headers ++ [(k, v)] := by
  unfold setHeader
  rw [if_pos (by simp [hk, hv])]
  simp only [emplace_named h]
  simp [fieldsNamed, SameName]

theorem errorHandler_spec {r : Res} (h : Sorted r.headers) : Sorted (errorHandler r).headers ∧
    (errorHandler r).status = r.status ∧
    (errorHandler r).body = (if r.body = [] then str "Router error" else r.body) ∧
    contentTypes (errorHandler r) = contentTypes r ++ [str "text/plain"] := by
  unfold errorHandler
  have hs : ∀ q : Res, q.headers = r.headers → q.status = r.status → Sorted (setHeader q (str "Content-Type") (str "text/plain")).headers ∧
      (setHeader q (str "Content-Type") (str "text/plain")).status = r.status ∧
      (setHeader q (str "Content-Type") (str "text/plain")).body = q.body ∧
      contentTypes (setHeader q (str "Content-Type") (str "text/plain")) = contentTypes r ++ [str "text/plain"] := by
    intro q hq hst
    have hsq : Sorted q.headers := hq ▸ h
    obtain ⟨s1, s2⟩ := setHeader_rest q (str "Content-Type") (str "text/plain")
    refine ⟨setHeader_sorted hsq _ _, s1.trans hst, s2, ?_⟩
    rw [contentTypes, setHeader_this hsq (by decide) (by decide), contentTypes, hq]
    simp
  by_cases hb : r.body = []
  · rw [if_pos hb]
    have := hs { r with body := str "Router error" } rfl rfl
    simpa [hb] using this
  · rw [if_neg hb]
    have := hs r rfl rfl
    simpa [hb] using this

/-- One more field that is no content type. -/
theorem plain_step {r : Res} (h : Sorted r.headers) (b : Bool) {k v : Bytes} (hk : ¬ SameName k (str "Content-Type")) :
    let q := if b then setHeader r k v else r
    Sorted q.headers ∧ q.status = r.status ∧ q.body = r.body ∧ contentTypes q = contentTypes r := by
  cases b with
  | false => exact ⟨h, rfl, rfl, rfl⟩
  | true =>
    obtain ⟨s1, s2⟩ := setHeader_rest r k v
    exact ⟨setHeader_sorted h _ _, s1, s2, by simp only [contentTypes, if_true, setHeader_other h hk]⟩

theorem writeResponse_spec (close : Bool) (m : Method) (rg : Bool) {r : Res} (h : Sorted r.headers) :
    let w := writeResponse close m rg r
    w.status = r.status ∧
    w.body = (if m = .head then [] else if 400 ≤ r.status ∧ r.body = [] then str "Router error" else r.body) ∧
    contentTypes w = if 400 ≤ r.status then contentTypes r ++ [str "text/plain"]
      else if contentTypes r = [] ∧ r.body ≠ [] then [str "text/plain"] else contentTypes r := by
  unfold writeResponse
  have h1 : Sorted (if 400 ≤ r.status then errorHandler r else r).headers ∧
      (if 400 ≤ r.status then errorHandler r else r).status = r.status ∧
      (if 400 ≤ r.status then errorHandler r else r).body =
        (if 400 ≤ r.status ∧ r.body = [] then str "Router error" else r.body) ∧
      contentTypes (if 400 ≤ r.status then errorHandler r else r) =
        if 400 ≤ r.status then contentTypes r ++ [str "text/plain"] else contentTypes r := by
    by_cases hs : 400 ≤ r.status
    · obtain ⟨e1, e2, e3, e4⟩ := errorHandler_spec h
      simp only [hs, if_true, true_and]
      exact ⟨e1, e2, e3, e4⟩
    · simp only [hs, if_false, false_and]
      exact ⟨h, trivial, trivial, trivial⟩
  generalize (if 400 ≤ r.status then errorHandler r else r) = r1 at h1 ⊢
  obtain ⟨a1, a2, a3, a4⟩ := h1
  have h2 := plain_step a1 (decide ((rg = true ∨ 400 ≤ r.status) ∧ r1.body ≠ [])) (k := str "Content-Length")
    (v := BoolTime.natDec r1.body.length) (by decide)
  simp only [decide_eq_true_eq] at h2
  simp only
  generalize (if (rg = true ∨ 400 ≤ r.status) ∧ r1.body ≠ [] then
    setHeader r1 (str "Content-Length") (BoolTime.natDec r1.body.length) else r1) = r2 at h2 ⊢
  obtain ⟨b1, b2, b3, b4⟩ := h2
  have h3 := plain_step b1 true (k := (keepField close).1) (v := (keepField close).2) (by cases close <;> decide)
  simp only [if_true] at h3
  generalize setHeader r2 (keepField close).1 (keepField close).2 = r3 at h3 ⊢
  obtain ⟨c1, c2, c3, c4⟩ := h3
  have h4 : Sorted (if (!hasHeader r3 (str "Content-Type") && decide (r3.body ≠ [])) = true then
        setHeader r3 (str "Content-Type") (str "text/plain") else r3).headers ∧
      (if (!hasHeader r3 (str "Content-Type") && decide (r3.body ≠ [])) = true then
        setHeader r3 (str "Content-Type") (str "text/plain") else r3).status = r3.status ∧
      (if (!hasHeader r3 (str "Content-Type") && decide (r3.body ≠ [])) = true then
        setHeader r3 (str "Content-Type") (str "text/plain") else r3).body = r3.body ∧
      contentTypes (if (!hasHeader r3 (str "Content-Type") && decide (r3.body ≠ [])) = true then
        setHeader r3 (str "Content-Type") (str "text/plain") else r3) =
        if contentTypes r3 = [] ∧ r3.body ≠ [] then [str "text/plain"] else contentTypes r3 := by
    by_cases hh : hasHeader r3 (str "Content-Type") = true
    · have : contentTypes r3 ≠ [] := fun e => (hasHeader_iff _ _).1 hh (List.map_eq_nil_iff.1 e)
      simp [hh, this, c1]
    · have he : contentTypes r3 = [] := by
        rw [contentTypes, List.map_eq_nil_iff]
        exact Classical.byContradiction fun hn => hh ((hasHeader_iff _ _).2 hn)
      by_cases hb : r3.body = []
      · simp [hb, he, c1]
      · have hf : hasHeader r3 (str "Content-Type") = false := by simpa using hh
        obtain ⟨s1, s2⟩ := setHeader_rest r3 (str "Content-Type") (str "text/plain")
        simp only [hf, hb, he, Bool.not_false, ne_eq, not_false_eq_true, decide_true, Bool.and_self, if_true, and_self]
        refine ⟨setHeader_sorted c1 _ _, s1, s2, ?_⟩
        have he' : fieldsNamed (str "Content-Type") r3.headers = [] := List.map_eq_nil_iff.1 he
        rw [contentTypes, setHeader_this c1 (by decide) (by decide), he']
        rfl
  generalize (if (!hasHeader r3 (str "Content-Type") && decide (r3.body ≠ [])) = true then
        setHeader r3 (str "Content-Type") (str "text/plain") else r3) = r4 at h4 ⊢
  obtain ⟨d1, d2, d3, d4⟩ := h4
  have h5 := plain_step d1 (!hasHeader r4 (str "Content-Length") && decide (r4.body = [])) (k := str "Content-Length")
    (v := str "0") (by decide)
  simp only at h5
  generalize (if (!hasHeader r4 (str "Content-Length") && decide (r4.body = [])) = true then
        setHeader r4 (str "Content-Length") (str "0") else r4) = r5 at h5 ⊢
  obtain ⟨e1, e2, e3, e4⟩ := h5
  have h6 := plain_step e1 (!hasHeader r5 (str "Accept-Ranges") && decide (m = .head)) (k := str "Accept-Ranges")
    (v := str "bytes") (by decide)
  simp only at h6
  generalize (if (!hasHeader r5 (str "Accept-Ranges") && decide (m = .head)) = true then
        setHeader r5 (str "Accept-Ranges") (str "bytes") else r5) = r6 at h6 ⊢
  obtain ⟨f1, f2, f3, f4⟩ := h6
  have hb : r6.body = if 400 ≤ r.status ∧ r.body = [] then str "Router error" else r.body := by
    rw [f3, e3, d3, c3, b3, a3]
  refine ⟨by rw [f2, e2, d2, c2, b2, a2], by simp only [hb], ?_⟩
  show contentTypes r6 = _
  rw [f4, e4, d4, c4, b4, a4, c3, b3, a3]
  by_cases hs : 400 ≤ r.status
  · simp [hs]
  · simp [hs]

theorem setResponse_spec (e : Endpoint) (b : Bytes) (st : Nat) :
    setResponse ⟨0, [], []⟩ b [(str "Content-Type", e.contentType)] st = ⟨st, [(str "Content-Type", e.contentType)], b⟩ := by
  have : ∀ ct, ct = str "text/plain" ∨ ct = str "application/voucher-cms+json" →
      setResponse ⟨0, [], []⟩ b [(str "Content-Type", ct)] st = ⟨st, [(str "Content-Type", ct)], b⟩ := by
    rintro ct (rfl | rfl) <;> rfl
  refine this _ ?_
  cases e <;> first | exact .inl rfl | exact .inr rfl

/-- The handler a request line leads to (specification): none for lines that are too long, not well formed, or
not routed. -/
def handlerOf (rs : List Route) (line : Bytes) : Option Endpoint :=
  if 8192 < line.length then none else (parseRequestLine line).bind fun l => (routing rs l).bind id

/-- The answer to a HEAD request has no body (specification: RFC 9110 section 9.3.2). -/
def unlessHead (line b : Bytes) : Bytes :=
  if line.length ≤ 8192 ∧ firstWord line = some (str "HEAD") then [] else b

theorem firstWord_method {line : Bytes} {l : Line} (h : parseRequestLine line = some l) :
    firstWord line = some (str "HEAD") ↔ l.method = .head := by
  unfold parseRequestLine at h
  unfold firstWord
  simp only at h ⊢
  split at h
  · cases h
  · rename_i hc
    rw [if_neg hc]
    split at h
    · rename_i m t v hw
      rw [hw]
      split at h
      · cases h
      · rename_i m' hm
        split at h
        · cases h
          simp only [List.head?_cons, Option.some.injEq]
          constructor
          · rintro rfl
            have : parseMethod (str "HEAD") = some .head := by decide
            exact Option.some.inj (hm.symm.trans this)
          · rintro rfl
            unfold parseMethod at hm
            simp only [List.lookup] at hm
            repeat' split at hm
            all_goals first | exact eq_of_beq (by assumption) | exact absurd hm (by simp)
        · cases h
    · cases h

/-- **C62** as stated: every error reply has the one content type `text/plain` and, unless it answers a HEAD
request, a text. -/
def C62_statement : Prop :=
  ∀ rs ∈ [registrarRoutes, masaRoutes], ∀ (dyn : Endpoint → Reply) (close : Bool) (line : Bytes),
    400 ≤ (process rs dyn close line).status →
      contentTypes (process rs dyn close line) = [str "text/plain"] ∧
      ∃ text, text ≠ [] ∧ (process rs dyn close line).body = unlessHead line text

/-- **C62**, the complete answer: without handler the status is 400, 404 or 414, the body `Router error`, the
content type `text/plain`; a handler's status and body are sent as they are, except that an error gets the body
`Router error` if it has none, and a second content type `text/plain`. -/
theorem C62_partial_answer (rs : List Route) (dyn : Endpoint → Reply) (close : Bool) (line : Bytes) :
    (handlerOf rs line = none ∧ (process rs dyn close line).status ∈ [400, 404, 414] ∧
      contentTypes (process rs dyn close line) = [str "text/plain"] ∧
      (process rs dyn close line).body = unlessHead line (str "Router error")) ∨
    (∃ e rep, handlerOf rs line = some e ∧ rep = e.stub.getD (dyn e) ∧
      (process rs dyn close line).status = rep.status ∧
      (process rs dyn close line).body =
        unlessHead line (if 400 ≤ rep.status ∧ rep.body = [] then str "Router error" else rep.body) ∧
      contentTypes (process rs dyn close line) =
        if 400 ≤ rep.status then [e.contentType, str "text/plain"] else [e.contentType]) := by
  have hnil : Sorted ([] : List Field) := List.Pairwise.nil
  have herr : ∀ (m : Method) (st : Nat), st ∈ [400, 404, 414] →
      (writeResponse close m false ⟨st, [], []⟩).status ∈ [400, 404, 414] ∧
      contentTypes (writeResponse close m false ⟨st, [], []⟩) = [str "text/plain"] ∧
      (writeResponse close m false ⟨st, [], []⟩).body = if m = .head then [] else str "Router error" := by
    intro m st hst
    obtain ⟨w1, w2, w3⟩ := writeResponse_spec close m false (r := ⟨st, [], []⟩) hnil
    have : 400 ≤ st := by
      simp only [List.mem_cons, List.not_mem_nil, or_false] at hst
      omega
    refine ⟨by rw [w1]; exact hst, ?_, by rw [w2]; simp [this]⟩
    rw [w3]
    simp [this, contentTypes, fieldsNamed]
  unfold process handlerOf unlessHead
  by_cases hl : 8192 < line.length
  · rw [if_pos hl, if_pos hl, if_neg (by omega)]
    exact .inl ⟨rfl, herr .get _ (by decide)⟩
  · have hl' : line.length ≤ 8192 := by omega
    rw [if_neg hl, if_neg hl]
    simp only [hl', true_and]
    cases hp : parseRequestLine line with
    | none =>
      refine .inl ⟨rfl, (herr _ _ (by decide)).1, (herr _ _ (by decide)).2.1, ?_⟩
      rw [(herr _ _ (by decide)).2.2, refusedMethod]
      by_cases hw : firstWord line = some (str "HEAD")
      · rw [if_pos hw, if_pos hw, if_pos rfl]
      · rw [if_neg hw, if_neg hw, if_neg (by simp)]
    | some l =>
      simp only [Option.bind_some, firstWord_method hp]
      cases hr : routing rs l with
      | none => exact .inl ⟨rfl, herr _ _ (by decide)⟩
      | some o =>
        cases o with
        | none => exact .inl ⟨rfl, herr _ _ (by decide)⟩
        | some e =>
          simp only [Option.bind_some, id]
          refine .inr ⟨e, _, rfl, rfl, ?_⟩
          rw [setResponse_spec]
          obtain ⟨w1, w2, w3⟩ := writeResponse_spec close l.method true
            (r := ⟨(e.stub.getD (dyn e)).status, [(str "Content-Type", e.contentType)], (e.stub.getD (dyn e)).body⟩)
            (List.pairwise_singleton _ _)
          refine ⟨w1, w2, ?_⟩
          rw [w3]
          have hct : contentTypes ⟨(e.stub.getD (dyn e)).status, [(str "Content-Type", e.contentType)],
              (e.stub.getD (dyn e)).body⟩ = [e.contentType] := by
            simp [contentTypes, fieldsNamed, SameName]
          rw [hct]
          simp

/-- **C62**, what holds: every error reply has a text and the last content type is `text/plain`; with the one
exception of the voucher request at the registrar no other content type is announced. -/
theorem C62_partial (rs : List Route) (dyn : Endpoint → Reply) (close : Bool) (line : Bytes)
    (h : 400 ≤ (process rs dyn close line).status) :
    (∃ text, text ≠ [] ∧ (process rs dyn close line).body = unlessHead line text) ∧
    (contentTypes (process rs dyn close line)).getLast? = some (str "text/plain") ∧
    (handlerOf rs line ≠ some .registrarRequestVoucher →
      ∀ t ∈ contentTypes (process rs dyn close line), t = str "text/plain") := by
  have hr : str "Router error" ≠ [] := by decide
  rcases C62_partial_answer rs dyn close line with ⟨h1, h2, h3, h4⟩ | ⟨e, rep, h1, h2, h3, h4, h5⟩
  · exact ⟨⟨_, hr, h4⟩, by rw [h3]; rfl, fun _ t ht => by rw [h3] at ht; simpa using ht⟩
  · rw [h3] at h
    rw [if_pos h] at h5
    refine ⟨⟨_, ?_, h4⟩, by rw [h5]; rfl, fun hne t ht => ?_⟩
    · split
      · exact hr
      · rename_i hb
        exact fun hb' => hb ⟨h, hb'⟩
    · rw [h5] at ht
      have hct : e.contentType = str "text/plain" := by
        cases e <;> first | rfl | exact absurd h1 hne
      rw [hct] at ht
      simp only [List.mem_cons, List.not_mem_nil, or_false, or_self] at ht
      exact ht

/-- The request line of a voucher request. -/
def demoLine : Bytes := str "POST /.well-known/brski/requestvoucher HTTP/1.1" ++ [13, 10]

/-- The code violates C62: a refused voucher request is answered with two content types, the first of which says
that the text `Router error` is a voucher. -/
theorem C62_violated_registrar (close : Bool) :
    contentTypes (process registrarRoutes (fun _ => ⟨400, []⟩) close demoLine) =
      [str "application/voucher-cms+json", str "text/plain"] := by
  cases close <;> decide +kernel

/-- The code violates C62. -/
theorem C62_violated : ¬ C62_statement := by
  intro h
  have h1 := (h registrarRoutes List.mem_cons_self (fun _ => ⟨400, []⟩) true demoLine (by decide +kernel)).1
  rw [C62_violated_registrar] at h1
  revert h1
  decide

/-- Non-vacuity: an unknown path, a stub that is an error, and a stub that is not. -/
example : (process masaRoutes (fun _ => ⟨200, []⟩) true (str "GET / HTTP/1.1" ++ [13, 10])).status = 404 ∧
    (process masaRoutes (fun _ => ⟨200, []⟩) true (str "GET /.well-known/est/csrattrs HTTP/1.1" ++ [13, 10])).status = 503 ∧
    (process masaRoutes (fun _ => ⟨200, []⟩) true (str "POST /.well-known/brski/enrollstatus HTTP/1.0" ++ [13, 10])).body =
      str "masa_enrollstatus" := by decide +kernel

end Brski.Props
