import Verif.PropsScan

/-!
# C133: the fields of a form are read back
-/

namespace Brski.Props
open Outcome Routes Scan

/-! ## Specification: the form encoding -/

/-- Characters that stand for themselves in a form. -/
def plainForm (c : UInt8) : Bool :=
  (48 ≤ c && c ≤ 57) || (65 ≤ c && c ≤ 90) || (97 ≤ c && c ≤ 122) || c == 45 || c == 46 || c == 95 || c == 42

/-- One character of a form: itself, `+` for a blank, or `%XX`. -/
def formChar (c : UInt8) : Bytes :=
  if plainForm c then [c]
  else if c = 32 then [43]
  else [37, hexChar ⟨c.toNat / 16, by have := c.toNat_lt; omega⟩ true, hexChar ⟨c.toNat % 16, Nat.mod_lt _ (by omega)⟩ true]

/-- A text in a form. -/
def formed (s : Bytes) : Bytes := s.flatMap formChar

/-- A field of a form. -/
def formField (f : Bytes × Bytes) : Bytes := formed f.1 ++ 61 :: formed f.2

/-- A form. -/
def formOf (fs : List (Bytes × Bytes)) : Bytes := delimited 38 (fs.map formField)

/-- The fields without those that occurred before. -/
def firstOnes : List (Bytes × Bytes) → List (Bytes × Bytes) → List (Bytes × Bytes)
  | _, [] => []
  | seen, f :: r => if f ∈ seen then firstOnes seen r else f :: firstOnes (f :: seen) r

/-! ## Proof -/

theorem plainForm_ne {c : UInt8} (h : plainForm c = true) : c ∉ [9, 32, 37, 38, 43, 61] := by
  intro hm
  simp only [List.mem_cons, List.not_mem_nil, or_false] at hm
  rcases hm with e | e | e | e | e | e <;> (subst e; revert h; decide)

theorem hexChar_form : ∀ (n : Fin 16) (up : Bool), hexChar n up ∉ [9, 32, 38, 43, 61] := by decide

theorem formChar_ne (c x : UInt8) (h : x ∈ formChar c) : x ∉ [9, 32, 38, 61] := by
  unfold formChar at h
  split at h
  · rename_i hp
    have := plainForm_ne hp
    simp only [List.mem_cons, List.not_mem_nil, or_false] at h
    subst h
    intro hm
    exact this ((by decide : ∀ y ∈ ([9, 32, 38, 61] : Bytes), y ∈ ([9, 32, 37, 38, 43, 61] : Bytes)) _ hm)
  · split at h
    · simp only [List.mem_cons, List.not_mem_nil, or_false] at h
      subst h; decide
    · simp only [List.mem_cons, List.not_mem_nil, or_false] at h
      rcases h with e | e | e
      · subst e; decide
      · intro hm
        rw [e] at hm
        exact hexChar_form _ _ ((by decide : ∀ y ∈ ([9, 32, 38, 61] : Bytes), y ∈ ([9, 32, 38, 43, 61] : Bytes)) _ hm)
      · intro hm
        rw [e] at hm
        exact hexChar_form _ _ ((by decide : ∀ y ∈ ([9, 32, 38, 61] : Bytes), y ∈ ([9, 32, 38, 43, 61] : Bytes)) _ hm)

theorem formed_ne (s : Bytes) (x : UInt8) (h : x ∈ formed s) : x ∉ [9, 32, 38, 61] := by
  obtain ⟨c, _, hx⟩ := List.mem_flatMap.mp h
  exact formChar_ne c x hx

theorem formChar_nil (c : UInt8) : formChar c ≠ [] := by
  unfold formChar
  split
  · exact fun h => nomatch h
  · split <;> exact fun h => nomatch h

theorem unplus_hex : ∀ (n : Fin 16) (up : Bool), unplus (hexChar n up) = hexChar n up := by decide

theorem formed_decode : ∀ s : Bytes, decodeUrl ((formed s).map unplus) = s
  | [] => by simp [formed, decodeUrl]
  | c :: s => by
    have ih := formed_decode s
    rw [formed, List.flatMap_cons, List.map_append]
    show decodeUrl ((formChar c).map unplus ++ (formed s).map unplus) = _
    unfold formChar
    split
    · rename_i hp
      have hn := plainForm_ne hp
      have h43 : c ≠ 43 := fun e => hn (by rw [e]; decide)
      have h37 : c ≠ 37 := fun e => hn (by rw [e]; decide)
      have : unplus c = c := if_neg h43
      simp only [List.map_cons, List.map_nil, List.cons_append, List.nil_append, this]
      rw [decodeUrl_ne h37, ih]
    · split
      · rename_i h; subst h
        show decodeUrl (32 :: (formed s).map unplus) = _
        rw [decodeUrl_ne (by decide), ih]
      · simp only [List.map_cons, List.map_nil, List.cons_append, List.nil_append, unplus_hex]
        show decodeUrl (37 :: _) = _
        rw [decodeUrl_pct, ih]
        congr 1
        show UInt8.ofNat (16 * (c.toNat / 16) + c.toNat % 16) = c
        rw [Nat.div_add_mod]
        exact UInt8.ofNat_toNat

theorem formed_nil {s : Bytes} : formed s = [] ↔ s = [] := by
  constructor
  · intro h
    cases s with
    | nil => rfl
    | cons c s =>
      rw [formed, List.flatMap_cons] at h
      exact absurd (List.append_eq_nil_iff.mp h).1 (formChar_nil c)
  · intro h; subst h; rfl

theorem trim_form (s : Bytes) : trim (formed s) = formed s :=
  trim_id fun c hc => (isBlank_not c).mpr ⟨fun e => formed_ne s c hc (by rw [e]; decide), fun e => formed_ne s c hc (by rw [e]; decide)⟩

theorem paramOf_field (f : Bytes × Bytes) (h : f.1 ≠ []) : paramOf (formField f) = some f := by
  have h1 : (61 : UInt8) ∉ formed f.1 := fun hm => formed_ne _ _ hm (by decide)
  have h2 : (61 : UInt8) ∉ formed f.2 := fun hm => formed_ne _ _ hm (by decide)
  have hk : formed f.1 ≠ [] := fun e => h (formed_nil.mp e)
  have hs : splitAll 61 (formField f) = formed f.1 :: [formed f.2].filter (· ≠ []) := by
    rw [splitAll, formField, pieces_cons _ h1, pieces_none h2]
    simp only [List.map_cons, List.map_nil, trim_form]
    rw [List.filter_cons, if_pos (by simpa using hk)]
  rw [paramOf, hs]
  simp only [formed_decode]
  by_cases hv : f.2 = []
  · have : formed f.2 = [] := formed_nil.mpr hv
    simp only [this]
    obtain ⟨k, v⟩ := f
    simp only at hv
    subst hv
    simp [decodeUrl]
  · have : formed f.2 ≠ [] := fun e => hv (formed_nil.mp e)
    rw [List.filter_cons, if_pos (by simpa using this)]
    simp [formed_decode]

theorem formField_inj {f g : Bytes × Bytes} (hf : f.1 ≠ []) (hg : g.1 ≠ []) (h : formField f = formField g) : f = g := by
  have := paramOf_field f hf
  rw [h, paramOf_field g hg] at this
  exact (Option.some.inj this).symm

theorem paramsOf_fields : ∀ (fs seen : List (Bytes × Bytes)), (∀ f ∈ fs, f.1 ≠ []) → (∀ f ∈ seen, f.1 ≠ []) →
    paramsOf (seen.map formField) (fs.map formField) = firstOnes seen fs
  | [], _, _, _ => rfl
  | f :: fs, seen, h, hs => by
    have hf := h f (List.mem_cons_self ..)
    have hr := fun g hg => h g (List.mem_cons_of_mem _ hg)
    rw [List.map_cons, paramsOf, firstOnes]
    by_cases hm : f ∈ seen
    · rw [if_pos (List.mem_map_of_mem hm), if_pos hm]
      exact paramsOf_fields fs seen hr hs
    · rw [if_neg (fun hx => ?_), if_neg hm, paramOf_field f hf]
      · have := paramsOf_fields fs (f :: seen) hr (fun g hg => by
          rcases List.mem_cons.mp hg with e | e
          · rw [e]; exact hf
          · exact hs g e)
        rw [List.map_cons] at this
        rw [this]; rfl
      · obtain ⟨g, hg, e⟩ := List.mem_map.mp hx
        exact hm (formField_inj (hs g hg) hf e ▸ hg)

theorem formField_ne (f : Bytes × Bytes) : (38 : UInt8) ∉ formField f := by
  intro hm
  rcases List.mem_append.mp hm with h | h
  · exact formed_ne _ _ h (by decide)
  · rcases List.mem_cons.mp h with e | e
    · revert e; decide
    · exact formed_ne _ _ e (by decide)

theorem trim_field (f : Bytes × Bytes) : trim (formField f) = formField f := by
  have hb : ∀ c : UInt8, c = 32 ∨ c = 9 → c ∉ formField f := by
    intro c hc hm
    rcases List.mem_append.mp hm with h | h
    · exact formed_ne _ _ h (by rcases hc with e | e <;> (rw [e]; decide))
    · rcases List.mem_cons.mp h with e | e
      · rcases hc with e2 | e2 <;> (rw [e2] at e; revert e; decide)
      · exact formed_ne _ _ e (by rcases hc with e | e <;> (rw [e]; decide))
  exact trim_id fun c hc => (isBlank_not c).mpr ⟨fun e => hb c (.inl e) hc, fun e => hb c (.inr e) hc⟩

/-- **C133**, full statement: the fields of a form, every field with a name, are read back as they were written. -/
def C133_statement : Prop :=
  ∀ fs : List (Bytes × Bytes), (∀ f ∈ fs, f.1 ≠ []) → (formOf fs).length < 2 ^ 64 - 1 → query (formOf fs) = .ok fs

/-- What is read back: the fields in their order, those that occur again only once. -/
theorem C133_partial (fs : List (Bytes × Bytes)) (h : ∀ f ∈ fs, f.1 ≠ []) (hl : (formOf fs).length < 2 ^ 64 - 1) :
    query (formOf fs) = .ok (firstOnes [] fs) := by
  rw [query_scan hl]
  cases fs with
  | nil => rfl
  | cons f fs =>
    have hs : splitAll 38 (formOf (f :: fs)) = (f :: fs).map formField := by
      rw [splitAll, formOf, pieces_delimited 38 ((f :: fs).map formField) (fun h => nomatch h) (fun x hx => by
        obtain ⟨g, _, e⟩ := List.mem_map.mp hx
        rw [← e]; exact formField_ne g), List.map_map]
      have e1 : (f :: fs).map (trim ∘ formField) = (f :: fs).map formField := List.map_congr_left fun g _ => trim_field g
      rw [e1, List.filter_eq_self]
      intro x hx
      obtain ⟨g, _, e⟩ := List.mem_map.mp hx
      rw [← e]
      simp [formField]
    rw [hs]
    have := paramsOf_fields (f :: fs) [] h (fun g hg => nomatch hg)
    rw [List.map_nil] at this
    rw [this]

theorem firstOnes_nodup : ∀ (fs seen : List (Bytes × Bytes)), fs.Nodup → (∀ f ∈ fs, f ∉ seen) → firstOnes seen fs = fs
  | [], _, _, _ => rfl
  | f :: fs, seen, hn, hd => by
    have := List.nodup_cons.mp hn
    rw [firstOnes, if_neg (hd f (List.mem_cons_self ..)), firstOnes_nodup fs (f :: seen) this.2 (fun g hg hm => by
      rcases List.mem_cons.mp hm with e | e
      · exact this.1 (e ▸ hg)
      · exact hd g (List.mem_cons_of_mem _ hg) e)]

/-- The statement holds for forms in which no field occurs twice. -/
theorem C133_partial_distinct (fs : List (Bytes × Bytes)) (h : ∀ f ∈ fs, f.1 ≠ []) (hl : (formOf fs).length < 2 ^ 64 - 1)
    (hn : fs.Nodup) : query (formOf fs) = .ok fs := by
  rw [C133_partial fs h hl, firstOnes_nodup fs [] hn (fun _ _ h => nomatch h)]

/-- A field that occurs twice is read once (/repo/src/brski/http/httplib.h:4564-4567). -/
theorem C133_violated : ¬ C133_statement := by
  intro h
  have := h [(str "a", str "1"), (str "a", str "1")] (by decide) (by decide +kernel)
  revert this
  decide +kernel

/-- What is written without encoding the `=` of a value: only the part behind the last one is read
(/repo/src/brski/http/httplib.h:4569-4576). -/
theorem C133_equals : query (str "path=a=b") = .ok [(str "path", str "b")] := by decide +kernel

/-! ### Examples -/

example : formOf [(str "a b", str "1&2"), (str "c", [])] = str "a+b=1%262&c=" := by decide +kernel
example : query (formOf [(str "a b", str "1&2"), (str "c", []), (str "a b", str "3")]) =
    .ok [(str "a b", str "1&2"), (str "c", []), (str "a b", str "3")] := by decide +kernel
example : [(str "a b", str "1&2"), (str "c", []), (str "a b", str "3")].Nodup ∧
    (∀ f ∈ [(str "a b", str "1&2"), (str "c", []), (str "a b", str "3")], f.1 ≠ []) := by decide +kernel

end Brski.Props
