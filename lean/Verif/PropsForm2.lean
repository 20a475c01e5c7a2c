import Verif.PropsForm

/-!
# C136, continued: spelling and extended file names
-/

namespace Brski.Props
open Outcome Routes Scan Form

/-- **C136**: how the name of the field is spelled makes no difference (RFC 9110 section 5.1). -/
theorem C136_case {k v : Bytes} (hk : k.map lower = (str "Content-Disposition").map lower) (hv : Flush v) (hl : v.length < 2 ^ 63) (f : File) :
    line f (k ++ 58 :: 32 :: v) = line f (str "Content-Disposition" ++ 58 :: 32 :: v) := by
  have h19 : (str "Content-Disposition").length = 19 := by decide
  have hk19 : k.length = 19 := by
    have := congrArg List.length hk
    rw [List.length_map, List.length_map, h19] at this
    exact this
  have h58 : (58 : UInt8) ∉ k := by
    intro h
    have := List.mem_map_of_mem (f := lower) h
    rw [hk] at this
    revert this
    decide
  have h0 : k ≠ [] := by intro e; rw [e] at hk19; cases hk19
  have ht : ∀ n, ((k ++ 58 :: 32 :: v).take n).map lower = ((str "Content-Disposition" ++ 58 :: 32 :: v).take n).map lower := by
    intro n
    rw [List.map_take, List.map_take, List.map_append, List.map_append, hk]
  have hd : disposition (k ++ 58 :: 32 :: v) = disposition (str "Content-Disposition" ++ 58 :: 32 :: v) := by
    have e : behind (str "Content-Disposition:") (k ++ 58 :: 32 :: v) = behind (str "Content-Disposition:") (str "Content-Disposition" ++ 58 :: 32 :: v) := by
      unfold behind
      rw [ht, show (str "Content-Disposition:").length = 19 + 1 by decide]
      rw [show (k ++ 58 :: 32 :: v).drop (19 + 1) = 32 :: v by rw [← hk19, List.drop_append]; simp,
        show (str "Content-Disposition" ++ 58 :: 32 :: v).drop (19 + 1) = 32 :: v by rw [← h19, List.drop_append]; simp [h19]]
    unfold disposition
    rw [e]
  rw [line_eq f (by simp only [List.length_append, List.length_cons]; omega), line_eq f (by simp only [List.length_append, List.length_cons]; omega)]
  unfold readLine
  rw [parseHeader_some h58 h0 hv, parseHeader_some (by decide) (by decide) hv, ht, hd]
  have hc : ¬ ((str "Content-Disposition" ++ 58 :: 32 :: v).take 13).map lower = (str "Content-Type:").map lower := by
    rw [List.take_append_of_le_length (by decide)]
    decide
  rw [if_neg hc, if_neg hc]

/-- The line with a name and an extended file name (RFC 5987). -/
def extendedLine (n v : Bytes) : Bytes := str "Content-Disposition: form-data; name=" ++ withQuotes n ++ str "; filename*=" ++ v

/-- A value that is not cut. -/
structure Unsplit (v : Bytes) : Prop where
  flush : Flush v
  uncut : Uncut v
  start : v.head? ≠ some 34
  line : ∀ c ∈ v, c ≠ 10 ∧ c ≠ 13

theorem readLine_extended {f : File} {n v : Bytes} (hn : Quotable n) (hn' : Uncut n) (hv : Unsplit v) :
    readLine f (extendedLine n v) = (extended v).map fun x => { f with name := n, filename := decodeUrl x } := by
  obtain ⟨hvf, hvu, hvs, hvl⟩ := hv
  have hv0 := tight_ne hvf
  obtain ⟨⟨va, vr, hv1, hv2⟩, vb, vq, hv3, hv4⟩ := hvf
  have hvf : Flush v := ⟨⟨va, vr, hv1, hv2⟩, vb, vq, hv3, hv4⟩
  have hk : dispParam (str "name" ++ 61 :: withQuotes n) = some (str "name", n) :=
    dispParam_eq (by decide) ⟨⟨110, str "ame", by decide⟩, 101, str "nam", by decide⟩ (by decide) hn'.2
  have hkt : Flush (str "filename*") := ⟨⟨102, str "ilename*", by decide⟩, 42, str "filename", by decide⟩
  have hk2 : dispParam (str "filename*" ++ 61 :: v) = some (str "filename*", v) := by
    have h1 : trim (str "filename*") = str "filename*" := trim_self hkt
    have h2 : trim v = v := trim_self hvf
    rw [dispParam, splitAll_two (by decide) (by rw [h1]; exact tight_ne hkt), splitAll_one hvu.2 (by rw [h2]; exact hv0), h1, h2]
    simp only [List.getLast?_singleton, Option.getD_some]
    rw [unquote_id (by decide), unquote_id hvs]
  have e : extendedLine n v = str "Content-Disposition" ++ (58 :: 32 :: (102 :: (str "orm-data; name=" ++ [34] ++ n ++ [34] ++ str "; filename*=" ++ v))) := by
    unfold extendedLine
    rw [show str "Content-Disposition: form-data; name=" = str "Content-Disposition" ++ (58 :: 32 :: 102 :: str "orm-data; name=") from by decide]
    simp only [withQuotes, List.append_assoc, List.cons_append, List.nil_append, List.append_nil]
  have e2 : extendedLine n v = str "Content-Disposition: form-data; " ++ (110 :: (str "ame" ++ 61 :: withQuotes n ++ (59 :: 32 :: (str "filename*" ++ 61 :: v)))) := by
    unfold extendedLine
    rw [show str "Content-Disposition: form-data; name=" = str "Content-Disposition: form-data; " ++ (110 :: (str "ame" ++ [61])) from by decide,
      show str "; filename*=" = 59 :: 32 :: (str "filename*" ++ [61]) from by decide]
    simp only [List.append_assoc, List.cons_append, List.nil_append, List.append_nil]
  have p1 : (parseHeader (extendedLine n v)).isNone = false := by
    rw [e]
    refine parseHeader_some (by decide) (by decide) ⟨⟨102, _, rfl, by decide⟩, vb, 102 :: (str "orm-data; name=" ++ [34] ++ n ++ [34] ++ str "; filename*=" ++ vq), ?_, hv4⟩
    rw [hv3]
    simp only [List.append_assoc, List.cons_append, List.nil_append, List.append_nil]
  have p2 : disposition (extendedLine n v) = some (110 :: (str "ame" ++ 61 :: withQuotes n ++ (59 :: 32 :: (str "filename*" ++ 61 :: v)))) := by
    rw [e2, disposition_eq (by decide) ?_]
    rw [oneLine, List.all_eq_true]
    intro c hc
    simp only [withQuotes, List.mem_cons, List.mem_append, List.mem_singleton, List.not_mem_nil, or_false] at hc
    rcases hc with rfl | (hc | rfl | (rfl | hc) | rfl) | rfl | rfl | hc | rfl | hc
    · decide
    · exact (show ∀ c ∈ str "ame", (c != 10 && c != 13) = true from by decide) c hc
    · decide
    · decide
    · exact oneLine_quotable hn c hc
    · decide
    · decide
    · decide
    · exact (show ∀ c ∈ str "filename*", (c != 10 && c != 13) = true from by decide) c hc
    · decide
    · have := hvl c hc
      simp [this.1, this.2]
  have p3 : ¬ ((extendedLine n v).take 13).map lower = (str "Content-Type:").map lower := by
    unfold extendedLine
    rw [List.append_assoc, List.append_assoc, List.take_append_of_le_length (by decide)]
    decide
  have hn59 : (59 : UInt8) ∉ str "name" ++ 61 :: withQuotes n := by
    simp only [withQuotes, List.mem_append, List.mem_cons, List.mem_singleton, List.not_mem_nil, or_false, not_or]
    exact ⟨by decide, by decide, ⟨by decide, hn'.1⟩, by decide⟩
  have htn : trim (str "name" ++ 61 :: withQuotes n) = str "name" ++ 61 :: withQuotes n :=
    trim_self ⟨⟨110, str "ame" ++ 61 :: withQuotes n, rfl, by decide⟩, 34, str "name" ++ 61 :: ([34] ++ n), by simp only [withQuotes, List.append_assoc, List.cons_append, List.nil_append, List.append_nil], by decide⟩
  have hnn : str "name" ++ 61 :: withQuotes n ≠ [] := fun e => absurd (List.append_eq_nil_iff.1 e).2 (by simp)
  have hx59 : (59 : UInt8) ∉ 32 :: (str "filename*" ++ 61 :: v) := by
    simp only [List.mem_append, List.mem_cons, not_or]
    exact ⟨by decide, by decide, by decide, hvu.1⟩
  have htx : trim (32 :: (str "filename*" ++ 61 :: v)) = str "filename*" ++ 61 :: v :=
    trim_tight [32] (by decide) (s := str "filename*" ++ 61 :: v)
      ⟨⟨102, str "ilename*" ++ 61 :: v, rfl, by decide⟩, vb, str "filename*" ++ 61 :: vq, by rw [hv3]; simp only [List.append_assoc, List.cons_append], hv4⟩
  have hxn : str "filename*" ++ 61 :: v ≠ [] := fun e => absurd (List.append_eq_nil_iff.1 e).2 (by simp)
  have hne : str "filename*" ++ 61 :: v ∉ [str "name" ++ 61 :: withQuotes n] := by
    intro h
    have := congrArg List.head? (List.mem_singleton.1 h)
    exact absurd (show some (102 : UInt8) = some 110 from this) (by decide)
  rw [readLine, p1, if_neg (by decide), if_neg p3, p2]
  dsimp only
  rw [show (110 :: (str "ame" ++ 61 :: withQuotes n ++ (59 :: 32 :: (str "filename*" ++ 61 :: v)))) =
      (str "name" ++ 61 :: withQuotes n) ++ 59 :: (32 :: (str "filename*" ++ 61 :: v)) from rfl,
    splitAll_two hn59 (by rw [htn]; exact hnn), htn, splitAll_one hx59 (by rw [htx]; exact hxn), htx, dispParams, if_neg (by simp), hk,
    dispParams, if_neg hne, hk2, dispParams]
  simp only [Option.toList, List.append_nil, List.cons_append, List.nil_append]
  rw [show param [(str "name", n), (str "filename*", v)] (str "name") = some n from by
      rw [param, List.find?_cons_of_pos (by simp)]; rfl,
    show param [(str "name", n), (str "filename*", v)] (str "filename") = none from by
      rw [param, List.find?_cons_of_neg (by rw [beq_iff_eq]; exact (by decide : str "name" ≠ str "filename")), List.find?_cons_of_neg (by rw [beq_iff_eq]; exact (by decide : str "filename*" ≠ str "filename"))]; rfl,
    show param [(str "name", n), (str "filename*", v)] (str "filename*") = some v from by
      rw [param, List.find?_cons_of_neg (by rw [beq_iff_eq]; exact (by decide : str "name" ≠ str "filename*")), List.find?_cons_of_pos (by simp)]; rfl]

/-- **C136**, extended file names: UTF-8, whose name may be spelled in either case, no language, and a text with percent encoded
characters give the characters meant. -/
theorem C136_extended {f : File} {n u : Bytes} {ws : List Written} (hn : Quotable n) (hn' : Uncut n)
    (hu : u.map lower = (str "UTF-8''").map lower) (hv : Unsplit (u ++ pathText ws)) (hw : ∀ w ∈ ws, w.Ok) (hne : ws ≠ [])
    (hl : n.length + (pathText ws).length < 2 ^ 63) :
    line f (extendedLine n (u ++ pathText ws)) = .ok (some { f with name := n, filename := ws.flatMap Written.value }) := by
  have h7 : u.length = 7 := by
    have := congrArg List.length hu
    rw [List.length_map, List.length_map] at this
    exact this
  have hp : pathText ws ≠ [] := by
    cases ws with
    | nil => exact absurd rfl hne
    | cons w ws =>
      cases w <;> simp [pathText, Written.text]
  have hx : extended (u ++ pathText ws) = some (pathText ws) := by
    unfold extended behind
    rw [show (str "UTF-8''").length = u.length by rw [h7]; decide, List.take_left, if_pos hu, List.drop_left, Option.bind_some, if_pos]
    refine ⟨hp, ?_⟩
    rw [oneLine, List.all_eq_true]
    intro c hc
    have := hv.line c (List.mem_append_right _ hc)
    simp [this.1, this.2]
  have h37 : (str "Content-Disposition: form-data; name=").length = 37 := by decide
  have h12 : (str "; filename*=").length = 12 := by decide
  rw [line_eq f (by simp only [extendedLine, withQuotes, List.length_append, List.length_cons, List.length_nil, h37, h12, h7]; omega),
    readLine_extended hn hn' hv, hx, Option.map_some, decodeUrl_text ws hw]

/-- **C136**: every other extended file name makes the form be refused. -/
theorem C136_extended_refused {f : File} {n v : Bytes} (hn : Quotable n) (hn' : Uncut n) (hv : Unsplit v)
    (h : ∀ u x, v = u ++ x → u.map lower = (str "UTF-8''").map lower → x = []) (hl : n.length + v.length < 2 ^ 63) :
    line f (extendedLine n v) = .ok none := by
  have hx : extended v = none := by
    unfold extended behind
    by_cases hu : (v.take (str "UTF-8''").length).map lower = (str "UTF-8''").map lower
    · rw [if_pos hu, Option.bind_some, if_neg]
      rintro ⟨h1, -⟩
      exact h1 (h _ _ (List.take_append_drop _ v).symm hu)
    · rw [if_neg hu]
      rfl
  have h37 : (str "Content-Disposition: form-data; name=").length = 37 := by decide
  have h12 : (str "; filename*=").length = 12 := by decide
  rw [line_eq f (by simp only [extendedLine, withQuotes, List.length_append, List.length_cons, List.length_nil, h37, h12]; omega),
    readLine_extended hn hn' hv, hx, Option.map_none]

/-- Non-vacuity: a spelling in capitals; a file name with an encoded `é`; an empty one, and one in another character set. -/
example : (str "CONTENT-disposition").map lower = (str "Content-Disposition").map lower ∧
    line File.none (str "CONTENT-disposition: form-data; name=\"a\"") = .ok (some ⟨str "a", [], [], []⟩) ∧
    line File.none (extendedLine (str "a") (str "utf-8''%c3%A9.pem")) = .ok (some ⟨str "a", [0xc3, 0xa9] ++ str ".pem", [], []⟩) ∧
    line File.none (extendedLine (str "a") (str "utf-8''")) = .ok none ∧
    line File.none (extendedLine (str "a") (str "iso-8859-1''x")) = .ok none ∧
    line File.none (extendedLine (str "a") (str "UTF-8x")) = .ok none := by decide +kernel

/-- The file name of the example, with its encoded bytes. -/
def accentedName : List Written := [.pct 12 3 false false, .pct 10 9 true false, .raw 46, .raw 112]

/-- Non-vacuity of `C136_extended`. -/
example : Quotable (str "a") ∧ Uncut (str "a") ∧ Unsplit (str "utf-8''" ++ pathText accentedName) ∧ (∀ w ∈ accentedName, w.Ok) ∧
    accentedName.flatMap Written.value = [0xc3, 0xa9, 46, 112] := by
  refine ⟨by unfold Quotable; decide, by unfold Uncut; decide, ⟨⟨⟨117, str "tf-8''" ++ pathText accentedName, by decide⟩, 112, str "utf-8''" ++ pathText (accentedName.take 3), by decide⟩,
    by unfold Uncut; decide, by decide, by decide⟩, ?_, by decide⟩
  intro w hw
  simp only [accentedName, List.mem_cons, List.not_mem_nil, or_false] at hw
  rcases hw with rfl | rfl | rfl | rfl <;> simp [Written.Ok]

/-- Non-vacuity of `C136_extended_refused`. -/
example : Unsplit (str "UTF-8x") ∧ ∀ u x, str "UTF-8x" = u ++ x → u.map lower = (str "UTF-8''").map lower → x = [] := by
  refine ⟨⟨⟨⟨85, str "TF-8x", by decide⟩, 120, str "UTF-8", by decide⟩, by unfold Uncut; decide, by decide, by decide⟩, ?_⟩
  intro u x e hu
  have h1 := congrArg List.length e
  have h2 := congrArg List.length hu
  rw [List.length_map, List.length_map] at h2
  rw [List.length_append, h2] at h1
  exact absurd h1 (by rw [show (str "UTF-8x").length = 6 by decide, show (str "UTF-8''").length = 7 by decide]; omega)

end Brski.Props
