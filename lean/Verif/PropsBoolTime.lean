import Verif.BoolTimeLemmas

/-!
# Properties C06–C08: boolean and timestamp text
-/

namespace Brski.Props
open Spec BoolTime

/-! ## C06 -/

/-- Full statement of **C06** (first half): the accepted boolean texts are exactly `0`, `1`
and the letter-case variants of true/false (specification of
/repo/src/voucher/serialize.c:292-329). -/
def C06_statement : Prop := ∀ s : Bytes, str2bool s = boolText s

/-- **C06 is violated** on texts with an embedded NUL: the five bytes `true\0` are accepted. -/
theorem C06_violated : ¬ C06_statement := by
  intro h
  have := h (str "true" ++ [0])
  revert this
  decide +kernel

/-- **C06** partial: the claim holds for every text without NUL bytes (in particular for
everything reaching the function from parsed JSON).  Missing: texts with NUL. -/
theorem C06_partial (s : Bytes) (h : 0 ∉ s) : str2bool s = boolText s := str2bool_eq s h

/-- **C06**, second half: serialising and parsing a boolean returns it. -/
theorem C06_roundtrip (b : Bool) : str2bool (bool2str b) = some b := by cases b <;> decide

/-- non-vacuity of C06_partial. -/
example : 0 ∉ str "TrUe" ∧ boolText (str "TrUe") = some true ∧ boolText (str "yes") = none := by
  decide +kernel

/-- Under the letter of ISO C the conversion is defined for all-ASCII text … -/
theorem C06_iso_defined (s : Bytes) (h : ∀ c ∈ s, c < 128) : str2boolIso s = .ok (str2bool s) := by
  unfold str2boolIso
  split
  · rfl
  · rw [if_neg]
    rw [List.any_eq_true]
    rintro ⟨c, hc, h2⟩
    have := h c hc
    simp only [decide_eq_true_eq] at h2
    rw [UInt8.lt_iff_toNat_lt] at this
    rw [UInt8.le_iff_toNat_le] at h2
    omega

/-- … and undefined as soon as a byte ≥ 0x80 reaches `tolower` (harmless with glibc). -/
theorem C06_iso_ub_witness : str2boolIso [0xff] = .ub := by decide +kernel

example : ∀ c ∈ str "false", c < 128 := by decide

/-! ## C07 -/

/-- **C07** Every valid date and time is formatted, and parsing the text gives back the same
date and time; day-of-year is the one of that date.  Holds for both `%Y` padding styles. -/
theorem C07_time_roundtrip (lib : TimeLib) (t : Tm) (v : DateTime) (ht : Holds t v)
    (hv : v.Valid) :
    ∃ s t', time2str lib t = some s ∧ str2time lib s = some t' ∧ Holds t' v ∧
      t'.yday = yearDay v := by
  obtain ⟨s, h1, h2⟩ := time2str_spec lib t v ht hv
  have h3 := strptime_text lib v hv []
  rw [← h2] at h3
  refine ⟨s, _, h1, h3, ⟨rfl, rfl, rfl, rfl, rfl, rfl⟩, ?_⟩
  simp only
  rw [show (1900 + ((v.y : Int) - 1900)) = (v.y : Int) by omega, isLeap_eq,
    monYday_eq v.y v.mo hv.2.1 hv.2.2.1]
  unfold yearDay
  have := hv.2.2.2.1
  omega

/-- **C07**, weekday: for years from 1 on, the parsed structure carries the weekday of the
date (glibc computes the first two months of year 0 differently). -/
theorem C07_weekday (lib : TimeLib) (t : Tm) (v : DateTime) (ht : Holds t v) (hv : v.Valid)
    (hy : 1 ≤ v.y) :
    ∃ s t', time2str lib t = some s ∧ str2time lib s = some t' ∧ Holds t' v ∧
      t'.wday = weekDay v := by
  obtain ⟨s, h1, h2⟩ := time2str_spec lib t v ht hv
  have h3 := strptime_text lib v hv []
  rw [← h2] at h3
  exact ⟨s, _, h1, h3, ⟨rfl, rfl, rfl, rfl, rfl, rfl⟩, dayOfWeek_eq v hv hy⟩

/-- The formatted text is the RFC 3339 text for years 1000..9999 (any year when `%Y` pads). -/
theorem C07_text_is_rfc3339 (lib : TimeLib) (t : Tm) (v : DateTime) (ht : Holds t v)
    (hv : v.Valid) (hy : 1000 ≤ v.y ∨ lib.padYear = true) :
    time2str lib t = some (rfc3339 v) := by
  obtain ⟨s, h1, h2⟩ := time2str_spec lib t v ht hv
  rw [h1, h2]
  have hyy := hv.1
  have key : numPad (if lib.padYear then 4 else 1) (v.y : Int) =
      two (v.y / 100) ++ two (v.y % 100) := by
    have e : two (v.y / 100) ++ two (v.y % 100) = [dig (v.y / 1000), dig (v.y / 100 % 10),
        dig (v.y / 10 % 10), dig (v.y % 10)] := by
      simp only [two, dig, List.cons_append, List.nil_append]
      rw [show v.y / 100 / 10 = v.y / 1000 by omega, show v.y % 100 / 10 = v.y / 10 % 10 by omega,
        show v.y % 100 % 10 = v.y % 10 by omega]
    rw [e]
    unfold numPad
    simp only [Int.natAbs_natCast, show ¬ ((v.y : Int) < 0) by omega, if_false, List.length_nil,
      Nat.add_zero, List.nil_append]
    by_cases c3 : 1000 ≤ v.y
    · rw [natDec_lt10000 c3 (by omega)]
      cases lib.padYear <;> simp
    · have hp : lib.padYear = true := by rcases hy with h | h; omega; exact h
      rw [hp]
      by_cases c1 : v.y < 10
      · rw [natDec_lt10 c1]
        have q1 : v.y / 1000 = 0 := by omega
        have q2 : v.y / 100 % 10 = 0 := by omega
        have q3 : v.y / 10 % 10 = 0 := by omega
        have q4 : v.y % 10 = v.y := by omega
        rw [q1, q2, q3, q4]; simp [List.replicate, dig]
      · by_cases c2 : v.y < 100
        · rw [natDec_lt100 (by omega) c2]
          have q1 : v.y / 1000 = 0 := by omega
          have q2 : v.y / 100 % 10 = 0 := by omega
          have q3 : v.y / 10 % 10 = v.y / 10 := by omega
          rw [q1, q2, q3]; simp [List.replicate, dig]
        · rw [natDec_lt1000 (by omega) (by omega)]
          have q1 : v.y / 1000 = 0 := by omega
          have q2 : v.y / 100 % 10 = v.y / 100 := by omega
          rw [q1, q2]; simp [List.replicate, dig]
  rw [key]
  simp [rfc3339, two, dig, str]

/-- non-vacuity of C07: 2024-02-29T23:59:60Z is valid, held by a concrete `struct tm`, and is
formatted as expected; its weekday is Thursday. -/
example : (⟨2024, 2, 29, 23, 59, 60⟩ : DateTime).Valid ∧
    Holds ⟨60, 59, 23, 29, 1, 124, 0, 0, 0⟩ ⟨2024, 2, 29, 23, 59, 60⟩ ∧
    time2str .plain ⟨60, 59, 23, 29, 1, 124, 0, 0, 0⟩ = some (str "2024-02-29T23:59:60Z") ∧
    weekDay ⟨2024, 2, 29, 23, 59, 60⟩ = 4 := by
  refine ⟨by unfold DateTime.Valid; decide, by unfold Holds; decide, by decide +kernel,
    by decide +kernel⟩

/-! ## C08 -/

/-- Full statement of **C08**: accepted text is the RFC 3339 text of an existing date
(specification of /repo/src/voucher/serialize.c:342-361). -/
def C08_statement : Prop :=
  ∀ (lib : TimeLib) (s : Bytes) (t : Tm), str2time lib s = some t →
    ∃ v : DateTime, v.Valid ∧ s = rfc3339 v

/-- **C08 is violated**: `2023-02-31T00:00:00Z` names no day but is accepted … -/
theorem C08_violated : ¬ C08_statement := by
  intro h
  have h1 : (str2time .plain (str "2023-02-31T00:00:00Z")).isSome = true := by decide +kernel
  obtain ⟨t, ht⟩ := Option.isSome_iff_exists.1 h1
  obtain ⟨v, hv, hs⟩ := h _ _ t ht
  have hlen : (rfc3339 v).length = 20 := by simp [rfc3339, two, str]
  have e0 : ∀ n, n < 100 → ∀ m, m < 100 → two n = two m → n = m := by
    intro n hn m hm he
    simp only [two, List.cons.injEq, and_true] at he
    have a1 := congrArg UInt8.toNat he.1
    have a2 := congrArg UInt8.toNat he.2
    simp only [UInt8.toNat_ofNat'] at a1 a2
    omega
  have hml := monthLen_le v.y v.mo
  obtain ⟨vy, vm1, vm2, vd1, vd2, -, -, -⟩ := hv
  -- read off the fields
  have hd : str "2023-02-31T00:00:00Z" = rfc3339 v := hs
  have t1 : two (v.y / 100) = two 20 := by
    have := congrArg (fun l => (l.take 2)) hd
    simpa [rfc3339, two, str] using this.symm
  have t2 : two (v.y % 100) = two 23 := by
    have := congrArg (fun l => ((l.drop 2).take 2)) hd
    simpa [rfc3339, two, str] using this.symm
  have t3 : two v.mo = two 2 := by
    have := congrArg (fun l => ((l.drop 5).take 2)) hd
    simpa [rfc3339, two, str] using this.symm
  have t4 : two v.d = two 31 := by
    have := congrArg (fun l => ((l.drop 8).take 2)) hd
    simpa [rfc3339, two, str] using this.symm
  have y1 := e0 _ (by omega) _ (by omega) t1
  have y2 := e0 _ (by omega) _ (by omega) t2
  have m1 := e0 _ (by omega) _ (by omega) t3
  have d1 := e0 _ (by omega) _ (by omega) t4
  have hy : v.y = 2023 := by omega
  rw [m1, hy, d1] at vd2
  exact absurd vd2 (by decide)

/-- … and so is text with arbitrary trailing characters, for every valid date. -/
theorem C08_trailing_accepted (lib : TimeLib) (v : DateTime) (hv : v.Valid) (hy : 1000 ≤ v.y)
    (junk : Bytes) : ∃ t, str2time lib (rfc3339 v ++ junk) = some t ∧ Holds t v := by
  have h3 := strptime_text lib v hv junk
  have ht : time2str lib ⟨v.s, v.mi, v.h, v.d, (v.mo : Int) - 1, (v.y : Int) - 1900, 0, 0, 0⟩ =
      some (rfc3339 v) :=
    C07_text_is_rfc3339 lib _ v ⟨rfl, rfl, rfl, rfl, rfl, rfl⟩ hv (.inl hy)
  obtain ⟨s, h1, h2⟩ := time2str_spec lib
    ⟨v.s, v.mi, v.h, v.d, (v.mo : Int) - 1, (v.y : Int) - 1900, 0, 0, 0⟩ v
    ⟨rfl, rfl, rfl, rfl, rfl, rfl⟩ hv
  rw [ht] at h1
  have hs : rfc3339 v = s := by simpa using h1
  refine ⟨_, Eq.trans ?_ h3, rfl, rfl, rfl, rfl, rfl, rfl⟩
  rw [hs, h2]
  simp [str2time]

/-- **C08** partial: every accepted text yields fields in the ranges of the format (month
0..11, day 1..31, hour 0..23, minute 0..59, second 0..61, year 0..9999).  Missing: existence
of the day in its month, and exactness of the text. -/
theorem C08_partial (lib : TimeLib) (s : Bytes) (t : Tm) (h : str2time lib s = some t) :
    -1900 ≤ t.year ∧ t.year ≤ 8099 ∧ 0 ≤ t.mon ∧ t.mon ≤ 11 ∧ 1 ≤ t.mday ∧ t.mday ≤ 31 ∧
    0 ≤ t.hour ∧ t.hour ≤ 23 ∧ 0 ≤ t.min ∧ t.min ≤ 59 ∧ 0 ≤ t.sec ∧ t.sec ≤ 61 := by
  unfold str2time strptime at h
  simp only [Option.bind_eq_some_iff, Option.some.injEq] at h
  obtain ⟨⟨y, s1⟩, hy, s2, -, ⟨mo, s3⟩, hmo, s4, -, ⟨d, s5⟩, hd, s6, -, ⟨hh, s7⟩, hhh, s8, -,
    ⟨mi, s9⟩, hmi, s10, -, ⟨se, s11⟩, hse, s12, -, rfl⟩ := h
  have r1 := getNumber_range hy
  have r2 := getNumber_range hmo
  have r3 := getNumber_range hd
  have r4 := getNumber_range hhh
  have r5 := getNumber_range hmi
  have r6 := getNumber_range hse
  simp only
  omega

/-- non-vacuity of C08_partial. -/
example : (str2time .plain (str "1999-12-31T00:00:61Zx")).isSome = true := by decide +kernel

theorem moreDigits_shape (hi : Nat) : ∀ (k v : Nat) (r : Bytes), ∃ ds,
    r = ds ++ (moreDigits hi k v r).2 ∧ ds.length ≤ k ∧ (∀ c ∈ ds, 48 ≤ c.toNat ∧ c.toNat ≤ 57) ∧
    (moreDigits hi k v r).1 = ds.foldl (fun v d => 10 * v + (d.toNat - 48)) v
  | 0, v, r => ⟨[], by simp [moreDigits]⟩
  | k + 1, v, r => by
    unfold moreDigits
    split
    · split
      · rename_i d r'
        split
        · rename_i hd
          obtain ⟨ds, h1, h2, h3, h4⟩ := moreDigits_shape hi k (v * 10 + (d.toNat - 48)) r'
          refine ⟨d :: ds, ?_, by simp only [List.length_cons]; omega, ?_, ?_⟩
          · rw [List.cons_append, ← h1]
          · intro c hc
            rcases List.mem_cons.1 hc with rfl | hc
            · simp only [isDigit, Bool.and_eq_true, decide_eq_true_eq, UInt8.le_iff_toNat_le] at hd
              exact hd
            · exact h3 c hc
          · rw [h4, List.foldl_cons, Nat.mul_comm]
        · exact ⟨[], by simp⟩
      · exact ⟨[], by simp⟩
    · exact ⟨[], by simp⟩

theorem getNumber_shape {lib : TimeLib} {lo hi n v : Nat} {s r : Bytes} (hn : 1 ≤ n)
    (h : getNumber lib lo hi n s = some (v, r)) : ∃ f, s = f ++ r ∧ NumberField lib.isSpace n f v := by
  unfold getNumber at h
  have hsp := List.takeWhile_append_dropWhile (p := lib.isSpace) (l := s)
  split at h
  · rename_i d r' hdw
    rw [hdw] at hsp
    split at h
    · rename_i hd
      obtain ⟨ds, h1, h2, h3, h4⟩ := moreDigits_shape hi (n - 1) (d.toNat - 48) r'
      dsimp only at h
      split at h
      · cases h
      · simp only [Option.some.injEq, Prod.mk.injEq] at h
        obtain ⟨rfl, rfl⟩ := h
        refine ⟨s.takeWhile lib.isSpace ++ (d :: ds), ?_, s.takeWhile lib.isSpace, d :: ds, rfl, ?_, ?_, ?_, ?_, ?_⟩
        · rw [List.append_assoc, List.cons_append, ← h1, hsp]
        · intro c hc
          have : ∀ (l : Bytes), ∀ c ∈ l.takeWhile lib.isSpace, lib.isSpace c = true := by
            intro l
            induction l with
            | nil => intro c hc; cases hc
            | cons a l ih =>
              intro c hc
              rw [List.takeWhile_cons] at hc
              split at hc
              · rename_i ha
                rcases List.mem_cons.1 hc with rfl | hc
                · exact ha
                · exact ih c hc
              · cases hc
          exact this s c hc
        · simp
        · simp only [List.length_cons]; omega
        · intro c hc
          rcases List.mem_cons.1 hc with rfl | hc
          · simp only [isDigit, Bool.and_eq_true, decide_eq_true_eq, UInt8.le_iff_toNat_le] at hd
            exact hd
          · exact h3 c hc
        · rw [decimal, List.foldl_cons, h4]; simp
    · cases h
  · cases h

theorem lit_shape {c : UInt8} {s r : Bytes} (h : lit c s = some r) : s = c :: r := by
  unfold lit at h
  split at h
  · split at h
    · rename_i hc; cases h; rw [hc]
    · cases h
  · cases h

/-- **C08** partial, the form of the text: whatever is accepted starts with six number fields, separated
by `-`, `-`, `T`, `:`, `:` and closed by `Z`, and the result holds exactly the numbers they denote.
Missing: existence of the day in its month, fixed field widths, and rejection of what follows `Z`. -/
theorem C08_shape_partial (lib : TimeLib) (s : Bytes) (t : Tm) (h : str2time lib s = some t) :
    ∃ (fy fmo fd fh fmi fs rest : Bytes) (y mo d hh mi se : Nat),
      s = fy ++ 45 :: fmo ++ 45 :: fd ++ 84 :: fh ++ 58 :: fmi ++ 58 :: fs ++ 90 :: rest ∧
      NumberField lib.isSpace 4 fy y ∧ NumberField lib.isSpace 2 fmo mo ∧ NumberField lib.isSpace 2 fd d ∧
      NumberField lib.isSpace 2 fh hh ∧ NumberField lib.isSpace 2 fmi mi ∧ NumberField lib.isSpace 2 fs se ∧
      t.year = (y : Int) - 1900 ∧ t.mon = (mo : Int) - 1 ∧ t.mday = d ∧ t.hour = hh ∧ t.min = mi ∧ t.sec = se := by
  unfold str2time strptime at h
  simp only [Option.bind_eq_some_iff, Option.some.injEq] at h
  obtain ⟨⟨y, s1⟩, hy, s2, l1, ⟨mo, s3⟩, hmo, s4, l2, ⟨d, s5⟩, hd, s6, l3, ⟨hh, s7⟩, hhh, s8, l4,
    ⟨mi, s9⟩, hmi, s10, l5, ⟨se, s11⟩, hse, s12, l6, rfl⟩ := h
  obtain ⟨fy, rfl, hfy⟩ := getNumber_shape (by omega) hy
  obtain ⟨fmo, e2, hfmo⟩ := getNumber_shape (by omega) hmo
  obtain ⟨fd, e3, hfd⟩ := getNumber_shape (by omega) hd
  obtain ⟨fh, e4, hfh⟩ := getNumber_shape (by omega) hhh
  obtain ⟨fmi, e5, hfmi⟩ := getNumber_shape (by omega) hmi
  obtain ⟨fs, e6, hfs⟩ := getNumber_shape (by omega) hse
  have l1 := lit_shape l1
  have l2 := lit_shape l2
  have l3 := lit_shape l3
  have l4 := lit_shape l4
  have l5 := lit_shape l5
  have l6 := lit_shape l6
  dsimp only at *
  refine ⟨fy, fmo, fd, fh, fmi, fs, s12, y, mo, d, hh, mi, se, ?_, hfy, hfmo, hfd, hfh, hfmi, hfs, rfl, rfl,
    rfl, rfl, rfl, rfl⟩
  rw [l1, e2, l2, e3, l3, e4, l4, e5, l5, e6, l6]
  simp only [List.append_assoc, List.cons_append]

/-- non-vacuity of C08_shape_partial: short fields and leading blanks are accepted. -/
example : (str2time .plain (str " 99-1- 3T4:5:6Z")).isSome = true := by decide +kernel

end Brski.Props
