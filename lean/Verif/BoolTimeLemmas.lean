import Verif.BoolTime
import Verif.SpecTime
import Verif.Base64Lemmas

/-!
# Helper lemmas for boolean and timestamp text
-/

namespace Brski.BoolTime
open Spec
open Base64 (forall_uint8)

theorem tolower_eq : ∀ c : UInt8,
    (if c ∈ str "ABCDEFGHIJKLMNOPQRSTUVWXYZ" then c + 32 else c) = tolower c :=
  forall_uint8 (by decide +kernel)

theorem asciiLower_eq (s : Bytes) : asciiLower s = s.map tolower := by
  unfold asciiLower; congr 1; funext c; exact tolower_eq c

theorem tolower_ne_zero : ∀ c : UInt8, c ≠ 0 → tolower c ≠ 0 :=
  forall_uint8 (by decide +kernel)

theorem cstr_append_nul (s : Bytes) (h : 0 ∉ s) : cstr (s ++ [0]) = s := by
  unfold cstr
  rw [List.takeWhile_append_of_pos]
  · simp
  · intro a ha
    simp only [ne_eq, decide_eq_true_eq]
    rintro rfl; exact h ha

theorem map_tolower_no_nul (s : Bytes) (h : 0 ∉ s) : 0 ∉ s.map tolower := by
  intro hm
  rw [List.mem_map] at hm
  obtain ⟨a, ha, h0⟩ := hm
  exact tolower_ne_zero a (by rintro rfl; exact h ha) h0

theorem str2bool_eq (s : Bytes) (h : 0 ∉ s) : str2bool s = boolText s := by
  unfold str2bool boolText
  rw [asciiLower_eq]
  simp only [cstr_append_nul _ (map_tolower_no_nul s h)]
  have l0 : (str "false").length = 5 := rfl
  have l1 : (str "true").length = 4 := rfl
  by_cases hl : s.length = 0
  · rw [List.length_eq_zero_iff] at hl; subst hl; decide
  · rw [if_neg hl]
    by_cases h5 : s.length > 5
    · rw [if_pos h5]
      have n1 : s.map tolower ≠ str "false" := by intro h; have := congrArg List.length h; simp at this; omega
      have n2 : s.map tolower ≠ str "true" := by intro h; have := congrArg List.length h; simp at this; omega
      have n3 : s ≠ str "0" := by intro h; subst h; exact absurd h5 (by decide)
      have n4 : s ≠ str "1" := by intro h; subst h; exact absurd h5 (by decide)
      simp [n1, n2, n3, n4]
    · rw [if_neg h5]
      by_cases h1 : s.length = 1
      · match s, h1 with
        | [a], _ =>
          have e1 : ([a] : Bytes).map tolower ≠ str "false" := by intro h; have := congrArg List.length h; simp at this; omega
          have e2 : ([a] : Bytes).map tolower ≠ str "true" := by intro h; have := congrArg List.length h; simp at this; omega
          by_cases g0 : [a] = str "0"
          · rw [g0]; decide
          · by_cases g1 : [a] = str "1"
            · rw [g1]; decide
            · rw [if_neg (by simpa using g0), if_neg (by simpa using g1), if_neg e1, if_neg e2,
                if_neg (by rintro (h | h); exact g0 h; exact e1 h),
                if_neg (by rintro (h | h); exact g1 h; exact e2 h)]
      · have g0 : s ≠ str "0" := by rintro rfl; exact h1 rfl
        have g1 : s ≠ str "1" := by rintro rfl; exact h1 rfl
        simp [g0, g1, h1]

/-! ## Numbers -/

theorem isDigit_dig : ∀ n : Nat, n < 10 → isDigit (dig n) = true := by decide
theorem dig_toNat : ∀ n : Nat, n < 10 → (dig n).toNat - 48 = n := by decide
theorem dig_ge : ∀ n : Nat, n < 10 → 48 ≤ dig n := by decide
theorem dig_le : ∀ n : Nat, n < 10 → dig n ≤ 57 := by decide
theorem dig_ne : ∀ n : Nat, n < 10 → dig n ≠ 0 := by decide

theorem natDec_lt10 {n : Nat} (h : n < 10) : natDec n = [dig n] := by
  rw [natDec, if_pos h]
theorem natDec_lt100 {n : Nat} (h : 10 ≤ n) (h2 : n < 100) :
    natDec n = [dig (n / 10), dig (n % 10)] := by
  rw [natDec, if_neg (by omega), natDec_lt10 (by omega)]; rfl
theorem natDec_lt1000 {n : Nat} (h : 100 ≤ n) (h2 : n < 1000) :
    natDec n = [dig (n / 100), dig (n / 10 % 10), dig (n % 10)] := by
  rw [natDec, if_neg (by omega), natDec_lt100 (by omega) (by omega),
    show n / 10 / 10 = n / 100 by omega]; rfl
theorem natDec_lt10000 {n : Nat} (h : 1000 ≤ n) (h2 : n < 10000) :
    natDec n = [dig (n / 1000), dig (n / 100 % 10), dig (n / 10 % 10), dig (n % 10)] := by
  rw [natDec, if_neg (by omega), natDec_lt1000 (by omega) (by omega),
    show n / 10 / 100 = n / 1000 by omega, show n / 10 / 10 % 10 = n / 100 % 10 by omega]; rfl

theorem numPad2 {n : Nat} (h : n < 100) : numPad 2 (n : Int) = [dig (n / 10), dig (n % 10)] := by
  unfold numPad
  simp only [Int.natAbs_natCast, show ¬ ((n : Int) < 0) by omega, if_false, List.length_nil,
    Nat.add_zero, List.nil_append]
  by_cases h1 : n < 10
  · rw [natDec_lt10 h1]
    have : n / 10 = 0 := by omega
    have h2 : n % 10 = n := by omega
    simp [this, h2, dig]
  · rw [natDec_lt100 (by omega) h]; simp

theorem getNumber_two (lib : TimeLib) (lo hi n : Nat) (r : Bytes) (h : n < 100)
    (h1 : lo ≤ n) (h2 : n ≤ hi) :
    getNumber lib lo hi 2 (dig (n / 10) :: dig (n % 10) :: r) = some (n, r) := by
  unfold getNumber
  rw [List.dropWhile_cons_of_neg
    (by simp [lib.digits_not_space _ (dig_ge (n/10) (by omega)) (dig_le (n/10) (by omega))])]
  simp only [isDigit_dig (n/10) (by omega), if_true, dig_toNat (n/10) (by omega)]
  simp only [moreDigits, show n / 10 * 10 ≤ hi by omega, if_true, isDigit_dig (n%10) (by omega),
    dig_toNat (n%10) (by omega)]
  rw [show n / 10 * 10 + n % 10 = n by omega, if_neg (by omega)]

theorem more_stop (to k v : Nat) (c : UInt8) (r : Bytes) (hc : isDigit c = false) :
    moreDigits to k v (c :: r) = (v, c :: r) := by
  cases k with
  | zero => rfl
  | succ k => simp [moreDigits, hc]

theorem more_zero (to v : Nat) (r : Bytes) : moreDigits to 0 v r = (v, r) := rfl

theorem more_step (to k v a : Nat) (r : Bytes) (ha : a < 10) (hv : v * 10 ≤ to) :
    moreDigits to (k + 1) v (dig a :: r) = moreDigits to k (v * 10 + a) r := by
  simp [moreDigits, hv, isDigit_dig a ha, dig_toNat a ha]

/-- Year text in either padding style is read back by `%Y`. -/
theorem getNumber_year (lib : TimeLib) (n : Nat) (r : Bytes) (h : n < 10000) :
    getNumber lib 0 9999 4
      (numPad (if lib.padYear then 4 else 1) (n : Int) ++ 45 :: r) = some (n, 45 :: r) := by
  have key1 : ∀ a, a < 10 →
      getNumber lib 0 9999 4 (dig a :: 45 :: r) = some (a, 45 :: r) := by
    intro a ha
    unfold getNumber
    rw [List.dropWhile_cons_of_neg
      (by simp [lib.digits_not_space _ (dig_ge a ha) (dig_le a ha)])]
    simp only [isDigit_dig a ha, if_true, dig_toNat a ha, more_stop _ _ _ 45 r (by decide)]
    rw [if_neg (by omega)]
  have key2 : ∀ a b, a < 10 → b < 10 →
      getNumber lib 0 9999 4 (dig a :: dig b :: 45 :: r) = some (a * 10 + b, 45 :: r) := by
    intro a b ha hb
    unfold getNumber
    rw [List.dropWhile_cons_of_neg
      (by simp [lib.digits_not_space _ (dig_ge a ha) (dig_le a ha)])]
    simp only [isDigit_dig a ha, if_true, dig_toNat a ha]
    rw [show 4 - 1 = 2 + 1 from rfl, more_step _ _ _ _ _ hb (by omega),
      more_stop _ _ _ 45 r (by decide)]
    simp only
    rw [if_neg (by omega)]
  have key3 : ∀ a b c, a < 10 → b < 10 → c < 10 →
      getNumber lib 0 9999 4 (dig a :: dig b :: dig c :: 45 :: r) =
        some ((a * 10 + b) * 10 + c, 45 :: r) := by
    intro a b c ha hb hc
    unfold getNumber
    rw [List.dropWhile_cons_of_neg
      (by simp [lib.digits_not_space _ (dig_ge a ha) (dig_le a ha)])]
    simp only [isDigit_dig a ha, if_true, dig_toNat a ha]
    rw [show 4 - 1 = 2 + 1 from rfl, more_step _ _ _ _ _ hb (by omega),
      more_step _ _ _ _ _ hc (by omega), more_stop _ _ _ 45 r (by decide)]
    simp only
    rw [if_neg (by omega)]
  have key4 : ∀ a b c d, a < 10 → b < 10 → c < 10 → d < 10 →
      getNumber lib 0 9999 4 (dig a :: dig b :: dig c :: dig d :: 45 :: r) =
        some (((a * 10 + b) * 10 + c) * 10 + d, 45 :: r) := by
    intro a b c d ha hb hc hd
    unfold getNumber
    rw [List.dropWhile_cons_of_neg
      (by simp [lib.digits_not_space _ (dig_ge a ha) (dig_le a ha)])]
    simp only [isDigit_dig a ha, if_true, dig_toNat a ha]
    rw [show 4 - 1 = 2 + 1 from rfl, more_step _ _ _ _ _ hb (by omega),
      more_step _ _ _ _ _ hc (by omega), more_step _ _ _ _ _ hd (by omega), more_zero]
    simp only
    rw [if_neg (by omega)]
  unfold numPad
  simp only [Int.natAbs_natCast, show ¬ ((n : Int) < 0) by omega, if_false, List.length_nil,
    Nat.add_zero, List.nil_append]
  have d0 : (48 : UInt8) = dig 0 := by decide
  by_cases c1 : n < 10
  · rw [natDec_lt10 c1]
    cases lib.padYear
    · simpa using key1 n c1
    · have := key4 0 0 0 n (by omega) (by omega) (by omega) c1
      simpa [d0, List.replicate] using this
  · by_cases c2 : n < 100
    · rw [natDec_lt100 (by omega) c2]
      cases lib.padYear
      · have := key2 (n/10) (n%10) (by omega) (by omega)
        rw [show n / 10 * 10 + n % 10 = n by omega] at this
        simpa using this
      · have := key4 0 0 (n/10) (n%10) (by omega) (by omega) (by omega) (by omega)
        rw [show (((0 * 10 + 0) * 10 + n / 10) * 10 + n % 10) = n by omega] at this
        simpa [d0, List.replicate] using this
    · by_cases c3 : n < 1000
      · rw [natDec_lt1000 (by omega) c3]
        cases lib.padYear
        · have := key3 (n/100) (n/10%10) (n%10) (by omega) (by omega) (by omega)
          rw [show (n / 100 * 10 + n / 10 % 10) * 10 + n % 10 = n by omega] at this
          simpa using this
        · have := key4 0 (n/100) (n/10%10) (n%10) (by omega) (by omega) (by omega) (by omega)
          rw [show (((0 * 10 + n / 100) * 10 + n / 10 % 10) * 10 + n % 10) = n by omega] at this
          simpa [d0, List.replicate] using this
      · rw [natDec_lt10000 (by omega) h]
        have := key4 (n/1000) (n/100%10) (n/10%10) (n%10) (by omega) (by omega) (by omega) (by omega)
        rw [show (((n / 1000 * 10 + n / 100 % 10) * 10 + n / 10 % 10) * 10 + n % 10) = n by omega]
          at this
        cases lib.padYear <;> simpa using this

theorem numPad_year_length (p : Bool) (n : Nat) (h : n < 10000) :
    (numPad (if p then 4 else 1) (n : Int)).length ≤ 4 := by
  unfold numPad
  simp only [Int.natAbs_natCast, show ¬ ((n : Int) < 0) by omega, if_false, List.length_nil,
    Nat.add_zero, List.nil_append]
  by_cases c1 : n < 10
  · rw [natDec_lt10 c1]; cases p <;> simp
  · by_cases c2 : n < 100
    · rw [natDec_lt100 (by omega) c2]; cases p <;> simp
    · by_cases c3 : n < 1000
      · rw [natDec_lt1000 (by omega) c3]; cases p <;> simp
      · rw [natDec_lt10000 (by omega) h]; cases p <;> simp

/-- `struct tm` holding a given date and time, other fields arbitrary (used in proofs and
statements; /repo/src/voucher/serialize.c:331-361). -/
def Holds (t : Tm) (v : DateTime) : Prop :=
  t.year = (v.y : Int) - 1900 ∧ t.mon = (v.mo : Int) - 1 ∧ t.mday = v.d ∧ t.hour = v.h ∧
  t.min = v.mi ∧ t.sec = v.s

theorem monthLen_le (y m : Nat) : monthLen y m ≤ 31 := by
  unfold monthLen; repeat' split
  all_goals omega

theorem time2str_spec (lib : TimeLib) (t : Tm) (v : DateTime) (h : Holds t v) (hv : v.Valid) :
    ∃ s, time2str lib t = some s ∧
      s = numPad (if lib.padYear then 4 else 1) (v.y : Int) ++ 45 :: dig (v.mo / 10) ::
        dig (v.mo % 10) :: 45 :: dig (v.d / 10) :: dig (v.d % 10) :: 84 :: dig (v.h / 10) ::
        dig (v.h % 10) :: 58 :: dig (v.mi / 10) :: dig (v.mi % 10) :: 58 :: dig (v.s / 10) ::
        dig (v.s % 10) :: [90] := by
  obtain ⟨hy, hmo, hd, hh, hmi, hs⟩ := h
  obtain ⟨vy, vm1, vm2, vd1, vd2, vh, vmi, vs⟩ := hv
  have hml := monthLen_le v.y v.mo
  unfold time2str
  simp only [hy, hmo, hd, hh, hmi, hs]
  rw [show ((v.y : Int) - 1900 + 1900) = (v.y : Int) by omega,
    show ((v.mo : Int) - 1 + 1) = (v.mo : Int) by omega,
    numPad2 (n := v.mo) (by omega), numPad2 (n := v.d) (by omega), numPad2 (n := v.h) (by omega),
    numPad2 (n := v.mi) (by omega), numPad2 (n := v.s) (by omega)]
  have hl := numPad_year_length lib.padYear v.y (by omega)
  rw [if_pos (by simp only [List.length_append, List.length_cons, List.length_nil]; omega)]
  exact ⟨_, rfl, by simp⟩

theorem strptime_text (lib : TimeLib) (v : DateTime) (hv : v.Valid) (rest : Bytes) :
    strptime lib (numPad (if lib.padYear then 4 else 1) (v.y : Int) ++ 45 :: dig (v.mo / 10) ::
        dig (v.mo % 10) :: 45 :: dig (v.d / 10) :: dig (v.d % 10) :: 84 :: dig (v.h / 10) ::
        dig (v.h % 10) :: 58 :: dig (v.mi / 10) :: dig (v.mi % 10) :: 58 :: dig (v.s / 10) ::
        dig (v.s % 10) :: 90 :: rest) =
    some { sec := v.s, min := v.mi, hour := v.h, mday := v.d, mon := (v.mo : Int) - 1,
           year := (v.y : Int) - 1900, wday := dayOfWeek ((v.y : Int) - 1900) (v.mo - 1) v.d,
           yday := monYday (isLeap (1900 + ((v.y : Int) - 1900))) (v.mo - 1) + (v.d - 1),
           isdst := 0 } := by
  obtain ⟨vy, vm1, vm2, vd1, vd2, vh, vmi, vs⟩ := hv
  have hml := monthLen_le v.y v.mo
  unfold strptime
  rw [getNumber_year lib v.y _ (by omega)]
  simp only [Option.bind_some, lit, if_true]
  rw [getNumber_two lib 1 12 v.mo _ (by omega) (by omega) (by omega)]
  simp only [Option.bind_some, lit, if_true]
  rw [getNumber_two lib 1 31 v.d _ (by omega) (by omega) (by omega)]
  simp only [Option.bind_some, lit, if_true]
  rw [getNumber_two lib 0 23 v.h _ (by omega) (by omega) (by omega)]
  simp only [Option.bind_some, lit, if_true]
  rw [getNumber_two lib 0 59 v.mi _ (by omega) (by omega) (by omega)]
  simp only [Option.bind_some, lit, if_true]
  rw [getNumber_two lib 0 61 v.s _ (by omega) (by omega) (by omega)]
  simp only [Option.bind_some, lit, if_true]

/-! ## Calendar -/

theorem isLeap_eq (y : Nat) : isLeap (y : Int) = leap y := by
  unfold isLeap leap
  rw [Bool.eq_iff_iff]
  simp only [Bool.and_eq_true, Bool.or_eq_true, beq_iff_eq, bne_iff_ne, decide_eq_true_eq]
  omega

theorem leap_or (y : Nat) : leap y = true ∨ leap y = false := by cases leap y <;> simp

theorem monYday_eq (y m : Nat) (h1 : 1 ≤ m) (h2 : m ≤ 12) :
    monYday (leap y) (m - 1) = daysBeforeMonth y m := by
  have hm : m ∈ [1,2,3,4,5,6,7,8,9,10,11,12] := by
    simp only [List.mem_cons, List.not_mem_nil, or_false]; omega
  simp only [List.mem_cons, List.not_mem_nil, or_false] at hm
  rcases leap_or y with hl | hl <;>
  rcases hm with rfl | rfl | rfl | rfl | rfl | rfl | rfl | rfl | rfl | rfl | rfl | rfl <;>
    simp [daysBeforeMonth, monthLen, hl, monYday]

theorem monYday_false (y m : Nat) (h1 : 1 ≤ m) (h2 : m ≤ 12) :
    (daysBeforeMonth y m : Int) =
      monYday false (m - 1) + (if leap y = true ∧ 3 ≤ m then 1 else 0) := by
  rw [← monYday_eq y m h1 h2]
  have hm : m ∈ [1,2,3,4,5,6,7,8,9,10,11,12] := by
    simp only [List.mem_cons, List.not_mem_nil, or_false]; omega
  simp only [List.mem_cons, List.not_mem_nil, or_false] at hm
  rcases leap_or y with hl | hl <;> rw [hl] <;>
  rcases hm with rfl | rfl | rfl | rfl | rfl | rfl | rfl | rfl | rfl | rfl | rfl | rfl <;>
    simp [monYday]

/-- Closed form of the day count of past years. -/
theorem daysBeforeYear_closed (y : Nat) :
    daysBeforeYear y = 365 * y + (y + 3) / 4 - (y + 99) / 100 + (y + 399) / 400 ∧
      (y + 99) / 100 ≤ 365 * y + (y + 3) / 4 := by
  induction y with
  | zero => simp [daysBeforeYear]
  | succ y ih =>
    unfold daysBeforeYear
    rcases leap_or y with hl | hl
    · rw [hl]
      unfold leap at hl
      simp only [decide_eq_true_eq] at hl
      simp only [if_true]
      omega
    · rw [hl]
      unfold leap at hl
      simp only [decide_eq_false_iff_not] at hl
      simp only [Bool.false_eq_true, if_false]
      omega

theorem tdiv_nat (a b : Nat) : (a : Int).tdiv (b : Int) = ((a / b : Nat) : Int) := by
  simp [Int.ofNat_tdiv]

theorem dayOfWeek_eq (v : DateTime) (hv : v.Valid) (hy1 : 1 ≤ v.y) :
    dayOfWeek ((v.y : Int) - 1900) (v.mo - 1) v.d = weekDay v := by
  obtain ⟨vy, vm1, vm2, vd1, vd2, vh, vmi, vs⟩ := hv
  unfold dayOfWeek weekDay yearDay
  obtain ⟨c, hc⟩ : ∃ c : Nat, (c : Int) = 1900 + ((v.y : Int) - 1900) - (if v.mo - 1 < 2 then 1 else 0) ∧
      c = v.y - (if v.mo - 1 < 2 then 1 else 0) := by
    refine ⟨v.y - (if v.mo - 1 < 2 then 1 else 0), ?_, rfl⟩
    split <;> omega
  simp only [← hc.1]
  have e4 : (c : Int).tdiv 4 = ((c / 4 : Nat) : Int) := tdiv_nat c 4
  have e25 : ((c / 4 : Nat) : Int).tdiv 25 = ((c / 4 / 25 : Nat) : Int) := tdiv_nat (c / 4) 25
  have e100 : ((c / 4 / 25 : Nat) : Int).tdiv 4 = ((c / 4 / 25 / 4 : Nat) : Int) := tdiv_nat _ 4
  have em : ¬ (((c / 4 : Nat) : Int).tmod 25 < 0) := by
    have := Int.tmod_nonneg (a := ((c / 4 : Nat) : Int)) 25 (by omega)
    omega
  rw [e4, e25, e100, if_neg em]
  have hdb := daysBeforeYear_closed v.y
  have hmy := monYday_false v.y v.mo vm1 vm2
  generalize hMM : monYday false (v.mo - 1) = MM at *
  generalize daysBeforeMonth v.y v.mo = DM at *
  generalize daysBeforeYear v.y = DY at *
  have hMM0 : 0 ≤ MM ∧ MM ≤ 334 := by
    rw [← hMM]; unfold monYday; split <;> simp
  -- turn truncated remainder into Euclidean remainder
  have tm : ∀ w : Int, (w.tmod 7 + 7).tmod 7 = w % 7 := by
    intro w
    have h1 : 0 ≤ w.tmod 7 + 7 := by
      have := Int.lt_tmod_of_pos w (b := 7) (by omega); omega
    rw [Int.tmod_eq_emod_of_nonneg h1]
    rcases Int.le_total 0 w with hw | hw
    · rw [Int.tmod_eq_emod_of_nonneg hw]; omega
    · have : w.tmod 7 = -((-w) % 7) := by
        rw [← Int.tmod_eq_emod_of_nonneg (a := -w) (by omega), Int.neg_tmod]; omega
      omega
  rw [tm]
  have d1 : c / 4 / 25 = c / 100 := by rw [Nat.div_div_eq_div_mul]
  have d2 : c / 4 / 25 / 4 = c / 400 := by rw [Nat.div_div_eq_div_mul, Nat.div_div_eq_div_mul]
  rw [d2, d1]
  have f1 : (v.y + 3) / 4 = (v.y - 1) / 4 + 1 := by omega
  have f2 : (v.y + 99) / 100 = (v.y - 1) / 100 + 1 := by omega
  have f3 : (v.y + 399) / 400 = (v.y - 1) / 400 + 1 := by omega
  rw [f1, f2, f3] at hdb
  obtain ⟨-, hc⟩ := hc
  have g1 : v.y / 4 = (v.y - 1) / 4 + (if v.y % 4 = 0 then 1 else 0) := by split <;> omega
  have g2 : v.y / 100 = (v.y - 1) / 100 + (if v.y % 100 = 0 then 1 else 0) := by split <;> omega
  have g3 : v.y / 400 = (v.y - 1) / 400 + (if v.y % 400 = 0 then 1 else 0) := by split <;> omega
  have key : ((c / 4 : Nat) : Int) - (c / 100 : Nat) + (c / 400 : Nat) =
      ((v.y - 1) / 4 : Nat) - ((v.y - 1) / 100 : Nat) + ((v.y - 1) / 400 : Nat) +
        (if leap v.y = true ∧ 3 ≤ v.mo then 1 else 0) := by
    by_cases hm : v.mo - 1 < 2
    · rw [if_pos hm] at hc
      subst hc
      rw [if_neg (by omega)]; omega
    · rw [if_neg hm, Nat.sub_zero] at hc
      subst hc
      rw [g1, g2, g3]
      rcases leap_or v.y with hl | hl
      · rw [hl, if_pos (show (true = true ∧ 3 ≤ v.mo) from ⟨rfl, by omega⟩)]
        unfold leap at hl
        simp only [decide_eq_true_eq] at hl
        by_cases m4 : v.y % 400 = 0
        · rw [if_pos (show v.y % 4 = 0 by omega), if_pos (show v.y % 100 = 0 by omega), if_pos m4]
          omega
        · rw [if_pos (show v.y % 4 = 0 by omega), if_neg (show ¬ v.y % 100 = 0 by omega), if_neg m4]
          omega
      · rw [hl]
        simp only [Bool.false_eq_true, false_and, if_false]
        unfold leap at hl
        simp only [decide_eq_false_iff_not] at hl
        by_cases m4 : v.y % 4 = 0
        · rw [if_pos m4, if_pos (show v.y % 100 = 0 by omega), if_neg (show ¬ v.y % 400 = 0 by omega)]
          omega
        · rw [if_neg m4, if_neg (show ¬ v.y % 100 = 0 by omega), if_neg (show ¬ v.y % 400 = 0 by omega)]
          omega
  clear g1 g2 g3 f1 f2 f3 hc
  generalize (if leap v.y = true ∧ 3 ≤ v.mo then (1 : Int) else 0) = L at *
  generalize (v.y - 1) / 4 = A at *
  generalize (v.y - 1) / 100 = B at *
  generalize (v.y - 1) / 400 = C at *
  generalize c / 4 = A' at *
  generalize c / 100 = B' at *
  generalize c / 400 = C' at *
  obtain ⟨hdb1, hdb2⟩ := hdb
  omega

/-! ## Range facts about `strptime` -/

theorem getNumber_range {lib : TimeLib} {lo hi n : Nat} {s r : Bytes} {v : Nat}
    (h : getNumber lib lo hi n s = some (v, r)) : lo ≤ v ∧ v ≤ hi := by
  unfold getNumber at h
  split at h
  · split at h
    · simp only at h
      split at h
      · simp at h
      · rename_i h2
        simp only [Option.some.injEq, Prod.mk.injEq] at h
        omega
    · simp at h
  · simp at h

end Brski.BoolTime
