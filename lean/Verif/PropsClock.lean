import Verif.Clock
import Verif.PropsBoolTime

/-!
# C53: time stamps of the clock
-/

namespace Brski.Props

open BoolTime Clock Spec

/-- Seconds from 1970-01-01T00:00:00Z to a date and time of day in UTC (specification). -/
def seconds (v : DateTime) : Int :=
  ((daysBeforeYear v.y : Int) + yearDay v - daysBeforeYear 1970) * 86400 + v.h * 3600 + v.mi * 60 + v.s

/-- A text denotes an instant: it is the RFC 3339 text of a UTC date and time with so many seconds since 1970
(specification). -/
def DenotesInstant (s : Bytes) (t : Int) : Prop := ∃ v : DateTime, v.Valid ∧ s = rfc3339 v ∧ seconds v = t

/-- After the first second of year 1000 and before the end of year 9999. -/
def InYears (t : Int) : Prop := -30610224000 < t ∧ t < 253402300800

/-- **C53** as stated: the text written for the instant `t` denotes `t`, whatever the time zone. -/
def C53_statement : Prop :=
  ∀ (lib : TimeLib) (zone : Zone) (t : Int), InYears t → InYears (t + zone t) →
    ∃ s, serializeLocaltime lib zone t = some s ∧ DenotesInstant s t

theorem epoch : daysBeforeYear 1970 = 719528 := by rw [(daysBeforeYear_closed 1970).1]

theorem yearAndDay_spec (days : Int) (y : Nat) (hy : (yearAndDay days).1 = y) :
    (daysBeforeYear y : Int) + (yearAndDay days).2 - 719528 = days ∧ 0 ≤ (yearAndDay days).2 ∧
      (yearAndDay days).2 < 365 + (if leap y then 1 else 0) := by
  have hc := daysBeforeYear_closed y
  have hl : leap y = decide ((y % 4 = 0 ∧ y % 100 ≠ 0) ∨ y % 400 = 0) := rfl
  unfold yearAndDay at hy ⊢
  simp only at hy ⊢
  generalize hn : days + 719162 = n at *
  have hb : min 3 (n % 146097 / 36524) = 3 ∧ 3 * 36524 ≤ n % 146097 ∨
      min 3 (n % 146097 / 36524) = n % 146097 / 36524 ∧ n % 146097 < 3 * 36524 := by omega
  generalize min 3 (n % 146097 / 36524) = b at *
  generalize hr1 : n % 146097 - 36524 * b = r1 at *
  have hr1b : 0 ≤ r1 ∧ (r1 < 36524 ∨ b = 3 ∧ r1 = 36524) ∧ 0 ≤ b ∧ b ≤ 3 := by omega
  have he : min 3 (r1 % 1461 / 365) = 3 ∧ 1095 ≤ r1 % 1461 ∨
      min 3 (r1 % 1461 / 365) = r1 % 1461 / 365 ∧ r1 % 1461 < 1095 := by omega
  generalize min 3 (r1 % 1461 / 365) = e at *
  generalize hr2 : r1 % 1461 = r2 at *
  generalize hq : r1 / 1461 = c at *
  generalize ha : n / 146097 = a at *
  have hcb : 0 ≤ c ∧ c ≤ 24 := by omega
  have hyi : (y : Int) = 400 * a + 100 * b + 4 * c + e + 1 := by omega
  have heb : 0 ≤ e ∧ e ≤ 3 := by omega
  have q1 : ((y + 3) / 4 : Nat) = 100 * a + 25 * b + c + 1 := by omega
  have q2 : ((y + 99) / 100 : Nat) = 4 * a + b + 1 := by omega
  have q3 : ((y + 399) / 400 : Nat) = a + 1 := by omega
  refine ⟨by omega, by omega, ?_⟩
  by_cases h5 : r2 - 365 * e < 365
  · split <;> omega
  · have : e = 3 ∧ r2 = 1460 := by omega
    have hlp : leap y = true := by
      rw [hl, decide_eq_true_eq]
      by_cases h24 : c = 24
      · have : b = 3 := by omega
        omega
      · omega
    rw [hlp]
    simp only [if_true]
    omega

theorem monthOf_spec (leap : Bool) (yday : Int) (h0 : 0 ≤ yday) (n : Nat) (hn : n ≤ 11) :
    monthOf leap yday n ≤ n ∧ monYday leap (monthOf leap yday n) ≤ yday ∧
      (monthOf leap yday n < n → yday < monYday leap (monthOf leap yday n + 1)) := by
  induction n with
  | zero => exact ⟨Nat.le_refl _, by simpa [monthOf, monYday] using h0, fun h => absurd h (Nat.lt_irrefl _)⟩
  | succ n ih =>
    obtain ⟨i1, i2, i3⟩ := ih (by omega)
    rw [monthOf]
    split
    · rename_i h
      refine ⟨by omega, i2, fun _ => ?_⟩
      by_cases he : monthOf leap yday n = n
      · rw [he]; exact h
      · exact i3 (by omega)
    · rename_i h
      exact ⟨Nat.le_refl _, by omega, fun h => absurd h (Nat.lt_irrefl _)⟩

theorem monYday_step (y : Nat) : ∀ m, m ≤ 10 → monYday (leap y) (m + 1) = monYday (leap y) m + monthLen y (m + 1) := by
  intro m hm
  rw [show m + 1 = (m + 2) - 1 by omega, monYday_eq y (m + 2) (by omega) (by omega),
    show monYday (leap y) m = monYday (leap y) (m + 1 - 1) by rfl, monYday_eq y (m + 1) (by omega) (by omega),
    show m + 2 - 1 = m + 1 by omega, show m + 2 = (m + 1) + 1 by rfl, daysBeforeMonth]
  omega

theorem monYday_last (y : Nat) : monYday (leap y) 11 + 31 = 365 + (if leap y then 1 else 0) := by
  cases leap y <;> rfl

/-- The broken-down time of a number of seconds is a valid date and time with so many seconds since 1970. -/
theorem breakDown_spec (l : Int) (y : Nat) (hy : (yearAndDay (l / 86400)).1 = y) (hy2 : y ≤ 9999) :
    ∃ v : DateTime, v.Valid ∧ Holds (breakDown l) v ∧ seconds v = l ∧ v.s ≤ 59 ∧ v.y = y := by
  obtain ⟨h1, h2, h3⟩ := yearAndDay_spec _ y hy
  generalize hD : (yearAndDay (l / 86400)).2 = yday at *
  obtain ⟨m1, m2, m3⟩ := monthOf_spec (leap y) yday h2 11 (by omega)
  generalize hm : monthOf (leap y) yday 11 = mon at *
  have hlast : yday < monYday (leap y) mon + monthLen y (mon + 1) := by
    by_cases he : mon = 11
    · have := monYday_last y
      have h12 : monthLen y 12 = 31 := rfl
      rw [he, h12]
      omega
    · rw [← monYday_step y mon (by omega)]
      exact m3 (by omega)
  have hmm := monYday_eq y (mon + 1) (by omega) (by omega)
  rw [Nat.add_sub_cancel] at hmm
  refine ⟨⟨y, mon + 1, (yday - monYday (leap y) mon + 1).toNat, (l % 86400 / 3600).toNat, (l % 86400 / 60 % 60).toNat,
    (l % 86400 % 60).toNat⟩, ?_, ?_, ?_, ?_, rfl⟩
  · refine ⟨hy2, by simp, by simp only; omega, ?_, ?_, ?_, ?_, ?_⟩
    · show 1 ≤ (yday - monYday (leap y) mon + 1).toNat
      omega
    · show (yday - monYday (leap y) mon + 1).toNat ≤ monthLen y (mon + 1)
      omega
    all_goals simp only <;> omega
  · unfold Holds breakDown
    simp only [hy, hD, isLeap_eq, hm]
    refine ⟨trivial, ?_, ?_, ?_, ?_, ?_⟩ <;> omega
  · unfold seconds yearDay
    rw [epoch]
    simp only
    omega
  · simp only
    omega

/-- Seconds determine the year. -/
theorem year_range (l : Int) (h : InYears l) : ∃ y : Nat, (yearAndDay (l / 86400)).1 = y ∧ 1000 ≤ y ∧ y ≤ 9999 := by
  obtain ⟨h1, h2⟩ := h
  have hd : -354285 ≤ l / 86400 ∧ l / 86400 < 2932897 := by omega
  generalize l / 86400 = days at hd
  unfold yearAndDay
  simp only
  refine ⟨(400 * ((days + 719162) / 146097) + 100 * min 3 ((days + 719162) % 146097 / 36524) +
    4 * (((days + 719162) % 146097 - 36524 * min 3 ((days + 719162) % 146097 / 36524)) / 1461) +
    min 3 (((days + 719162) % 146097 - 36524 * min 3 ((days + 719162) % 146097 / 36524)) % 1461 / 365) + 1).toNat, ?_, ?_, ?_⟩ <;> omega

/-- Two dates and times with the same text are the same. -/
theorem rfc3339_inj {v w : DateTime} (hv : v.Valid) (hw : w.Valid) (hy : 1000 ≤ v.y) (hy' : 1000 ≤ w.y)
    (h : rfc3339 v = rfc3339 w) : v = w := by
  obtain ⟨t, h1, h2⟩ := C08_trailing_accepted .plain v hv hy []
  obtain ⟨t', h1', h2'⟩ := C08_trailing_accepted .plain w hw hy' []
  rw [h, h1', Option.some.injEq] at h1
  subst h1
  obtain ⟨a1, a2, a3, a4, a5, a6⟩ := h2
  obtain ⟨b1, b2, b3, b4, b5, b6⟩ := h2'
  cases v
  cases w
  simp only [DateTime.mk.injEq] at *
  omega

/-- **C53**, exactly: the text denotes the local time as if it were UTC. -/
theorem C53_partial_exact (lib : TimeLib) (zone : Zone) (t : Int) (h : InYears (t + zone t)) :
    ∃ v : DateTime, v.Valid ∧ 1000 ≤ v.y ∧ v.s ≤ 59 ∧ serializeLocaltime lib zone t = some (rfc3339 v) ∧
      seconds v = t + zone t := by
  obtain ⟨y, hy, hy1, hy2⟩ := year_range _ h
  obtain ⟨v, v1, v2, v3, v4, v5⟩ := breakDown_spec _ y hy hy2
  refine ⟨v, v1, by omega, v4, ?_, v3⟩
  have hyr : (breakDown (t + zone t)).year = y - 1900 := by rw [v2.1, v5]
  unfold serializeLocaltime getLocaltime localtime
  simp only [hyr]
  rw [if_pos (by omega), Option.bind_some]
  exact C07_text_is_rfc3339 lib _ v v2 v1 (.inl (by omega))

theorem monYday_bound (b : Bool) (m : Nat) (hm : m ≤ 11) : monYday b m + 31 ≤ 365 + (if b then 1 else 0) := by
  revert m b
  decide

theorem yearDay_lt {v : DateTime} (hv : v.Valid) : daysBeforeYear v.y + yearDay v < daysBeforeYear (v.y + 1) := by
  obtain ⟨-, h1, h2, h3, h4, -⟩ := hv
  have hm := monYday_eq v.y v.mo h1 h2
  have hl := monthLen_le v.y v.mo
  have hb := monYday_bound (leap v.y) (v.mo - 1) (by omega)
  rw [hm] at hb
  unfold yearDay
  rw [daysBeforeYear]
  revert hb
  cases leap v.y
  · simp only [Bool.false_eq_true, if_false]
    omega
  · simp only [if_true]
    omega

theorem daysBeforeYear_mono {a b : Nat} (h : a ≤ b) : daysBeforeYear a ≤ daysBeforeYear b := by
  induction h with
  | refl => exact Nat.le_refl _
  | step _ ih => exact Nat.le_trans ih (Nat.le_add_right _ _)

/-- The year of an instant is at least 1000. -/
theorem seconds_year {v : DateTime} (hv : v.Valid) (h : -30610224000 < seconds v) : 1000 ≤ v.y := by
  refine Classical.byContradiction fun hlt => ?_
  have h1 := yearDay_lt hv
  have h2 := daysBeforeYear_mono (show v.y + 1 ≤ 1000 by omega)
  have h3 : daysBeforeYear 1000 = 365243 := by rw [(daysBeforeYear_closed 1000).1]
  obtain ⟨-, -, -, -, -, h4, h5, h6⟩ := hv
  unfold seconds at h
  rw [epoch] at h
  omega

/-- **C53** what holds: the text denotes the instant exactly when the local offset is zero. -/
theorem C53_partial (lib : TimeLib) (zone : Zone) (t : Int) (ht : InYears t) (h : InYears (t + zone t)) :
    ∃ s, serializeLocaltime lib zone t = some s ∧ (DenotesInstant s t ↔ zone t = 0) := by
  obtain ⟨v, v1, v2, -, v4, v5⟩ := C53_partial_exact lib zone t h
  refine ⟨_, v4, ?_, fun hz => ⟨v, v1, rfl, by omega⟩⟩
  rintro ⟨w, w1, w2, w3⟩
  have := rfc3339_inj v1 w1 v2 (seconds_year w1 (by rw [w3]; exact ht.1)) w2
  subst this
  omega

/-- The code violates C53: one hour east of Greenwich the time stamps are one hour late. -/
theorem C53_violated : ¬ C53_statement := by
  intro h
  have ht : InYears 1700000000 := by unfold InYears; decide
  have ht' : InYears (1700000000 + 3600) := by unfold InYears; decide
  obtain ⟨s, h1, h2⟩ := h .plain (fun _ => 3600) 1700000000 ht ht'
  obtain ⟨s', h1', h2'⟩ := C53_partial .plain (fun _ => 3600) 1700000000 ht ht'
  rw [h1, Option.some.injEq] at h1'
  subst h1'
  exact absurd (h2'.1 h2) (by decide)

/-- Non-vacuity: 2023-11-14T22:13:20Z, in UTC and one hour east. -/
example : serializeLocaltime .plain (fun _ => 0) 1700000000 = some (str "2023-11-14T22:13:20Z") ∧
    serializeLocaltime .plain (fun _ => 3600) 1700000000 = some (str "2023-11-14T23:13:20Z") ∧
    serializeLocaltime .plain (fun _ => 0) 951782399 = some (str "2000-02-28T23:59:59Z") ∧
    serializeLocaltime .plain (fun _ => 0) 951868799 = some (str "2000-02-29T23:59:59Z") ∧
    serializeLocaltime .plain (fun _ => 0) (-1) = some (str "1969-12-31T23:59:59Z") := by decide +kernel

end Brski.Props
