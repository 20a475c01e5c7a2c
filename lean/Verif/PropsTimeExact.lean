import Verif.PropsBoolTime

/-!
# C08: exactly which texts are taken for a time
-/

namespace Brski.Props
open BoolTime Spec

/-- The text begins with the six numbers, of one to four or one to two digits each, with white space before each and the separators
of the format between them, up to the `Z`. -/
def TimeText (isSpace : UInt8 → Bool) (s : Bytes) (v : DateTime) : Prop :=
  ∃ fy fmo fd fh fmi fs rest : Bytes,
    s = fy ++ 45 :: fmo ++ 45 :: fd ++ 84 :: fh ++ 58 :: fmi ++ 58 :: fs ++ 90 :: rest ∧
    NumberField isSpace 4 fy v.y ∧ NumberField isSpace 2 fmo v.mo ∧ NumberField isSpace 2 fd v.d ∧
    NumberField isSpace 2 fh v.h ∧ NumberField isSpace 2 fmi v.mi ∧ NumberField isSpace 2 fs v.s ∧
    1 ≤ v.mo ∧ v.mo ≤ 12 ∧ 1 ≤ v.d ∧ v.d ≤ 31 ∧ v.h ≤ 23 ∧ v.mi ≤ 59 ∧ v.s ≤ 61

theorem foldl_ge (ds : Bytes) : ∀ v : Nat, v ≤ ds.foldl (fun v d => 10 * v + (d.toNat - 48)) v := by
  induction ds with
  | nil => exact fun v => Nat.le_refl v
  | cons d ds ih =>
    intro v
    rw [List.foldl_cons]
    exact Nat.le_trans (by omega) (ih _)

theorem moreDigits_all {hi : Nat} {c : UInt8} {r : Bytes} (hc : isDigit c = false) :
    ∀ (ds : Bytes) (k v : Nat), ds.length ≤ k → (∀ d ∈ ds, 48 ≤ d.toNat ∧ d.toNat ≤ 57) →
      ds.foldl (fun v d => 10 * v + (d.toNat - 48)) v ≤ hi →
      moreDigits hi k v (ds ++ c :: r) = (ds.foldl (fun v d => 10 * v + (d.toNat - 48)) v, c :: r) := by
  intro ds
  induction ds with
  | nil =>
    intro k v _ _ _
    cases k with
    | zero => rfl
    | succ k => simp [moreDigits, hc]
  | cons d ds ih =>
    intro k v hk hd hv
    cases k with
    | zero => simp at hk
    | succ k =>
      rw [List.foldl_cons] at hv
      have h1 := foldl_ge ds (10 * v + (d.toNat - 48))
      have h2 : v * 10 ≤ hi := by omega
      have h3 : isDigit d = true := by
        simp only [isDigit, Bool.and_eq_true, decide_eq_true_eq, UInt8.le_iff_toNat_le]
        exact hd d (.head _)
      simp only [List.cons_append, moreDigits, h2, if_true, h3]
      rw [List.foldl_cons, Nat.mul_comm v 10]
      exact ih k _ (by simpa using hk) (fun x hx => hd x (.tail _ hx)) hv

theorem getNumber_field {lib : TimeLib} {lo hi n v : Nat} {f r : Bytes} {c : UInt8} (h : NumberField lib.isSpace n f v) (h1 : lo ≤ v)
    (h2 : v ≤ hi) (hc : isDigit c = false) : getNumber lib lo hi n (f ++ c :: r) = some (v, c :: r) := by
  obtain ⟨w, ds, rfl, hw, hne, hlen, hd, rfl⟩ := h
  cases ds with
  | nil => exact absurd hne (by decide)
  | cons d ds =>
    have hd0 := hd d (.head _)
    have hs : lib.isSpace d = false :=
      lib.digits_not_space d (by rw [UInt8.le_iff_toNat_le]; exact hd0.1) (by rw [UInt8.le_iff_toNat_le]; exact hd0.2)
    have hdrop : ((w ++ d :: ds) ++ c :: r).dropWhile lib.isSpace = d :: (ds ++ c :: r) := by
      clear h1 h2
      rw [List.append_assoc]
      induction w with
      | nil => simp [hs]
      | cons x w ih =>
        rw [List.cons_append, List.dropWhile_cons, if_pos (hw x (.head _))]
        exact ih (fun y hy => hw y (.tail _ hy))
    have h3 : isDigit d = true := by
      simp only [isDigit, Bool.and_eq_true, decide_eq_true_eq, UInt8.le_iff_toNat_le]
      exact hd0
    have hdec : decimal (d :: ds) = ds.foldl (fun v d => 10 * v + (d.toNat - 48)) (d.toNat - 48) := by
      simp [decimal]
    rw [hdec] at h1 h2 ⊢
    unfold getNumber
    rw [hdrop]
    simp only [h3, if_true]
    rw [moreDigits_all hc ds (n - 1) _ (by simp only [List.length_cons] at hlen; omega) (fun x hx => hd x (.tail _ hx)) h2]
    simp only
    rw [if_neg (by omega)]

theorem numberField_lt {isSpace : UInt8 → Bool} {f : Bytes} {v : Nat} (h : NumberField isSpace 4 f v) : v ≤ 9999 := by
  obtain ⟨w, ds, rfl, -, -, hlen, hd, rfl⟩ := h
  have key : ∀ (ds : Bytes) (v : Nat), (∀ c ∈ ds, 48 ≤ c.toNat ∧ c.toNat ≤ 57) →
      ds.foldl (fun v d => 10 * v + (d.toNat - 48)) v + 1 ≤ (v + 1) * 10 ^ ds.length := by
    intro ds
    induction ds with
    | nil => intro v _; simp
    | cons d ds ih =>
      intro v hd
      rw [List.foldl_cons]
      refine Nat.le_trans (ih _ fun c hc => hd c (.tail _ hc)) ?_
      rw [List.length_cons, Nat.pow_succ, Nat.mul_comm (10 ^ ds.length) 10, ← Nat.mul_assoc]
      have := hd d (.head _)
      exact Nat.mul_le_mul_right _ (by omega)
  have h1 := key ds 0 hd
  have h2 : 10 ^ ds.length ≤ 10 ^ 4 := Nat.pow_le_pow_right (by omega) hlen
  have h3 : decimal ds = ds.foldl (fun v d => 10 * v + (d.toNat - 48)) 0 := rfl
  omega

/-- **C08**, the exact extent: a text is accepted, with the given numbers, if and only if it has the form `TimeText`.  Compared with the
statement, widths are not fixed, white space may precede each number, the day need not exist in its month, the second may be 61,
and whatever follows the `Z` is ignored. -/
theorem C08_exact (lib : TimeLib) (s : Bytes) (v : DateTime) :
    (∃ t, str2time lib s = some t ∧ Holds t v) ↔ TimeText lib.isSpace s v := by
  constructor
  · rintro ⟨t, h, hv⟩
    have hr := C08_partial lib s t h
    obtain ⟨fy, fmo, fd, fh, fmi, fs, rest, y, mo, d, hh, mi, se, e, a1, a2, a3, a4, a5, a6, b1, b2, b3, b4, b5, b6⟩ :=
      C08_shape_partial lib s t h
    obtain ⟨c1, c2, c3, c4, c5, c6⟩ := hv
    have e1 : y = v.y := by omega
    have e2 : mo = v.mo := by omega
    have e3 : d = v.d := by omega
    have e4 : hh = v.h := by omega
    have e5 : mi = v.mi := by omega
    have e6 : se = v.s := by omega
    subst e1 e2 e3 e4 e5 e6
    exact ⟨fy, fmo, fd, fh, fmi, fs, rest, e, a1, a2, a3, a4, a5, a6, by omega, by omega, by omega, by omega, by omega, by omega,
      by omega⟩
  · rintro ⟨fy, fmo, fd, fh, fmi, fs, rest, rfl, a1, a2, a3, a4, a5, a6, r1, r2, r3, r4, r5, r6, r7⟩
    have hy := numberField_lt a1
    refine ⟨_, by
      simp only [str2time, strptime, List.append_assoc, List.cons_append]
      rw [getNumber_field a1 (Nat.zero_le _) hy (by decide)]
      simp only [Option.bind_some, lit, if_true]
      rw [getNumber_field a2 r1 r2 (by decide)]
      simp only [Option.bind_some, lit, if_true]
      rw [getNumber_field a3 r3 r4 (by decide)]
      simp only [Option.bind_some, lit, if_true]
      rw [getNumber_field a4 (Nat.zero_le _) r5 (by decide)]
      simp only [Option.bind_some, lit, if_true]
      rw [getNumber_field a5 (Nat.zero_le _) r6 (by decide)]
      simp only [Option.bind_some, lit, if_true]
      rw [getNumber_field a6 (Nat.zero_le _) r7 (by decide)]
      simp only [Option.bind_some, lit, if_true]
      rfl, rfl, rfl, rfl, rfl, rfl, rfl⟩

/-- **C08**, what is refused: a text that does not have the form. -/
theorem C08_refused (lib : TimeLib) (s : Bytes) : str2time lib s = none ↔ ∀ v, ¬ TimeText lib.isSpace s v := by
  constructor
  · intro h v hv
    obtain ⟨t, ht, -⟩ := (C08_exact lib s v).2 hv
    rw [h] at ht
    cases ht
  · intro h
    cases e : str2time lib s with
    | none => rfl
    | some t =>
      obtain ⟨fy, fmo, fd, fh, fmi, fs, rest, y, mo, d, hh, mi, se, -, -, -, -, -, -, -, b1, b2, b3, b4, b5, b6⟩ :=
        C08_shape_partial lib s t e
      exact absurd ((C08_exact lib s ⟨y, mo, d, hh, mi, se⟩).1 ⟨t, e, by unfold BoolTime.Holds; simp only; omega⟩) (h _)

/-- Both sides of `C08_exact` and of `C08_refused` occur. -/
example : (∃ v, TimeText TimeLib.plain.isSpace (str " 99-1- 3T4:5:6Zz") v) ∧ ∀ v, ¬ TimeText TimeLib.plain.isSpace (str "1999-13-01T00:00:00Z") v := by
  refine ⟨?_, (C08_refused .plain _).1 (by decide +kernel)⟩
  refine ⟨⟨99, 1, 3, 4, 5, 6⟩, (C08_exact .plain _ _).1 ?_⟩
  have h1 : (match str2time .plain (str " 99-1- 3T4:5:6Zz") with
    | some t => decide (t.year = -1801 ∧ t.mon = 0 ∧ t.mday = 3 ∧ t.hour = 4 ∧ t.min = 5 ∧ t.sec = 6)
    | none => false) = true := by decide +kernel
  cases e : str2time .plain (str " 99-1- 3T4:5:6Zz") with
  | none => rw [e] at h1; cases h1
  | some t =>
    rw [e] at h1
    have := of_decide_eq_true h1
    exact ⟨t, rfl, by unfold BoolTime.Holds; simp only; omega⟩

end Brski.Props
