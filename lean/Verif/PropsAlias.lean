import Verif.Alias
import Verif.PropsRefine

/-!
# C104: attributes written back to their voucher
-/

namespace Brski.Props
open Outcome Spec Alias
open Brski.Voucher (Attr BinArr Voucher)

/-- Specification of C104: the attributes of one kind. -/
def sameKind (a b : Attr) : Bool :=
  let time := [Attr.createdOn, .expiresOn, .lastRenewalDate]
  let bytes := [Attr.idevidIssuer, .pinnedDomainCert, .nonce, .priorSigned, .proximityCert]
  (a == b && a != .other) || (time.contains a && time.contains b) || (bytes.contains a && bytes.contains b)

/-- Specification of C104: the attribute has been set to a value the setters accept. -/
def IsSet (v : Voucher) (a : Attr) : Prop :=
  match a with
  | .createdOn | .expiresOn | .lastRenewalDate | .revocationChecks => True
  | .assertion => v.assertion = 1 ∨ v.assertion = 2 ∨ v.assertion = 3
  | .serialNumber => ∃ s, v.serial = some s ∧ s.length < 128 ∧ (0 : UInt8) ∉ s
  | .idevidIssuer => ∃ d, v.idevidIssuer = .of d
  | .pinnedDomainCert => ∃ d, v.pinned = .of d
  | .nonce => ∃ d, v.nonce = .of d
  | .priorSigned => ∃ d, v.prior = .of d
  | .proximityCert => ∃ d, v.proximity = .of d
  | .other => False

/-- **C104**: what has been read from an attribute can be written to every attribute of its kind: this one then reads the same and
the others as before. -/
def C104_statement : Prop :=
  ∀ (al : Allocator) (v : Voucher) (a b : Attr), (∀ n, al.malloc n ≠ none) → sameKind a b = true → IsSet v a →
    ∃ v', back al v b a = .ok (v', true) ∧ observe v' b = observe v a ∧ ∀ c, c ≠ b → observe v' c = observe v c

/-- **C104**, what holds: the attributes are different, or no time and no array is involved. -/
theorem C104_partial (al : Allocator) (v : Voucher) (a b : Attr) (hal : ∀ n, al.malloc n ≠ none) (hk : sameKind a b = true)
    (hs : IsSet v a) (hne : a ≠ b ∨ a = .assertion ∨ a = .serialNumber ∨ a = .revocationChecks) :
    ∃ v', back al v b a = .ok (v', true) ∧ observe v' b = observe v a ∧ ∀ c, c ≠ b → observe v' c = observe v c := by
  have hb : a ≠ b ∨ a = b := by by_cases h : a = b <;> simp [h]
  rcases hb with hb | rfl
  · have arr : ∀ d, Voucher.copyBinaryArray al (.of d) = .ok (.of d, true) := by
      intro d
      simp only [Voucher.copyBinaryArray, Voucher.memdup, BinArr.of]
      cases hm : al.malloc d.length with
      | none => exact absurd hm (hal _)
      | some _ => simp
    have ne : ∀ d, Voucher.arrayNonempty (some (.of d)) = true := fun d => rfl
    cases a <;> cases b <;> first
      | exact absurd hk (by decide)
      | exact absurd rfl hb
      | (refine ⟨_, by simp only [back, backTime, reduceCtorEq, false_and, if_false]; rfl, rfl, fun c hc => ?_⟩
         cases c <;> first | rfl | exact absurd rfl hc)
      | (obtain ⟨d, hd⟩ := hs
         refine ⟨_, by simp only [back, backArray, reduceCtorEq, if_false, Voucher.getArray, hd, Voucher.setArray, ne, if_true,
            arr d, bind'_ok]; rfl, ?_, fun c hc => ?_⟩
         · simp only [observe, Voucher.getTime, Voucher.getEnum, Voucher.getStr, Voucher.getArray, Voucher.getBool, Voucher.attrNonempty, hd]
         · cases c <;> first
             | rfl
             | exact absurd rfl hc
             | simp only [observe, Voucher.getTime, Voucher.getEnum, Voucher.getStr, Voucher.getArray, Voucher.getBool,
                 Voucher.attrNonempty, hd])
  · have hne : a = .assertion ∨ a = .serialNumber ∨ a = .revocationChecks := by
      rcases hne with h | h
      · exact absurd rfl h
      · exact h
    rcases hne with rfl | rfl | rfl
    · have e : Voucher.setEnum v .assertion v.assertion = (v, true) := by
        have : ¬ (v.assertion < 1 ∨ v.assertion > 3) := by rcases hs with h | h | h <;> omega
        simp only [Voucher.setEnum, this, if_false]
      exact ⟨v, by simp only [back, Voucher.getEnum, e], rfl, fun c _ => rfl⟩
    · obtain ⟨s, h1, h2, h3⟩ := hs
      have hm : min s.length 128 = s.length := by omega
      have e : Voucher.setStr al v .serialNumber (some s) = (v, true) := by
        simp only [Voucher.setStr, Voucher.setNstr, Voucher.strnlen, hm, h2, if_true, Voucher.strndup]
        cases hx : al.malloc (szWrap (s.length + 1)) with
        | none => exact absurd hx (hal _)
        | some _ =>
          have ht : (s.take s.length).takeWhile (· ≠ 0) = s := by
            rw [takeWhile_noNul h3, List.take_length]
          simp only [ht, ← h1]
      exact ⟨v, by simp only [back, Voucher.getStr, h1, e], rfl, fun c _ => rfl⟩
    · exact ⟨v, rfl, rfl, fun c _ => rfl⟩

/-- A voucher with a nonce of two bytes. -/
def withNonce : Voucher := { Voucher.Voucher.init with nonce := .of [1, 2] }

/-- The code violates C104: a nonce written back to itself is reported as set, and has no bytes any more. -/
theorem C104_violated : ¬ C104_statement := by
  intro h
  obtain ⟨v', e, ho, -⟩ := h zeroAllocator withNonce .nonce .nonce (fun _ h => (by cases h)) rfl ⟨_, rfl⟩
  have : back zeroAllocator withNonce .nonce .nonce = .ok ({ withNonce with nonce := ⟨some [], 0⟩ }, true) := rfl
  rw [this] at e
  cases e
  exact absurd ho (by decide)

/-- What happens to an array that is written back to its attribute, for every array: it is emptied, and this counts as a success. -/
theorem C104_lost (al : Allocator) (v : Voucher) (a : Attr) (d : Bytes) (hal : ∀ n, al.malloc n ≠ none)
    (h : Voucher.getArray v a = some (.of d)) :
    ∃ v', back al v a a = .ok (v', true) ∧ Voucher.getArray v' a = some ⟨some [], 0⟩ ∧ ∀ c, c ≠ a → observe v' c = observe v c := by
  have e : copyOntoItself al (.of d) = .ok (⟨some [], 0⟩, true) := by
    simp only [copyOntoItself, Voucher.memdup, BinArr.of]
    cases hm : al.malloc 0 with
    | none => exact absurd hm (hal _)
    | some _ => simp
  have ne : Voucher.arrayNonempty (some (.of d)) = true := rfl
  cases a <;> first
    | cases h
    | (refine ⟨_, by simp only [back, backArray, if_true, h, ne, e, bind'_ok]; rfl, rfl, fun c hc => ?_⟩
       cases c <;> first | rfl | exact absurd rfl hc)

/-- … and if there is no memory for the copy it is emptied as well, and this is reported. -/
theorem C104_lost_noMem (al : Allocator) (v : Voucher) (a : Attr) (d : Bytes) (hal : al.malloc 0 = none)
    (h : Voucher.getArray v a = some (.of d)) :
    ∃ v', back al v a a = .ok (v', false) ∧ Voucher.getArray v' a = some ⟨none, 0⟩ ∧ ∀ c, c ≠ a → observe v' c = observe v c := by
  have e : copyOntoItself al (.of d) = .ok (⟨none, 0⟩, false) := by
    simp only [copyOntoItself, Voucher.memdup, BinArr.of, hal]
    rfl
  have ne : Voucher.arrayNonempty (some (.of d)) = true := rfl
  cases a <;> first
    | cases h
    | (refine ⟨_, by simp only [back, backArray, if_true, h, ne, e, bind'_ok]; rfl, rfl, fun c hc => ?_⟩
       cases c <;> first | rfl | exact absurd rfl hc)

/-- An array that is not set is refused by the setter, and the voucher stays as it is. -/
theorem C104_unset (al : Allocator) (v : Voucher) (a b : Attr) (hk : sameKind a b = true)
    (h : Voucher.getArray v a = some ⟨none, 0⟩) : back al v b a = .ok (v, false) := by
  have ne : Voucher.arrayNonempty (some ⟨none, 0⟩) = false := rfl
  cases a <;> cases b <;> first
    | exact absurd hk (by decide)
    | (simp only [back, backArray, if_true, h, ne, reduceCtorEq, if_false, Voucher.setArray, Bool.false_eq_true]; done)
    | cases h

/-- The hypotheses of the two theorems can be met. -/
example : (⟨fun _ => none, nofun⟩ : Allocator).malloc 0 = none ∧
    Voucher.getArray Voucher.Voucher.init .nonce = some ⟨none, 0⟩ := ⟨rfl, rfl⟩

/-- A time written back to its attribute is copied onto itself, which is undefined. -/
theorem C104_violated_time (al : Allocator) (v : Voucher) (a : Attr) (h : (Voucher.getTime v a).isSome = true) : back al v a a = .ub := by
  cases a <;> first | rfl | cases h

/-- The hypotheses of `C104_partial` can be met: the nonce becomes the pinned certificate. -/
example : sameKind .nonce .pinnedDomainCert = true ∧ IsSet withNonce .nonce ∧ (Attr.nonce ≠ .pinnedDomainCert) ∧
    back zeroAllocator withNonce .pinnedDomainCert .nonce = .ok ({ withNonce with pinned := .of [1, 2] }, true) :=
  ⟨rfl, ⟨_, rfl⟩, by decide, rfl⟩

/-- … and of `C104_lost`. -/
example : Voucher.getArray withNonce .nonce = some (.of [1, 2]) := rfl

end Brski.Props
