import Verif.ResRules3

/-!
# Ownership of library objects: key generation, extraction of signers, verification of messages
-/

namespace Brski.Res
open Outcome

/-! ## Keys -/

/-- The blocks left by the generation of a key (/repo/src/voucher/crypto_ossl.c:455,509,534). -/
def keyR : Bool × Option Id → List (List Ref)
  | (_, some p) => [[(.pkey, p)]]
  | (_, none) => []

theorem tri_keygen (lib : Lib) : Tri [] [] (keygen lib) keyR := by
  unfold keygen
  refine Tri.bind Tri.draw fun r => ?_
  split
  · exact Tri.bind Tri.fresh fun p => Tri.ret rfl
  · exact Tri.ret rfl

theorem keygen_spec (lib : Lib) (h : lib.negative = false) : ∀ s r s', keygen lib s = .ok (r, s') →
    (∃ p, r = (true, some p)) ∨ r = (false, none) := by
  intro s r s' hr
  unfold keygen at hr
  obtain ⟨d, s1, _, hr⟩ := bind_inv hr
  by_cases hd : 0 < d
  · rw [if_pos hd] at hr
    obtain ⟨p, s2, _, hr⟩ := bind_inv hr
    cases hr
    exact .inl ⟨p, rfl⟩
  · rw [if_neg hd, h] at hr
    cases hr
    exact .inr rfl

theorem Tri.key {α : Type} {B : List Ref} {L : List (List Ref)} {Q : α → List (List Ref)} {lib : Lib}
    {f : Bool × Option Id → Prog α} (h : lib.negative = false)
    (h1 : ∀ p, Tri B ([(.pkey, p)] :: L) (f (true, some p)) Q) (h0 : Tri B L (f (false, none)) Q) :
    Tri B L (keygen lib >>= f) Q := by
  refine Tri.bindF (Tri.call (tri_keygen lib) (by simp)) (keygen_spec lib h) fun r hr => ?_
  rcases hr with ⟨p, rfl⟩ | rfl
  · exact h1 p
  · exact h0

theorem tri_ctxNew {p : Id} : Tri [(.pkey, p)] [] (ctxNew (some p)) (one .pctx) := by
  unfold ctxNew; tstep
  exact Tri.post Tri.mk fun o => by simp

macro_rules | `(tactic| tstep) => `(tactic| first
  | (with_reducible refine Tri.key (by assumption) (fun p => ?_) ?_ <;> dsimp only)
  | (with_reducible refine Tri.bind (Tri.call tri_ctxNew (by simp)) fun o => ?_
     cases o <;> dsimp only [one, List.nil_append, List.cons_append]))

theorem tri_genRsaKey (lib : Lib) (h : lib.negative = false) : Tri [] [] (genRsaKey lib) binRefs := by
  unfold genRsaKey
  tsteps

theorem tri_genEcKey (lib : Lib) (h : lib.negative = false) : Tri [] [] (genEcKey lib) (one .mem) := by
  unfold genEcKey
  tsteps

/-! ## The signers of a message -/

theorem tri_extract_owned (lib : Lib) (ho : lib.signersOwned = true) (hcp : ∀ k, lib.copy k = true) (c : Msg)
    {B : List Ref} {L : List (List Ref)} :
    Tri B (msgRefs c :: L) (extract lib c) fun r => arrO r.2 ++ (msgRefs c :: L) := by
  unfold extract
  refine Tri.bind (R := fun o => match o with
    | none => msgRefs c :: L
    | some st => stackRefs st :: msgRefs c :: L) ?_ fun o => ?_
  · unfold getSigners
    refine Tri.bind (Tri.use (by simp [msgRefs])) fun _ => ?_
    split
    · exact Tri.ret rfl
    · tstep
      · exact Tri.ret rfl
      · rw [ho]; dsimp only
        refine Tri.bind (tri_upAll _ fun i hi => ?_) fun _ => Tri.pure ?_
        · simp [msgRefs, refs_mem hi]
        · simp [stackRefs]
  · rcases o with _ | st <;> dsimp only
    · exact Tri.ret rfl
    · split
      · tsteps
      · tstep
        · tsteps
        · rename_i hd
          refine Tri.perm (M := arrRefs ⟨hd, []⟩ :: stackRefs st :: msgRefs c :: L) (by simp [arrRefs, arrEls]) ?_
          exact tri_extractLoop lib hcp st _ _ fun i hi => hi

/-- What the message still holds after its signers' certificates were released on behalf of a stack
that only lent them (/repo/src/voucher/crypto_ossl.c:1562-1608). -/
def extPost (c : Msg) : Bool × Option ArrList → List Ref
  | (true, none) => msgRefs c
  | _ => msgRefs { c with signers := [] }

theorem extractLoop_some (lib : Lib) (st : Stack) : ∀ xs l s r s', extractLoop lib st l xs s = .ok (r, s') →
    r ≠ (true, none) := by
  intro xs
  induction xs with
  | nil =>
    intro l s r s' h
    unfold extractLoop at h
    obtain ⟨_, s1, _, h⟩ := bind_inv h
    cases h; simp
  | cons x xs ih =>
    intro l s r s' h
    unfold extractLoop at h
    obtain ⟨o, s1, _, h⟩ := bind_inv h
    cases o with
    | none =>
      obtain ⟨_, s2, _, h⟩ := bind_inv h
      obtain ⟨_, s3, _, h⟩ := bind_inv h
      cases h; simp
    | some d =>
      obtain ⟨o, s2, _, h⟩ := bind_inv h
      cases o with
      | none =>
        obtain ⟨_, s3, _, h⟩ := bind_inv h
        obtain ⟨_, s4, _, h⟩ := bind_inv h
        obtain ⟨_, s5, _, h⟩ := bind_inv h
        cases h; simp
      | some l' =>
        obtain ⟨_, s3, _, h⟩ := bind_inv h
        exact ih _ _ _ _ h

theorem Tri.postF {α : Type} {B : List Ref} {L : List (List Ref)} {p : Prog α} {R Q : α → List (List Ref)}
    {P : α → Prop} (hp : Tri B L p R) (hP : ∀ s a s', p s = .ok (a, s') → P a)
    (h : ∀ a, P a → (R a).flatten.Perm (Q a).flatten) : Tri B L p Q := by
  intro s0 s hb ho
  obtain ⟨a, s', e, o⟩ := hp s0 s hb ho
  exact ⟨a, s', e, o.perm (h a (hP _ _ _ e))⟩

theorem tri_extract_lent (lib : Lib) (ho : lib.signersOwned = false) (hcp : ∀ k, lib.copy k = true) (c : Msg)
    {B : List Ref} {L : List (List Ref)} :
    Tri B (msgRefs c :: L) (extract lib c) fun r => arrO r.2 ++ (extPost c r :: L) := by
  unfold extract
  refine Tri.bindF (R := fun o => match o with
    | none => msgRefs c :: L
    | some st => stackRefs st :: msgRefs { c with signers := [] } :: L)
    (P := fun o => ∀ st ∈ o, st.elems ≠ []) ?_ ?_ fun o hP => ?_
  · unfold getSigners
    refine Tri.bind (Tri.use (by simp [msgRefs])) fun _ => ?_
    split
    · exact Tri.ret rfl
    · tstep
      · exact Tri.ret rfl
      · rw [ho]; dsimp only
        refine Tri.pure ?_
        simp only [stackRefs, msgRefs, refs, List.flatten_cons, List.append_assoc, List.map_nil, List.nil_append,
          List.cons_append]
        generalize c.certs.map (fun i => (Kind.x509, i)) = x
        generalize c.signers.map (fun i => (Kind.x509, i)) = y
        refine List.Perm.trans ?_ (List.perm_middle (l₁ := y)).symm
        refine List.Perm.cons _ ?_
        rw [← List.append_assoc, ← List.append_assoc]
        exact List.perm_append_comm.append_right _
  · intro s o s' h
    unfold getSigners at h
    obtain ⟨_, s1, _, h⟩ := bind_inv h
    cases hs : c.signers with
    | nil => rw [hs] at h; cases h; simp
    | cons x xs =>
      rw [hs] at h
      obtain ⟨o, s2, _, h⟩ := bind_inv h
      cases o with
      | none => cases h; simp
      | some i =>
        rw [ho] at h
        cases h
        simp
  · rcases o with _ | st <;> dsimp only
    · exact Tri.ret rfl
    · split
      · rename_i he; exact absurd he (hP st rfl)
      · tstep
        · tsteps
        · rename_i hd
          refine Tri.perm (M := arrRefs ⟨hd, []⟩ :: stackRefs st :: msgRefs { c with signers := [] } :: L)
            (by simp [arrRefs, arrEls]) ?_
          refine Tri.postF (tri_extractLoop lib hcp st _ _ fun i hi => hi) (extractLoop_some lib st _ _) ?_
          rintro ⟨b, r⟩ hr
          rcases b with _ | _ <;> rcases r with _ | r <;> simp_all [extPost]

/-! ## The names in a certificate -/

/-- The references held through a list of keys and values (/repo/src/voucher/keyvalue.h:26-30). -/
def kvRefs : List (Id × Id × Id) → List Ref
  | [] => []
  | (el, k, v) :: l => (.mem, k) :: (.mem, v) :: (.mem, el) :: kvRefs l

theorem kvRefs_append (l m : List (Id × Id × Id)) : kvRefs (l ++ m) = kvRefs l ++ kvRefs m := by
  induction l with
  | nil => rfl
  | cons a l ih => obtain ⟨el, p, q⟩ := a; simp only [List.cons_append, kvRefs, ih]

theorem tri_getEntry : Tri [] [] getEntry ptrRefs := by
  unfold getEntry; tsteps

theorem tri_keyLoop (lib : Lib) (h : ∀ k, lib.dup k = true) {B : List Ref} {L : List (List Ref)} :
    ∀ n l, Tri B (kvRefs l :: L) (keyLoop lib l n) fun r => kvRefs r.2 :: L := by
  intro n
  induction n with
  | zero => intro l; exact Tri.ret rfl
  | succ n ih =>
    intro l
    unfold keyLoop
    refine Tri.bind (Tri.call tri_getEntry (by simp)) fun o => ?_
    rcases o with _ | _ | t <;> dsimp only [ptrRefs, List.nil_append, List.cons_append]
    · exact Tri.ret rfl
    · exact ih l
    · unfold pushKv
      refine Tri.bind (R := fun o => match o with
        | none => [(Kind.mem, t)] :: kvRefs l :: L
        | some l' => [(Kind.mem, t)] :: kvRefs l' :: L) ?_ fun o => ?_
      · tstep
        · exact Tri.ret rfl
        · rw [h]; dsimp only
          refine Tri.bind Tri.fresh fun k => Tri.bind Tri.fresh fun v => Tri.pure ?_
          refine List.perm_iff_count.2 fun a => ?_
          simp only [List.flatten_cons, kvRefs_append, kvRefs, List.count_append, List.cons_append, List.nil_append,
            List.count_cons, List.count_nil]
          omega
      · rcases o with _ | l' <;> dsimp only
        · tsteps
        · tstep
          exact ih l'

theorem tri_certMeta (lib : Lib) (h : ∀ k, lib.dup k = true) (x : Id) :
    Tri [(.x509, x)] [] (certMeta lib (some x)) fun r => [kvRefs r.2.1, kvRefs r.2.2] := by
  unfold certMeta
  tstep
  tstep
  · exact Tri.pure (by simp [kvRefs])
  refine Tri.perm (M := [kvRefs []]) (by simp [kvRefs]) ?_
  refine Tri.bind (tri_keyLoop lib h 10 []) fun i => ?_
  obtain ⟨b, l⟩ := i
  cases b <;> dsimp only
  · exact Tri.pure (by simp [kvRefs])
  tstep
  tstep
  · exact Tri.pure (by simp [kvRefs])
  refine Tri.perm (M := [kvRefs [], kvRefs l]) (by simp [kvRefs]) ?_
  refine Tri.bind (tri_keyLoop lib h 10 []) fun t => Tri.pure ?_
  simpa using List.perm_append_comm

end Brski.Res
