import Verif.ResRules

/-!
# Ownership of library objects: stacks, stores and messages
-/

namespace Brski.Res
open Outcome

/-- References of one kind (/repo/src/voucher/crypto_ossl.c:1188-1694). -/
def refs (k : Kind) (l : List Id) : List Ref := l.map fun i => (k, i)

/-- The references held through a stack (/repo/src/voucher/crypto_ossl.c:1190). -/
def stackRefs (st : Stack) : List Ref := refs .x509 st.elems ++ [(.stack, st.id)]

theorem Con.seq {p : Prog Unit} {q : Prog Unit} {X Y : List Ref} (hp : Con p X) (hq : Con q Y) :
    Con (p >>= fun _ => q) (X ++ Y) := by
  intro B
  refine Tri.perm (M := [X, Y]) (by simp) ?_
  exact Tri.bind (Tri.con0 hp) fun _ => hq B

theorem Con.nil : Con (Pure.pure () : Prog Unit) [] := fun _ => Tri.pure (by simp)

theorem Con.dropAll {k : Kind} (l : List Id) : Con (Res.dropAll k l) (refs k l) := by
  induction l with
  | nil => exact Con.nil
  | cons i l ih => exact Con.seq (X := [(k, i)]) Con.drop ih

theorem Con.popFree {st : Stack} : Con (Res.popFree st) (stackRefs st) := Con.seq (Con.dropAll _) Con.drop

macro_rules | `(tactic| tstep) => `(tactic| tcon Con.popFree)

/-- The blocks of an optional stack (/repo/src/voucher/crypto_ossl.c:1188-1210). -/
def stackO : Option Stack → List (List Ref)
  | none => []
  | some st => [stackRefs st]

theorem tri_stackLoop (lib : Lib) (h : ∀ k, lib.stackPush k = true) : ∀ n k st,
    Tri [] [stackRefs st] (stackLoop lib st k n) stackO := by
  intro n
  induction n with
  | zero => intro k st; exact Tri.ret rfl
  | succ n ih =>
    intro k st
    unfold stackLoop
    tstep
    · tsteps
    · refine Tri.bind (Tri.use (by simp [stackRefs])) fun _ => ?_
      rw [h k]; dsimp only
      refine Tri.perm ?_ (ih (k + 1) _)
      simp only [stackRefs, refs, List.map_append, List.map_cons, List.map_nil, List.flatten_cons, List.flatten_nil,
        List.append_nil, List.append_assoc, List.singleton_append]
      exact List.perm_middle.symm

theorem tri_mkStack (lib : Lib) (h : ∀ k, lib.stackPush k = true) (n : Nat) : Tri [] [] (mkStack lib n) stackO := by
  unfold mkStack; tstep
  · tsteps
  · exact tri_stackLoop lib h n 0 ⟨_, []⟩

/-- The reference behind an element of the pointer list (/repo/src/voucher/crypto_ossl.c:1212-1220). -/
def elRefs : List (Id × Id × Int) → List Ref
  | [] => []
  | (el, p, flags) :: l =>
    (if flags = 0 then [(.x509, p)] else if flags = 1 then [(.crl, p)] else []) ++ (.mem, el) :: elRefs l

/-- The references held through a pointer list (/repo/src/voucher/crypto_ossl.c:55-98). -/
def listRefs (l : PtrList) : List Ref := elRefs l.els ++ [(.mem, l.hd)]

theorem Con.freeStoreCert (p : Id) (flags : Int) : Con (Res.freeStoreCert p flags)
    (if flags = 0 then [(.x509, p)] else if flags = 1 then [(.crl, p)] else []) := by
  unfold Res.freeStoreCert
  split
  · exact Con.drop
  · split
    · exact Con.drop
    · exact Con.nil

theorem Con.freeEls (l : List (Id × Id × Int)) : Con (Res.freeEls l) (elRefs l) := by
  induction l with
  | nil => exact Con.nil
  | cons a l ih =>
    obtain ⟨el, p, flags⟩ := a
    exact Con.seq (Con.freeStoreCert p flags) (Con.seq (X := [(.mem, el)]) Con.drop ih)

theorem Con.freeStore {st : Id} {l : PtrList} : Con (Res.freeStore (some st) (some l)) ((.store, st) :: listRefs l) :=
  Con.seq (X := [(.store, st)]) Con.drop (Con.seq (Con.freeEls _) Con.drop)

theorem elRefs_append (l m : List (Id × Id × Int)) : elRefs (l ++ m) = elRefs l ++ elRefs m := by
  induction l with
  | nil => rfl
  | cons a l ih => obtain ⟨el, p, f⟩ := a; simp only [List.cons_append, elRefs, ih, List.append_assoc]

/-- The blocks of an optional store (/repo/src/voucher/crypto_ossl.c:1230-1297). -/
def storeRefs (st : Id) : Option PtrList → List (List Ref)
  | none => []
  | some l => [(.store, st) :: listRefs l]

macro_rules | `(tactic| tstep) => `(tactic| tcon Con.freeStore)

theorem pushPtr_bind {β : Type} (lib : Lib) (hp : ∀ k, lib.listPush k = true) (k : Nat) (l : PtrList) (p : Id)
    (f : Int) (g : Option PtrList → Prog β) :
    (pushPtr lib k l p f >>= g) = (fresh .mem >>= fun el => g (some ⟨l.hd, l.els ++ [(el, p, f)]⟩)) := by
  unfold pushPtr
  rw [hp]
  rfl

theorem listRefs_push (l : PtrList) (el p : Id) (f : Int) :
    (listRefs ⟨l.hd, l.els ++ [(el, p, f)]⟩).Perm ((.mem, el) ::
      (if f = 0 then [(.x509, p)] else if f = 1 then [(.crl, p)] else []) ++ listRefs l) := by
  simp only [listRefs, elRefs_append, elRefs, List.append_assoc]
  generalize (if f = 0 then [(Kind.x509, p)] else if f = 1 then [(Kind.crl, p)] else []) = q
  generalize elRefs l.els = e
  refine (List.perm_append_comm_assoc e q _).trans ?_
  simp only [List.cons_append, List.nil_append]
  exact ((List.perm_middle (l₁ := e)).append_left q).trans List.perm_middle

theorem tri_storeLoop (lib : Lib) (ha : ∀ k, lib.storeAdd k = true) (hp : ∀ k, lib.listPush k = true) (st : Id) :
    ∀ fs k l, Tri [] [(.store, st) :: listRefs l] (storeLoop lib st l k fs) (storeRefs st) := by
  intro fs
  induction fs with
  | nil => intro k l; exact Tri.ret rfl
  | cons f fs ih =>
    intro k l
    have step : ∀ (x el : Id), (([(.mem, el)] : List Ref) :: (if f = 0 then [(.x509, x)] else if f = 1 then [(.crl, x)] else []) ::
        [(.store, st) :: listRefs l]).flatten.Perm
        [(.store, st) :: listRefs ⟨l.hd, l.els ++ [(el, x, f)]⟩].flatten := by
      intro x el
      simp only [List.flatten_cons, List.flatten_nil, List.append_nil]
      rw [← List.append_assoc]
      exact List.perm_middle.trans ((listRefs_push l el x f).symm.cons _)
    unfold storeLoop
    by_cases h0 : f = 0
    · rw [if_pos h0]
      tstep
      · tsteps
      · refine Tri.bind (Tri.use (by simp)) fun _ => ?_
        rw [ha k]; dsimp only
        rw [pushPtr_bind lib hp]
        refine Tri.bind Tri.fresh fun el => Tri.perm ?_ (ih (k + 1) _)
        simpa only [if_pos h0] using step _ el
    · rw [if_neg h0]
      by_cases h1 : f = 1
      · rw [if_pos h1]
        tstep
        · tsteps
        · refine Tri.bind (Tri.use (by simp)) fun _ => ?_
          rw [ha k]; dsimp only
          rw [pushPtr_bind lib hp]
          refine Tri.bind Tri.fresh fun el => Tri.perm ?_ (ih (k + 1) _)
          simpa only [if_neg h0, if_pos h1] using step _ el
      · rw [if_neg h1]
        tsteps

/-- The blocks of an optional store with its list (/repo/src/voucher/crypto_ossl.c:1230-1297). -/
def storeO : Option (Id × PtrList) → List (List Ref)
  | none => []
  | some (st, l) => [(.store, st) :: listRefs l]

theorem Con.freeList {hd : Id} : Con (Res.freeStore none (some ⟨hd, []⟩)) [(.mem, hd)] :=
  Con.seq (X := []) Con.nil (Con.seq (X := []) Con.nil Con.drop)

theorem tri_mkStore (lib : Lib) (ha : ∀ k, lib.storeAdd k = true) (hp : ∀ k, lib.listPush k = true) (fs : List Int) :
    Tri [] [] (mkStore lib fs) storeO := by
  unfold mkStore
  tstep
  · tsteps
  tstep
  · tcon Con.freeList
    tsteps
  · refine Tri.bind (tri_storeLoop lib ha hp _ fs 0 ⟨_, []⟩) fun o => ?_
    cases o <;> exact Tri.ret rfl

/-- What is assumed of the calls whose results are not handled (/repo/src/voucher/crypto_ossl.c:1012,1074,1206,1264,
1281,1289). -/
structure Lib.Good (lib : Lib) : Prop where
  pub : lib.setPubkey = true
  stack : ∀ k, lib.stackPush k = true
  add : ∀ k, lib.storeAdd k = true
  list : ∀ k, lib.listPush k = true
  nonneg : lib.negative = false
  dup : ∀ k, lib.dup k = true

/-- The blocks of a stack that may be NULL (/repo/src/voucher/crypto_ossl.c:1384-1392,1630-1637). -/
def stackOO : Option (Option Stack) → List (List Ref)
  | none => []
  | some none => [[]]
  | some (some st) => [stackRefs st]

/-- The blocks of a store that may be NULL (/repo/src/voucher/crypto_ossl.c:1325-1336,1639-1650). -/
def storeOO : Option (Option (Id × PtrList)) → List (List Ref)
  | none => []
  | some none => [[]]
  | some (some (st, l)) => [(.store, st) :: listRefs l]

theorem tri_mkStackO (lib : Lib) (h : lib.Good) (o : Option Nat) : Tri [] [] (mkStackO lib o) stackOO := by
  cases o with
  | none => exact Tri.pure (by simp [stackOO])
  | some n =>
    unfold mkStackO
    refine Tri.bind (tri_mkStack lib h.stack n) fun o => ?_
    cases o <;> exact Tri.ret rfl

theorem tri_mkStoreO (lib : Lib) (h : lib.Good) (o : Option (List Int)) : Tri [] [] (mkStoreO lib o) storeOO := by
  cases o with
  | none => exact Tri.pure (by simp [storeOO])
  | some fs =>
    unfold mkStoreO
    refine Tri.bind (tri_mkStore lib h.add h.list fs) fun o => ?_
    rcases o with _ | ⟨st, l⟩ <;> exact Tri.ret rfl

/-- The references of a stack that may be NULL (/repo/src/voucher/crypto_ossl.c:1384-1392,1630-1637). -/
def stackR : Option Stack → List Ref
  | none => []
  | some st => stackRefs st

/-- The references of a store that may be NULL (/repo/src/voucher/crypto_ossl.c:1325-1336,1639-1650). -/
def storeR : Option (Id × PtrList) → List Ref
  | none => []
  | some (st, l) => (.store, st) :: listRefs l

theorem stackOO_some (cs : Option Stack) : stackOO (some cs) = [stackR cs] := by cases cs <;> rfl
theorem storeOO_some (st : Option (Id × PtrList)) : storeOO (some st) = [storeR st] := by
  rcases st with _ | ⟨st, l⟩ <;> rfl

theorem Con.popFreeO {cs : Option Stack} : Con (Res.popFreeO cs) (stackR cs) := by
  cases cs
  · exact Con.nil
  · exact Con.popFree

theorem Con.freeStoreO {st : Option (Id × PtrList)} : Con (Res.freeStoreO st) (storeR st) := by
  rcases st with _ | ⟨st, l⟩
  · exact Con.seq (X := []) Con.nil Con.nil
  · exact Con.freeStore

macro_rules | `(tactic| tstep) => `(tactic| first
  | tcon Con.popFreeO
  | tcon Con.freeStoreO)

theorem tri_choose {B : List Ref} {L : List (List Ref)} (l : List Id) : ∀ n, Tri B L (choose l n) fun _ => L := by
  intro n
  induction n with
  | zero => exact Tri.ret rfl
  | succ n ih =>
    unfold choose
    refine Tri.bind Tri.draw fun r => Tri.bind ih fun rest => ?_
    split <;> exact Tri.ret rfl

end Brski.Res
