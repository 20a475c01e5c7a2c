import Verif.ResRules4

/-!
# Ownership of library objects: `crypto_verify_cms` and `verify_cms_voucher`
-/

namespace Brski.Res
open Outcome

/-- What a bio that may be NULL holds (/repo/src/voucher/crypto_ossl.c:1652-1657). -/
def bioR : Option Id → List Ref
  | none => []
  | some b => [(.bio, b)]

/-- What is released at the end (/repo/src/voucher/crypto_ossl.c:1682-1693). -/
def endR (b : Option Id) (cs : Option Stack) (c : Msg) (st : Option (Id × PtrList)) : List Ref :=
  bioR b ++ (stackR cs ++ (msgRefs c ++ storeR st))

theorem Con.verifyEnd {b : Option Id} {cs : Option Stack} {c : Msg} {st : Option (Id × PtrList)} :
    Con (Res.verifyEnd b cs c st) (endR b cs c st) := by
  refine Con.seq ?_ (Con.seq Con.popFreeO (Con.seq Con.freeMsg Con.freeStoreO))
  cases b
  · exact Con.nil
  · exact Con.drop

/-- Permutations of blocks (/repo/src/voucher/crypto_ossl.c:60-1694). -/
macro "tperm" : tactic => `(tactic| (
  refine List.perm_iff_count.2 fun a => ?_
  simp only [List.flatten_cons, List.flatten_nil, List.flatten_append, List.count_append, List.count_nil, List.nil_append,
    List.append_nil, List.cons_append, List.count_cons, endR, bioR, List.append_assoc]
  omega))

/-- The references left with the caller of `crypto_verify_cms`
(/repo/src/voucher/crypto_ossl.c:1610-1614). -/
def verR (r : Verified) : List (List Ref) := one .mem r.data ++ arrO r.certs

theorem ptr_one (d : Option Id) : ptrRefs (some d) = one .mem d := by cases d <;> rfl

theorem tri_verifyCms (lib : Lib) (h : lib.Good) (certs : Option Nat) (store : Option (List Int)) (out : Bool)
    (hout : out = true → lib.signersOwned = true ∧ ∀ k, lib.copy k = true) :
    Tri [] [] (verifyCms lib certs store out) verR := by
  unfold verifyCms
  refine Tri.bindF tri_readMsg readMsg_signers fun o hs => ?_
  rcases o with _ | c <;> dsimp only [msgO]
  · exact Tri.ret rfl
  replace hs := hs c rfl
  refine Tri.bind (Tri.call (tri_mkStackO lib h certs) (by simp)) fun o => ?_
  rcases o with _ | cs
  · dsimp only [stackOO, List.nil_append]; tsteps
  rw [stackOO_some]
  dsimp only [List.cons_append, List.nil_append]
  refine Tri.bind (Tri.call (tri_mkStoreO lib h store) (by simp)) fun o => ?_
  rcases o with _ | st
  · dsimp only [storeOO, List.nil_append]; tsteps
  rw [storeOO_some]
  dsimp only [List.cons_append, List.nil_append]
  refine Tri.bind Tri.mk fun o => ?_
  rcases o with _ | b
  · dsimp only [one, List.nil_append]
    exact Tri.bind (Tri.con (M := []) Con.verifyEnd (by tperm)) fun _ => Tri.ret rfl
  dsimp only [one, List.cons_append, List.nil_append]
  refine Tri.perm (M := msgRefs c :: [[(.bio, b)], storeR st, stackR cs]) (by tperm) ?_
  refine Tri.bind (tri_verifyMsg c hs cs fun i hi => ?_) fun o => ?_
  · rcases cs with _ | cs
    · cases hi
    · have := refs_mem (k := .x509) hi
      simp only [elemsO] at this
      simp [stackR, stackRefs, this]
  rcases o with _ | c' <;> dsimp only [verified]
  · exact Tri.bind (Tri.con (M := []) Con.verifyEnd (by tperm)) fun _ => Tri.ret rfl
  refine Tri.bind (Tri.call tri_bioToPtr (by simp)) fun o => ?_
  rcases o with _ | d
  · exact Tri.bind (Tri.con (M := []) Con.verifyEnd (by simp only [ptrRefs]; tperm)) fun _ => Tri.ret rfl
  rw [ptr_one]
  rcases out with _ | _ <;> dsimp only
  · exact Tri.bind (Tri.con (M := one .mem d) Con.verifyEnd (by tperm)) fun _ => Tri.ret (by simp [verR, arrO])
  · obtain ⟨ho, hcp⟩ := hout rfl
    refine Tri.perm (M := msgRefs c' :: (one .mem d ++ [[(.bio, b)], storeR st, stackR cs])) (by tperm) ?_
    refine Tri.bind (tri_extract_owned lib ho hcp c') fun r => ?_
    rcases r with ⟨_ | _, l⟩ <;> dsimp only <;>
      exact Tri.bind (Tri.con (M := one .mem d ++ arrO l) Con.verifyEnd (by tperm)) fun _ => Tri.ret rfl

theorem verifyCms_data (lib : Lib) (certs : Option Nat) (store : Option (List Int)) : ∀ s r s',
    verifyCms lib certs store false s = .ok (r, s') → r.certs = none ∧ (r.ok = false → r.data = none) := by
  intro s r s' h
  unfold verifyCms at h
  obtain ⟨o, s1, _, h⟩ := bind_inv h
  rcases o with _ | c
  · cases h; simp
  obtain ⟨o, s2, _, h⟩ := bind_inv h
  rcases o with _ | cs
  · obtain ⟨_, s3, _, h⟩ := bind_inv h; cases h; simp
  obtain ⟨o, s3, _, h⟩ := bind_inv h
  rcases o with _ | st
  · obtain ⟨_, s4, _, h⟩ := bind_inv h; obtain ⟨_, s5, _, h⟩ := bind_inv h; cases h; simp
  obtain ⟨o, s4, _, h⟩ := bind_inv h
  rcases o with _ | b
  · obtain ⟨_, s5, _, h⟩ := bind_inv h; cases h; simp
  obtain ⟨o, s5, _, h⟩ := bind_inv h
  rcases o with _ | c'
  · obtain ⟨_, s6, _, h⟩ := bind_inv h; cases h; simp
  obtain ⟨o, s6, _, h⟩ := bind_inv h
  rcases o with _ | d
  · obtain ⟨_, s7, _, h⟩ := bind_inv h; cases h; simp
  obtain ⟨_, s7, _, h⟩ := bind_inv h; cases h; simp

theorem tri_verifyVoucher (lib : Lib) (h : lib.Good) (certs : Option Nat) (store : Option (List Int)) :
    Tri [] [] (verifyVoucher lib certs store false) fun r => one .mem r.1 ++ arrO r.2 := by
  unfold verifyVoucher
  refine Tri.bindF (tri_verifyCms lib h certs store false (by simp)) (verifyCms_data lib certs store) fun r hr => ?_
  obtain ⟨ok, d, l⟩ := r
  obtain ⟨hl, hd⟩ := hr
  dsimp only at hl hd
  subst hl
  rcases ok with _ | _ <;> dsimp only
  · rw [hd rfl]; exact Tri.ret rfl
  · rcases d with _ | d <;> dsimp only [verR, one, arrO, List.cons_append, List.nil_append, List.append_nil]
    · tstep
      · exact Tri.bind Tri.dropO fun _ => Tri.ret rfl
      · exact Tri.bind Tri.dropO fun _ => Tri.ret rfl
    · tsteps

/-! ## Over-release -/

/-- A release program: whenever it runs to its end exactly the references `X` are gone
(/repo/src/voucher/crypto_ossl.c:60-1694). -/
def Rel {α : Type} (p : Prog α) (X : List Ref) : Prop :=
  ∀ s a s', p s = .ok (a, s') → ∀ i, s'.cnt i + times X i = s.cnt i

theorem Rel.nil {α : Type} {a : α} : Rel (Pure.pure a) [] := by
  intro s a s' h i; cases h; simp

theorem Rel.drop {k : Kind} {i : Id} : Rel (Res.drop k i) [(k, i)] := by
  intro s a s' h j
  rw [drop_run] at h
  split at h
  · rename_i hl
    cases h
    by_cases e : j = i
    · subst e; simp [St.setCnt]; omega
    · simp [St.setCnt, e, Ne.symm e]
  · cases h

theorem Rel.seq {α β : Type} {p : Prog α} {q : Prog β} {X Y : List Ref} (hp : Rel p X) (hq : Rel q Y) :
    Rel (p >>= fun _ => q) (X ++ Y) := by
  intro s b s' h i
  obtain ⟨a, s1, h1, h2⟩ := bind_inv h
  have := hp _ _ _ h1 i
  have := hq _ _ _ h2 i
  rw [times_append]; omega

theorem Rel.dropAll {k : Kind} (l : List Id) : Rel (Res.dropAll k l) (refs k l) := by
  induction l with
  | nil => exact Rel.nil
  | cons i l ih => exact Rel.seq (X := [(k, i)]) Rel.drop ih

theorem Rel.popFree {st : Stack} : Rel (Res.popFree st) (stackRefs st) := Rel.seq (Rel.dropAll _) Rel.drop

theorem Rel.popFreeO {cs : Option Stack} : Rel (Res.popFreeO cs) (stackR cs) := by
  cases cs
  · exact Rel.nil
  · exact Rel.popFree

theorem Rel.freeStoreCert (p : Id) (flags : Int) : Rel (Res.freeStoreCert p flags)
    (if flags = 0 then [(.x509, p)] else if flags = 1 then [(.crl, p)] else []) := by
  unfold Res.freeStoreCert
  split
  · exact Rel.drop
  · split
    · exact Rel.drop
    · exact Rel.nil

theorem Rel.freeEls (l : List (Id × Id × Int)) : Rel (Res.freeEls l) (elRefs l) := by
  induction l with
  | nil => exact Rel.nil
  | cons a l ih =>
    obtain ⟨el, p, flags⟩ := a
    exact Rel.seq (Rel.freeStoreCert p flags) (Rel.seq (X := [(.mem, el)]) Rel.drop ih)

theorem Rel.freeStoreO {st : Option (Id × PtrList)} : Rel (Res.freeStoreO st) (storeR st) := by
  rcases st with _ | ⟨st, l⟩
  · exact Rel.seq (X := []) Rel.nil Rel.nil
  · exact Rel.seq (X := [(.store, st)]) Rel.drop (Rel.seq (Rel.freeEls _) Rel.drop)

theorem Rel.verifyEnd {b : Option Id} {cs : Option Stack} {c : Msg} {st : Option (Id × PtrList)} :
    Rel (Res.verifyEnd b cs c st) (endR b cs c st) := by
  refine Rel.seq ?_ (Rel.seq Rel.popFreeO (Rel.seq ?_ Rel.freeStoreO))
  · cases b
    · exact Rel.nil
    · exact Rel.drop
  · exact Rel.seq (Rel.dropAll _) (Rel.seq (Rel.dropAll _) Rel.drop)

/-- What holds of every defined run from a state owning `L` (/repo/src/voucher/crypto_ossl.c:60-1694). -/
def Saf {α : Type} (L : List (List Ref)) (p : Prog α) (P : α → Prop) : Prop :=
  ∀ s0 s a s', (∀ i, s0.next ≤ i → s0.cnt i = 0) → Owns s0 s L.flatten → p s = .ok (a, s') → P a

theorem Saf.bindF {α β : Type} {L : List (List Ref)} {p : Prog α} {f : α → Prog β} {R : α → List (List Ref)}
    {F : α → Prop} {P : β → Prop} (hp : Tri [] L p R) (hF : ∀ s a s', p s = .ok (a, s') → F a)
    (hf : ∀ a, F a → Saf (R a) (f a) P) : Saf L (p >>= f) P := by
  intro s0 s b s' hu ho h
  obtain ⟨a, s1, h1, h2⟩ := bind_inv h
  obtain ⟨a', s1', h1', o1⟩ := hp s0 s (fun _ h => by cases h) ho
  rw [h1] at h1'
  cases h1'
  exact hf a (hF _ _ _ h1) s0 s1 b s' hu o1 h2

theorem Saf.bind {α β : Type} {L : List (List Ref)} {p : Prog α} {f : α → Prog β} {R : α → List (List Ref)}
    {P : β → Prop} (hp : Tri [] L p R) (hf : ∀ a, Saf (R a) (f a) P) : Saf L (p >>= f) P :=
  Saf.bindF (F := fun _ => True) hp (fun _ _ _ _ => trivial) fun a _ => hf a

theorem Saf.last {α β : Type} {L : List (List Ref)} {p : Prog α} {b : β} {P : β → Prop} (h : P b) :
    Saf L (p >>= fun _ => Pure.pure b) P := by
  intro s0 s b' s' _ _ h'
  obtain ⟨_, _, _, h2⟩ := bind_inv h'
  cases h2; exact h

theorem Saf.pure {β : Type} {L : List (List Ref)} {b : β} {P : β → Prop} (h : P b) : Saf L (Pure.pure b) P := by
  intro s0 s b' s' _ _ h'
  cases h'; exact h

theorem Saf.perm {α : Type} {L M : List (List Ref)} {p : Prog α} {P : α → Prop}
    (h : L.flatten.Perm M.flatten) (hp : Saf M p P) : Saf L p P :=
  fun s0 s a s' hu ho => hp s0 s a s' hu (ho.perm h)

theorem arrEls_mem {l : List (Id × Id)} {r : Ref} (h : r ∈ arrEls l) : r.1 = .mem := by
  induction l with
  | nil => cases h
  | cons a l ih =>
    obtain ⟨el, p⟩ := a
    rcases List.mem_cons.1 h with rfl | h
    · rfl
    rcases List.mem_cons.1 h with rfl | h
    · rfl
    exact ih h

theorem arrO_mem {o : Option ArrList} {r : Ref} (h : r ∈ (arrO o).flatten) : r.1 = .mem := by
  cases o with
  | none => cases h
  | some l =>
    simp only [arrO, arrRefs, List.flatten_cons, List.flatten_nil, List.append_nil, List.mem_append,
      List.mem_singleton] at h
    rcases h with h | rfl
    · exact arrEls_mem h
    · rfl

theorem times_zero {s0 s : St} {L X : List Ref} (o : Owns s0 s L) {i : Id} (hi : s.kind i = .x509)
    (hX : ∀ r ∈ X, r ∈ L ∧ r.1 = .mem) : times X i = 0 := by
  refine Nat.eq_zero_of_not_pos fun h => ?_
  have h := List.count_pos_iff.1 h
  obtain ⟨r, hr, rfl⟩ := List.mem_map.1 h
  obtain ⟨h1, h2⟩ := hX r hr
  have := o.kinds r h1
  rw [h2, hi] at this
  cases this

/-- After the signers' certificates were released once too often the final release does not run to its
end. -/
theorem verifyEnd_over {d : Option Id} {b : Id} {cs : Option Stack} {c : Msg} {st : Option (Id × PtrList)}
    {l : Option ArrList} {β : Type} {v : β} {P : β → Prop} (hs : c.signers ≠ [])
    (hm : ∀ i ∈ c.signers, i ∈ c.certs ++ elemsO cs) :
    Saf (arrO l ++ (msgRefs { c with signers := [] } :: (one .mem d ++ [[(.bio, b)], storeR st, stackR cs])))
      (verifyEnd (some b) cs c st >>= fun _ => Pure.pure v) P := by
  intro s0 s a s' hu ho h
  exfalso
  obtain ⟨_, s1, h1, _⟩ := bind_inv h
  obtain ⟨i, hi⟩ := List.exists_mem_of_ne_nil _ hs
  have hrel := Rel.verifyEnd _ _ _ h1 i
  have hown := ho.cnt i
  have hin : ((.x509, i) : Ref) ∈ (arrO l ++ (msgRefs { c with signers := [] } ::
      (one .mem d ++ [[(.bio, b)], storeR st, stackR cs]))).flatten := by
    simp only [List.flatten_append, List.flatten_cons, List.mem_append]
    rcases List.mem_append.1 (hm i hi) with h | h
    · right; left; simp [msgRefs, refs_mem h]
    · right; right; right; right; right; left
      rcases cs with _ | cs
      · cases h
      · have := refs_mem (k := .x509) h
        simp only [elemsO] at this
        simp [stackR, stackRefs, this]
  have hk := ho.kinds _ hin
  have hz := hu i (ho.new _ hin)
  have t1 : times (arrO l).flatten i = 0 := times_zero ho hk fun r hr => ⟨by simp [hr], arrO_mem hr⟩
  have t2 : times (one .mem d).flatten i = 0 := times_zero ho hk fun r hr => ⟨by simp [hr], by
    cases d with
    | none => cases hr
    | some d => simp [one] at hr; subst hr; rfl⟩
  have t3 : 0 < times (refs .x509 c.signers) i := times_pos (r := (.x509, i)) (refs_mem hi)
  simp only [List.flatten_append, List.flatten_cons, List.flatten_nil, times_append, times_cons, times_nil, msgRefs,
    endR, bioR, refs, List.map_nil, List.nil_append] at hown hrel t3
  omega

/-- When the stack of `CMS_get0_signers` only lends the certificates, a run of `crypto_verify_cms` that
would deliver them is undefined. -/
theorem saf_verifyCms (lib : Lib) (h : lib.Good) (hcp : ∀ k, lib.copy k = true) (ho : lib.signersOwned = false)
    (certs : Option Nat) (store : Option (List Int)) :
    Saf [] (verifyCms lib certs store true) fun r => r.certs = none := by
  unfold verifyCms
  refine Saf.bindF tri_readMsg readMsg_signers fun o hs => ?_
  rcases o with _ | c <;> dsimp only [msgO]
  · exact Saf.pure rfl
  replace hs := hs c rfl
  refine Saf.bind (Tri.call (tri_mkStackO lib h certs) (by simp)) fun o => ?_
  rcases o with _ | cs
  · exact Saf.last rfl
  rw [stackOO_some]
  dsimp only [List.cons_append, List.nil_append]
  refine Saf.bind (Tri.call (tri_mkStoreO lib h store) (by simp)) fun o => ?_
  rcases o with _ | st
  · refine Saf.bind (Tri.con0 Con.popFreeO) fun _ => Saf.last rfl
  rw [storeOO_some]
  dsimp only [List.cons_append, List.nil_append]
  refine Saf.bind Tri.mk fun o => ?_
  rcases o with _ | b
  · exact Saf.last rfl
  dsimp only [one, List.cons_append, List.nil_append]
  refine Saf.perm (M := msgRefs c :: [[(.bio, b)], storeR st, stackR cs]) (by tperm) ?_
  refine Saf.bindF (tri_verifyMsg c hs cs fun i hi => ?_) (verifyMsg_signers c (elemsO cs)) fun o hm => ?_
  · rcases cs with _ | cs
    · cases hi
    · have := refs_mem (k := .x509) hi
      simp only [elemsO] at this
      simp [stackR, stackRefs, this]
  rcases o with _ | c' <;> dsimp only [verified]
  · exact Saf.last rfl
  replace hm := hm c' rfl
  refine Saf.bind (Tri.call tri_bioToPtr (by simp)) fun o => ?_
  rcases o with _ | d
  · exact Saf.last rfl
  rw [ptr_one]
  refine Saf.perm (M := msgRefs c' :: (one .mem d ++ [[(.bio, b)], storeR st, stackR cs])) (by tperm) ?_
  refine Saf.bindF (F := fun r => c'.signers = [] → r = (true, none)) (tri_extract_lent lib ho hcp c') ?_ fun r hr => ?_
  · intro s r s' h e
    unfold extract getSigners at h
    obtain ⟨o, s1, h1, h⟩ := bind_inv h
    obtain ⟨_, s2, _, h1⟩ := bind_inv h1
    rw [e] at h1
    cases h1
    cases h
    rfl
  by_cases e : c'.signers = []
  · rw [hr e]
    exact Saf.last rfl
  · rcases r with ⟨_ | _, _ | l⟩
    · exact verifyEnd_over e hm
    · exact verifyEnd_over e hm
    · exact Saf.last rfl
    · exact verifyEnd_over e hm

end Brski.Res
