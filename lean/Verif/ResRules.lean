import Verif.ResLemmas

/-!
# Ownership of library objects: the functions

For each function of `Res` the references it leaves with the caller.
-/

namespace Brski.Res
open Outcome

/-- One step of a proof about a program of /repo/src/voucher/crypto_ossl.c:60-1694. -/
syntax "tstep" : tactic

macro_rules | `(tactic| tstep) => `(tactic| first
  | exact Tri.ret rfl
  | (with_reducible refine Tri.bind Tri.mk fun o => ?_; cases o <;> dsimp only [one, List.nil_append, List.cons_append])
  | (with_reducible refine Tri.bind Tri.yes fun b => ?_; cases b <;> dsimp only)
  | (with_reducible refine Tri.bind (Tri.use (by simp)) fun _ => ?_)
  | (with_reducible refine Tri.bind (Tri.con0 Con.drop) fun _ => ?_)
  | (with_reducible refine Tri.bind (Tri.con1 Con.drop) fun _ => ?_)
  | (with_reducible refine Tri.bind (Tri.con2 Con.drop) fun _ => ?_)
  | (with_reducible refine Tri.bind (Tri.con3 Con.drop) fun _ => ?_)
  | (with_reducible refine Tri.bind (Tri.con4 Con.drop) fun _ => ?_)
  | (with_reducible refine Tri.bind (Tri.con5 Con.drop) fun _ => ?_))

/-- All steps (/repo/src/voucher/crypto_ossl.c:60-1694). -/
macro "tsteps" : tactic => `(tactic| repeat' tstep)

/-- The blocks of an optional `struct BinaryArray` (/repo/src/voucher/array.h:155-158). -/
def binRefs : Option Bin → List (List Ref)
  | none => []
  | some ⟨hd, none⟩ => [[(.mem, hd)]]
  | some ⟨hd, some a⟩ => [[(.mem, a)], [(.mem, hd)]]

theorem Con.freeBin0 {hd : Id} : Con (freeBin ⟨hd, none⟩) [(.mem, hd)] := by
  intro B
  show Tri B _ (Bind.bind (Pure.pure ()) _) _
  refine Tri.bind (R := fun _ => [[(.mem, hd)]]) (Tri.ret rfl) fun _ => ?_
  exact Con.drop B

/-- A block is given back by the named rule (/repo/src/voucher/crypto_ossl.c:60-1694). -/
syntax "tcon " term : tactic

macro_rules | `(tactic| tcon $t) => `(tactic| first
  | (with_reducible refine Tri.bind (Tri.con0 $t) fun _ => ?_)
  | (with_reducible refine Tri.bind (Tri.con1 $t) fun _ => ?_)
  | (with_reducible refine Tri.bind (Tri.con2 $t) fun _ => ?_)
  | (with_reducible refine Tri.bind (Tri.con3 $t) fun _ => ?_)
  | (with_reducible refine Tri.bind (Tri.con4 $t) fun _ => ?_)
  | (with_reducible refine Tri.bind (Tri.con5 $t) fun _ => ?_))

macro_rules | `(tactic| tstep) => `(tactic| tcon Con.freeBin0)

theorem Con.dropO {k : Kind} {i : Id} : Con (Res.dropO k (some i)) [(k, i)] := Con.drop

theorem Tri.dropO {B : List Ref} {L : List (List Ref)} {k : Kind} : Tri B L (Res.dropO k none) fun _ => L :=
  Tri.ret rfl

macro_rules | `(tactic| tstep) => `(tactic| first
  | tcon Con.dropO
  | with_reducible refine Tri.bind Tri.dropO fun _ => ?_)

theorem tri_certToDer {x : Id} : Tri [(.x509, x)] [] (certToDer x) (one .mem) := by
  unfold certToDer; tstep
  exact Tri.post Tri.mk fun o => by simp

theorem tri_keyToDer {p : Id} : Tri [(.pkey, p)] [] (keyToDer (some p)) (one .mem) := by
  unfold keyToDer; tstep
  exact Tri.post Tri.mk fun o => by simp

macro_rules | `(tactic| tstep) => `(tactic|
  (with_reducible refine Tri.bind (Tri.call tri_certToDer (by simp)) fun o => ?_
   cases o <;> dsimp only [one, List.nil_append, List.cons_append]))

macro_rules | `(tactic| tstep) => `(tactic|
  (with_reducible refine Tri.bind (Tri.call tri_keyToDer (by simp)) fun o => ?_
   cases o <;> dsimp only [one, List.nil_append, List.cons_append]))

theorem tri_cmsToFile : Tri [] [] cmsToFile fun _ => [] := by
  unfold cmsToFile derToCms; tsteps

theorem tri_certToFile : Tri [] [] certToFile fun _ => [] := by
  unfold certToFile; tsteps

theorem tri_keyToFile : Tri [] [] keyToFile fun _ => [] := by
  unfold keyToFile; tsteps

theorem tri_certToBuf (x : Id) : Tri [(.x509, x)] [] (certToBuf (some x)) binRefs := by
  unfold certToBuf; tsteps

theorem tri_fileToCert : Tri [] [] fileToCert binRefs := by
  unfold fileToCert; tsteps

theorem tri_fileToKey : Tri [] [] fileToKey binRefs := by
  unfold fileToKey; tsteps

/-- The blocks of an optional, possibly NULL buffer (/repo/src/voucher/crypto_ossl.c:362-408). -/
def ptrRefs : Option (Option Id) → List (List Ref)
  | some (some d) => [[(.mem, d)]]
  | _ => []

theorem tri_bioToPtr {b : Id} : Tri [(.bio, b)] [] (bioToPtr b) ptrRefs := by
  unfold bioToPtr; tsteps

macro_rules | `(tactic| tstep) => `(tactic|
  (with_reducible refine Tri.bind (Tri.call tri_bioToPtr (by simp)) fun o => ?_
   rcases o with _ | _ | o <;> dsimp only [ptrRefs, List.nil_append, List.cons_append]))

theorem tri_cmsToDer {c : Id} : Tri [(.cms, c)] [] (cmsToDer c) ptrRefs := by
  unfold cmsToDer; tsteps

macro_rules | `(tactic| tstep) => `(tactic|
  (with_reducible refine Tri.bind (Tri.call tri_cmsToDer (by simp)) fun o => ?_
   rcases o with _ | _ | o <;> dsimp only [ptrRefs, List.nil_append, List.cons_append]))

theorem tri_copyCert (x : Id) : Tri [(.x509, x)] [] (copyCert (some x)) (one .x509) := by
  unfold copyCert; tsteps

theorem tri_certIssuer (x : Id) : Tri [(.x509, x)] [] (certIssuer (some x)) binRefs := by
  unfold certIssuer; tsteps
  refine Tri.bind Tri.draw fun r => ?_
  split <;> tsteps

theorem tri_setSerial {x : Id} : Tri [(.x509, x)] [] (setSerial x) fun _ => [] := by
  unfold setSerial; tsteps

theorem tri_addNames (l : List (Bool × Bool)) (n : Id) : Tri [] [[(.name, n)]] (addNames n l) (one .name) := by
  induction l with
  | nil => exact Tri.ret rfl
  | cons a l ih =>
    obtain ⟨k, v⟩ := a
    cases k
    · unfold addNames; tsteps
    · cases v
      · unfold addNames; tsteps
      · unfold addNames
        tstep; tstep
        · tsteps
        · exact ih

theorem tri_mkName (l : List (Bool × Bool)) : Tri [] [] (mkName l) (one .name) := by
  unfold mkName; tstep
  · tsteps
  · exact tri_addNames l _

macro_rules | `(tactic| tstep) => `(tactic|
  (with_reducible refine Tri.bind (Tri.call (tri_mkName _) (by simp)) fun o => ?_
   cases o <;> dsimp only [one, List.nil_append, List.cons_append]))

theorem tri_setAfter {x : Id} (m : Meta) : Tri [(.x509, x)] [] (setAfter x m) fun _ => [] := by
  unfold setAfter
  cases m.absolute <;> dsimp only
  · tstep; exact Tri.yes
  · cases m.relative <;> dsimp only
    · tsteps
    · tsteps

theorem tri_setName {x : Id} (n : Option (List (Bool × Bool))) : Tri [(.x509, x)] [] (setName x n) fun _ => [] := by
  cases n <;> unfold setName <;> tsteps

theorem tri_setConstraints {x : Id} (b : Bool) : Tri [(.x509, x)] [] (setConstraints x b) fun _ => [] := by
  cases b <;> unfold setConstraints <;> tsteps

/-- A call that leaves nothing behind (/repo/src/voucher/crypto_ossl.c:60-1694). -/
macro "tflag " t:term : tactic => `(tactic|
  (with_reducible refine Tri.bind (Tri.call $t (by simp)) fun b => ?_; cases b <;> dsimp only [List.nil_append]))

theorem tri_setMeta {x : Id} (m : Meta) : Tri [(.x509, x)] [] (setMeta x m) fun _ => [] := by
  unfold setMeta
  tstep; tstep
  · tsteps
  tflag tri_setSerial
  · tsteps
  tstep
  · tsteps
  tflag tri_setAfter m
  · tsteps
  tflag tri_setName m.issuer
  · tsteps
  tflag tri_setName m.subject
  · tsteps
  exact tri_setConstraints _

theorem tri_signSha {x p : Id} : Tri [(.x509, x), (.pkey, p)] [] (signSha x p) fun _ => [] := by
  unfold signSha
  tsteps
  exact Tri.bind Tri.draw fun _ => Tri.ret rfl

theorem tri_genCert (lib : Lib) (h : lib.setPubkey = true) (m : Option Meta) (key : Bool) :
    Tri [] [] (genCert lib m key true) (one .mem) := by
  unfold genCert
  cases m <;> dsimp only
  · tsteps
  cases key <;> dsimp only
  · tsteps
  tstep
  · tsteps
  tflag tri_setMeta _
  · tsteps
  tstep
  · tsteps
  tstep; tstep
  rw [h]; dsimp only
  tflag tri_signSha
  · tsteps
  refine Tri.bind (Tri.call tri_certToDer (by simp)) fun o => ?_
  cases o <;> dsimp only [one, List.nil_append, List.cons_append] <;> tsteps

/-- The buffer handed to `crypto_sign_cert` and the one left in its place
(/repo/src/voucher/crypto_ossl.c:1173-1176). -/
theorem tri_signCert (old : Id) : Tri [] [[(.mem, old)]] (signCert (some old)) fun r => one .mem r.2 := by
  unfold signCert
  tsteps
  all_goals
    refine Tri.bind (Tri.call tri_signSha (by simp)) fun b => ?_
    cases b <;> dsimp only [List.nil_append]
    · tsteps
    · tsteps
end Brski.Res
