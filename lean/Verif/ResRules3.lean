import Verif.ResRules2

/-!
# Ownership of library objects: verification
-/

namespace Brski.Res
open Outcome

theorem Tri.bindF {α β : Type} {B : List Ref} {L : List (List Ref)} {p : Prog α} {f : α → Prog β}
    {R : α → List (List Ref)} {Q : β → List (List Ref)} {P : α → Prop} (hp : Tri B L p R)
    (hP : ∀ s a s', p s = .ok (a, s') → P a) (hf : ∀ a, P a → Tri B (R a) (f a) Q) : Tri B L (p >>= f) Q := by
  intro s0 s hb ho
  obtain ⟨a, s1, e1, o1⟩ := hp s0 s hb ho
  obtain ⟨b, s2, e2, o2⟩ := hf a (hP s a s1 e1) s0 s1 hb o1
  refine ⟨b, s2, ?_, o2⟩
  rw [bind_run, e1]; exact e2

theorem bind_inv {α β : Type} {p : Prog α} {f : α → Prog β} {s s' : St} {b : β} (h : (p >>= f) s = .ok (b, s')) :
    ∃ a s1, p s = .ok (a, s1) ∧ f a s1 = .ok (b, s') := by
  rw [bind_run] at h
  cases hp : p s with
  | ub => rw [hp] at h; cases h
  | ok r => rw [hp] at h; exact ⟨r.1, r.2, rfl, h⟩

theorem choose_mem (l : List Id) : ∀ n s r s', choose l n s = .ok (r, s') → ∀ i ∈ r, i ∈ l := by
  intro n
  induction n with
  | zero => intro s r s' h; cases h; simp
  | succ n ih =>
    intro s r s' h
    unfold choose at h
    obtain ⟨d, s1, _, h⟩ := bind_inv h
    obtain ⟨rest, s2, hr, h⟩ := bind_inv h
    cases hl : l[d.toNat]? with
    | none => rw [hl] at h; cases h; exact ih _ _ _ hr
    | some i =>
      rw [hl] at h; cases h
      intro j hj
      rcases List.mem_cons.1 hj with rfl | hj
      · exact List.mem_of_getElem? hl
      · exact ih _ _ _ hr j hj

theorem tri_up {B : List Ref} {L : List (List Ref)} {k : Kind} {i : Id} (h : (k, i) ∈ L.flatten) :
    Tri B L (up k i) fun _ => [(k, i)] :: L := by
  intro s0 s hb ho
  have hl : 0 < s.cnt i ∧ s.kind i = k := ho.live h
  refine ⟨(), s.setCnt i (s.cnt i + 1), ?_, ?_⟩
  · rw [up_run]; exact if_pos hl
  refine ⟨fun j => ?_, fun r hr => ?_, ho.old, fun j hj => ?_, ho.mono, fun r hr => ?_⟩
  · show (if j = i then s.cnt i + 1 else s.cnt j) = _
    rw [List.flatten_cons, List.singleton_append, times_cons]
    by_cases h : j = i
    · subst h; rw [if_pos rfl, ho.cnt]; simp; omega
    · rw [if_neg h, ho.cnt, if_neg (fun e => h e.symm)]; omega
  · rw [List.flatten_cons, List.singleton_append, List.mem_cons] at hr
    rcases hr with rfl | hr
    · exact hl.2
    · exact ho.kinds r hr
  · show (if j = i then s.cnt i + 1 else s.cnt j) = 0
    have := ho.unused j hj
    rw [if_neg (by intro e; rw [e] at this; omega)]; exact this
  · rw [List.flatten_cons, List.singleton_append, List.mem_cons] at hr
    rcases hr with rfl | hr
    · exact ho.new _ h
    · exact ho.new r hr

theorem tri_upAll {B : List Ref} {k : Kind} : ∀ (l : List Id) {L : List (List Ref)},
    (∀ i ∈ l, (k, i) ∈ L.flatten) → Tri B L (upAll k l) fun _ => refs k l :: L := by
  intro l
  induction l with
  | nil => intro L h; exact Tri.pure (by simp [refs])
  | cons i l ih =>
    intro L h
    unfold upAll
    refine Tri.bind (tri_up (h i (by simp))) fun _ => ?_
    refine Tri.post (ih fun j hj => ?_) fun _ => ?_
    · simp [h j (by simp [hj])]
    · simp only [refs, List.flatten_cons, List.map_cons, List.cons_append, List.nil_append]
      exact List.perm_middle

theorem buildChain_tri {B : List Ref} {L : List (List Ref)} (cands : List Id)
    (h : ∀ i ∈ cands, (.x509, i) ∈ L.flatten) :
    Tri B L (buildChain cands) fun o => stackR o :: L := by
  unfold buildChain
  tstep
  · exact Tri.pure (by simp [stackR])
  · refine Tri.bind Tri.draw fun n => ?_
    refine Tri.bindF (tri_choose _ _) (choose_mem _ _) fun l hl => ?_
    refine Tri.bind (tri_upAll l fun i hi => ?_) fun _ => ?_
    · simp [h i (hl i hi)]
    · exact Tri.pure (by simp [stackR, stackRefs])

theorem refs_mem {k : Kind} {l : List Id} {i : Id} (h : i ∈ l) : (k, i) ∈ refs k l := List.mem_map_of_mem h

theorem storeCerts_mem {l : List (Id × Id × Int)} {i : Id} (h : i ∈ storeCerts l) : (Kind.x509, i) ∈ elRefs l := by
  induction l with
  | nil => cases h
  | cons a l ih =>
    obtain ⟨el, p, f⟩ := a
    unfold storeCerts at h
    unfold elRefs
    split at h
    · rename_i hf
      rcases List.mem_cons.1 h with rfl | h
      · simp [hf]
      · simp [ih h]
    · simp [ih h]

theorem storeCertsO_mem {st : Option (Id × PtrList)} {i : Id} (h : i ∈ storeCertsO st) : (Kind.x509, i) ∈ storeR st := by
  rcases st with _ | ⟨st, l⟩
  · cases h
  · have := storeCerts_mem h
    simp [storeR, listRefs, this]

theorem tri_verifyCert (lib : Lib) (h : lib.Good) (n : Nat) (store : Option (List Int)) :
    Tri [] [] (verifyCert lib n store) fun _ => [] := by
  unfold verifyCert
  tstep
  · tsteps
  refine Tri.bind (Tri.call (tri_mkStack lib h.stack n) (by simp)) fun o => ?_
  rcases o with _ | cs <;> dsimp only [stackO, List.nil_append, List.cons_append]
  · tsteps
  refine Tri.bind (Tri.call (tri_mkStoreO lib h store) (by simp)) fun o => ?_
  rcases o with _ | st
  · dsimp only [storeOO, List.nil_append]
    tsteps
  rw [storeOO_some]
  dsimp only [List.cons_append, List.nil_append]
  refine Tri.bind (buildChain_tri _ fun i hi => ?_) fun out => ?_
  · simp only [List.mem_cons, List.mem_append] at hi
    simp only [List.flatten_cons, List.flatten_nil, List.append_nil, List.mem_append, List.mem_singleton]
    rcases hi with rfl | hi | hi
    · simp
    · right; left; simp [stackRefs, refs_mem hi]
    · left; exact storeCertsO_mem hi
  tsteps

theorem tri_signWithKey (lib : Lib) (h : lib.Good) (p : Id) (certs : Option Nat) :
    Tri [(.pkey, p)] [] (signWithKey lib p certs) ptrRefs := by
  unfold signWithKey
  tstep
  · tsteps
  refine Tri.bind Tri.draw fun r => ?_
  split
  · tsteps
  tstep
  · tsteps
  refine Tri.bind (Tri.call (tri_mkStackO lib h certs) (by simp)) fun o => ?_
  rcases o with _ | cs
  · dsimp only [stackOO, List.nil_append]
    tsteps
  rw [stackOO_some]
  dsimp only [List.cons_append, List.nil_append]
  tsteps

theorem tri_signCms (lib : Lib) (h : lib.Good) (certs : Option Nat) : Tri [] [] (signCms lib certs) ptrRefs := by
  unfold signCms
  tstep
  · tsteps
  refine Tri.bind (Tri.call (tri_signWithKey lib h _ certs) (by simp)) fun o => ?_
  rcases o with _ | _ | d <;> dsimp only [ptrRefs, List.nil_append, List.cons_append] <;> tsteps

/-- The references held through a message (/repo/src/voucher/crypto_ossl.c:1624,1661). -/
def msgRefs (c : Msg) : List Ref := refs .x509 c.certs ++ (refs .x509 c.signers ++ [(.cms, c.id)])

theorem Con.freeMsg {c : Msg} : Con (Res.freeMsg c) (msgRefs c) :=
  Con.seq (Con.dropAll _) (Con.seq (Con.dropAll _) Con.drop)

macro_rules | `(tactic| tstep) => `(tactic| tcon Con.freeMsg)

theorem tri_freshes {B : List Ref} {k : Kind} : ∀ n {L : List (List Ref)},
    Tri B L (freshes k n) fun l => refs k l :: L := by
  intro n
  induction n with
  | zero => intro L; exact Tri.pure (by simp [refs])
  | succ n ih =>
    intro L
    unfold freshes
    refine Tri.bind Tri.fresh fun i => Tri.bind ih fun l => Tri.pure ?_
    simp only [refs, List.flatten_cons, List.map_cons, List.cons_append, List.nil_append]
    exact List.perm_middle

/-- The blocks of an optional message (/repo/src/voucher/crypto_ossl.c:127-138). -/
def msgO : Option Msg → List (List Ref)
  | none => []
  | some c => [msgRefs c]

theorem tri_readMsg : Tri [] [] readMsg msgO := by
  unfold readMsg
  tstep
  · tsteps
  · refine Tri.bind Tri.draw fun n => Tri.bind (tri_freshes _) fun l => Tri.pure ?_
    simp [msgO, msgRefs, refs]

theorem readMsg_signers : ∀ s o s', readMsg s = .ok (o, s') → ∀ c ∈ o, c.signers = [] := by
  intro s o s' h
  unfold readMsg at h
  obtain ⟨a, s1, _, h⟩ := bind_inv h
  cases a with
  | none => cases h; simp
  | some i =>
    obtain ⟨d, s2, _, h⟩ := bind_inv h
    obtain ⟨l, s3, _, h⟩ := bind_inv h
    cases h
    intro c hc; cases hc; rfl

/-- What `CMS_verify` leaves in the message (/repo/src/voucher/crypto_ossl.c:1661). -/
def verified (c : Msg) : Option Msg → Msg
  | none => c
  | some c' => c'

theorem tri_verifyMsg {B : List Ref} {L : List (List Ref)} (c : Msg) (hc : c.signers = []) (cs : Option Stack)
    (hl : ∀ i ∈ elemsO cs, (.x509, i) ∈ L.flatten) :
    Tri B (msgRefs c :: L) (verifyMsg c (elemsO cs)) fun o => msgRefs (verified c o) :: L := by
  unfold verifyMsg
  refine Tri.bind (Tri.use (by simp [msgRefs])) fun _ => ?_
  tstep
  · tsteps
  · refine Tri.bind Tri.draw fun n => Tri.bindF (tri_choose _ _) (choose_mem _ _) fun l hm => ?_
    refine Tri.bind (tri_upAll l fun i hi => ?_) fun _ => Tri.pure ?_
    · rcases List.mem_append.1 (hm i hi) with h | h
      · simp [msgRefs, refs_mem h]
      · simp [hl i h]
    · simp only [verified, msgRefs, hc, refs, List.flatten_cons, List.map_nil, List.nil_append, ← List.append_assoc]
      exact ((List.perm_append_comm (l₁ := l.map fun i => (Kind.x509, i)) (l₂ := c.certs.map fun i => (Kind.x509, i))).append_right _).append_right _

theorem verifyMsg_signers (c : Msg) (stack : List Id) : ∀ s o s', verifyMsg c stack s = .ok (o, s') →
    ∀ c' ∈ o, ∀ i ∈ c'.signers, i ∈ c'.certs ++ stack := by
  intro s o s' h
  unfold verifyMsg at h
  obtain ⟨_, s1, _, h⟩ := bind_inv h
  obtain ⟨b, s2, _, h⟩ := bind_inv h
  cases b with
  | false => cases h; simp
  | true =>
    obtain ⟨d, s3, _, h⟩ := bind_inv h
    obtain ⟨l, s4, hl, h⟩ := bind_inv h
    obtain ⟨_, s5, _, h⟩ := bind_inv h
    cases h
    intro c' hc'; cases hc'
    exact choose_mem _ _ _ _ _ hl

/-- The references held through a list of arrays (/repo/src/voucher/array.h:113-118). -/
def arrEls : List (Id × Id) → List Ref
  | [] => []
  | (el, a) :: l => (.mem, a) :: (.mem, el) :: arrEls l

/-- The references held through a list of arrays with its head (/repo/src/voucher/array.h:113-118). -/
def arrRefs (l : ArrList) : List Ref := arrEls l.els ++ [(.mem, l.hd)]

/-- The blocks of an optional list of arrays (/repo/src/voucher/array.h:113-118). -/
def arrO : Option ArrList → List (List Ref)
  | none => []
  | some l => [arrRefs l]

theorem Con.freeArrEls (l : List (Id × Id)) : Con (Res.freeArrEls l) (arrEls l) := by
  induction l with
  | nil => exact Con.nil
  | cons a l ih =>
    obtain ⟨el, a⟩ := a
    exact Con.seq (X := [(.mem, a)]) Con.drop (Con.seq (X := [(.mem, el)]) Con.drop ih)

theorem Con.freeArr {l : ArrList} : Con (Res.freeArr l) (arrRefs l) := Con.seq (Con.freeArrEls _) Con.drop

theorem arrEls_append (l m : List (Id × Id)) : arrEls (l ++ m) = arrEls l ++ arrEls m := by
  induction l with
  | nil => rfl
  | cons a l ih => obtain ⟨el, p⟩ := a; simp only [List.cons_append, arrEls, ih]

theorem arrRefs_push (l : ArrList) (el cp : Id) :
    ((.mem, cp) :: (.mem, el) :: arrRefs l).Perm (arrRefs ⟨l.hd, l.els ++ [(el, cp)]⟩) := by
  simp only [arrRefs, arrEls_append, arrEls, List.append_assoc, List.cons_append, List.nil_append]
  exact ((List.perm_middle (l₁ := arrEls l.els)).symm.cons _).trans List.perm_middle.symm

macro_rules | `(tactic| tstep) => `(tactic| tcon Con.freeArr)

theorem tri_extractLoop (lib : Lib) (hcp : ∀ k, lib.copy k = true) (signers : Stack) {B : List Ref} {L : List (List Ref)} :
    ∀ xs (l : ArrList), (∀ i ∈ xs, i ∈ signers.elems) →
    Tri B (arrRefs l :: stackRefs signers :: L) (extractLoop lib signers l xs) fun r => arrO r.2 ++ L := by
  intro xs
  induction xs with
  | nil => intro l _; unfold extractLoop; tsteps
  | cons x xs ih =>
    intro l hx
    unfold extractLoop
    refine Tri.bind (Tri.call tri_certToDer ?_) fun o => ?_
    · have := hx x (by simp)
      intro r hr
      simp only [List.mem_singleton] at hr
      subst hr
      right
      simp [stackRefs, refs_mem this]
    rcases o with _ | der <;> dsimp only [one, List.nil_append, List.cons_append]
    · tsteps
    · unfold pushArr
      refine Tri.bind (R := fun o => match o with
        | none => [(Kind.mem, der)] :: arrRefs l :: stackRefs signers :: L
        | some l' => [(Kind.mem, der)] :: arrRefs l' :: stackRefs signers :: L) ?_ fun o => ?_
      · tstep
        · tsteps
        · tstep
          rw [hcp]; dsimp only
          refine Tri.bind Tri.fresh fun cp => Tri.pure ?_
          simp only [List.flatten_cons, List.cons_append, List.nil_append]
          refine ((List.Perm.swap _ _ _).cons _).trans ((List.Perm.swap _ _ _).trans (List.Perm.cons _ ?_))
          simpa using (arrRefs_push l _ cp).append_right _
      · cases o <;> dsimp only
        · tsteps
        · tstep
          exact ih _ fun i hi => hx i (by simp [hi])

end Brski.Res
