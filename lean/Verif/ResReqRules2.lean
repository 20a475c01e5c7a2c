import Verif.ResReqRules

/-!
# Ownership in the servers' handlers: rules
-/

namespace Brski.Res
open Outcome

/-- No path leads to a file that cannot be loaded (/repo/src/brski/config.c:691-707). -/
def Loadable (o : Option (List Entry)) : Prop := ∀ es, o = some es → ∀ e ∈ es, e = .good

theorem loadLoop_good (lib : Lib) : ∀ es l s r s', (∀ e ∈ es, e = .good) → loadLoop lib l es s = .ok (r, s') →
    r.1 = true := by
  intro es
  induction es with
  | nil => intro l s r s' _ h; cases h; rfl
  | cons e es ih =>
    intro l s r s' he h
    cases he e (by simp)
    unfold loadLoop at h
    obtain ⟨_, _, _, h⟩ := bind_inv h
    obtain ⟨_, _, _, h⟩ := bind_inv h
    obtain ⟨_, _, _, h⟩ := bind_inv h
    obtain ⟨_, _, _, h⟩ := bind_inv h
    cases hc : lib.copy l.els.length <;> rw [hc] at h
    · cases h
    · obtain ⟨_, _, _, h⟩ := bind_inv h
      obtain ⟨_, _, _, h⟩ := bind_inv h
      exact ih _ _ _ _ (fun e h => he e (by simp [h])) h

theorem loadCerts_good (lib : Lib) (o : Option (List Entry)) (ho : Loadable o) : ∀ s r s',
    loadCerts lib o s = .ok (r, s') → r.1 = false → r.2 = none := by
  intro s r s' h hr
  rcases o with _ | _ | ⟨e, es⟩
  · cases h; cases hr
  · cases h; cases hr
  · unfold loadCerts at h
    obtain ⟨o, _, _, h⟩ := bind_inv h
    cases o
    · cases h; rfl
    · rw [loadLoop_good lib _ _ _ _ _ (ho _ rfl) h] at hr
      cases hr

theorem binR_none : binR none = [] := rfl
theorem arrR_none : arrR none = [] := rfl

/-- Permutations of the blocks of a handler (/repo/src/brski/masa/masa_api.cpp:57-183). -/
macro "bperm" : tactic => `(tactic| (
  refine List.perm_iff_count.2 fun a => ?_
  simp only [List.flatten_cons, List.flatten_nil, List.flatten_append, List.count_append, List.count_nil, List.nil_append,
    List.append_nil, List.cons_append, List.count_cons, List.append_assoc, binR_none, arrR_none, memR_none] <;> omega))

/-- What is released at the end of `masa_requestvoucher` (/repo/src/brski/masa/masa_api.cpp:172-181). -/
def varsR (v : Vars) : List Ref :=
  binR v.ca ++ (binR v.cert ++ (binR v.key ++ (arrR v.rc ++ (arrR v.rs ++ (arrR v.pc ++ (arrR v.ps ++ (arrR v.add ++
    (memR v.body ++ binR v.out))))))))

theorem Con.masaEnd (v : Vars) : Con (Res.masaEnd v) (varsR v) :=
  Con.seq Con.freeBinO (Con.seq Con.freeBinO (Con.seq Con.freeBinO (Con.seq Con.freeArrO (Con.seq Con.freeArrO
    (Con.seq Con.freeArrO (Con.seq Con.freeArrO (Con.seq Con.freeArrO (Con.seq Con.memO Con.freeBinO))))))))

/-- What a decoded body holds (/repo/src/voucher/serialize.c:176-279). -/
theorem tri_decode {B : List Ref} {L : List (List Ref)} (b : Body) (hb : b ≠ .padding) :
    Tri B L (decode b) fun r => memR r.2 :: L := by
  cases b
  · exact Tri.bind Tri.fresh fun a => Tri.ret rfl
  · exact Tri.pure (by simp [memR, one])
  · exact absurd rfl hb

/-- What a MASA may lose in a request that is refused (/repo/src/voucher/request.c:270-273). -/
def lostMasa (r : Int × Option Bin) (X : List Ref) : Prop := X = [] ∨ r.1 = 400 ∧ ∃ d l, X = memR d ++ arrR l

/-- The lists of the MASA can be loaded (/repo/src/brski/masa/masa_api.cpp:110-136). -/
structure Paths.Ok (q : Paths) : Prop where
  rc : Loadable q.rc
  rs : Loadable q.rs
  pc : Loadable q.pc
  ps : Loadable q.ps
  add : Loadable q.add

theorem Tri.bindFX {α β : Type} {B : List Ref} {L : List (List Ref)} {p : Prog α} {f : α → Prog β}
    {R : α → List (List Ref)} {Q : β → List (List Ref)} {F : α → Prop} {E : β → List Ref → Prop} (hp : Tri B L p R)
    (hF : ∀ s a s', p s = .ok (a, s') → F a) (hf : ∀ a, F a → TriX B (R a) (f a) Q E) : TriX B L (p >>= f) Q E := by
  intro s0 s hb ho
  obtain ⟨a, s1, e1, o1⟩ := hp s0 s hb ho
  obtain ⟨b, s2, X, e2, he, o2⟩ := hf a (hF _ _ _ e1) s0 s1 hb o1
  refine ⟨b, s2, X, ?_, he, o2⟩
  rw [bind_run, e1]; exact e2

theorem trix_end {B : List Ref} {L : List (List Ref)} {v : Vars} {c : Int} {ca : Option Bin}
    (h : L.flatten.Perm (varsR v)) :
    TriX B L (masaEnd v >>= fun _ => Pure.pure (c, ca)) (fun _ => []) lostMasa :=
  Tri.toX (Tri.conP (M := []) (Con.masaEnd v) (by simpa using h) fun _ => Tri.ret rfl) fun _ => .inl rfl

/-- A list is loaded for the MASA (/repo/src/brski/masa/masa_api.cpp:110-136). -/
theorem trix_load {β : Type} {B : List Ref} {L : List (List Ref)} (lib : Lib) (hcp : ∀ k, lib.copy k = true)
    {o : Option (List Entry)} (ho : Loadable o) {f : Bool × Option ArrList → Prog β} {Q : β → List (List Ref)}
    {E : β → List Ref → Prop} (h0 : TriX B L (f (false, none)) Q E) (h1 : ∀ l, TriX B (arrR l :: L) (f (true, l)) Q E) :
    TriX B L (loadCerts lib o >>= f) Q E := by
  refine Tri.bindFX (tri_loadCerts lib hcp o) (loadCerts_good lib o ho) fun r hr => ?_
  obtain ⟨_ | _, l⟩ := r
  · cases hr rfl
    exact TriX.perm (by simp [loadR]) h0
  · exact h1 l

theorem trix_masaRequest (lib : Lib) (h : lib.Good) (ho : lib.signersOwned = true) (hcp : ∀ k, lib.copy k = true)
    (expiry : Bool) (ps : Paths) (hp : ps.Ok) (ca : Option Bin) (hca : expiry = false → ca = none) (body : Body)
    (hb : body ≠ .padding) : TriX [] [] (masaRequest lib expiry ps ca body) (fun _ => []) lostMasa := by
  unfold masaRequest
  cases expiry <;> dsimp only
  · rw [hca rfl]
    exact trix_end (by simp only [varsR]; bperm)
  refine Tri.bindX (tri_decode body hb) fun r => ?_
  obtain ⟨_, b⟩ := r
  dsimp only
  refine Tri.bindX (Tri.binX tri_fileToCert) fun ca => ?_
  rcases ca with _ | ca <;> dsimp only
  · exact trix_end (by simp only [varsR]; bperm)
  refine Tri.bindX (Tri.binX tri_fileToCert) fun cert => ?_
  rcases cert with _ | cert <;> dsimp only
  · exact trix_end (by simp only [varsR]; bperm)
  refine Tri.bindX (Tri.binX tri_fileToKey) fun key => ?_
  rcases key with _ | key <;> dsimp only
  · exact trix_end (by simp only [varsR]; bperm)
  refine trix_load lib hcp hp.rc ?_ fun rc => ?_ <;> dsimp only
  · exact trix_end (by simp only [varsR]; bperm)
  refine trix_load lib hcp hp.rs ?_ fun rs => ?_ <;> dsimp only
  · exact trix_end (by simp only [varsR]; bperm)
  refine trix_load lib hcp hp.pc ?_ fun pc => ?_ <;> dsimp only
  · exact trix_end (by simp only [varsR]; bperm)
  refine trix_load lib hcp hp.ps ?_ fun st => ?_ <;> dsimp only
  · exact trix_end (by simp only [varsR]; bperm)
  refine trix_load lib hcp hp.add ?_ fun add => ?_ <;> dsimp only
  · exact trix_end (by simp only [varsR]; bperm)
  refine TriX.bind (TriX.frame (trix_issue lib h ho hcp _ _ _ _ _) (by simp)) fun out X hX => ?_
  rcases out with _ | out <;> dsimp only
  · refine Tri.bindX (Tri.con (M := [X]) (Con.masaEnd _) (by simp only [varsR]; bperm)) fun _ => ?_
    rcases hX with rfl | ⟨_, d, l, rfl⟩
    · exact TriX.pure [] (.inl rfl) (by simp)
    · exact TriX.pure (memR d ++ arrR l) (.inr ⟨rfl, d, l, rfl⟩) (by simp)
  obtain rfl : X = [] := by
    rcases hX with h | ⟨hv, _⟩
    · exact h
    · cases hv
  refine Tri.bindX Tri.mk fun text => ?_
  rcases text with _ | text <;> dsimp only [one, List.nil_append, List.cons_append]
  · exact trix_end (by simp only [varsR]; bperm)
  · refine Tri.bindX (Tri.con0 Con.drop) fun _ => ?_
    exact trix_end (by simp only [varsR]; bperm)

end Brski.Res
