import Verif.ResReqRules2

/-!
# Ownership in the servers' handlers: sequences of requests and the registrar
-/

namespace Brski.Res
open Outcome

theorem masaRequest_expired (lib : Lib) (ps : Paths) (ca : Option Bin) (body : Body) : ∀ s r s',
    masaRequest lib false ps ca body s = .ok (r, s') → r.2 = ca := by
  intro s r s' h
  unfold masaRequest at h
  obtain ⟨_, _, _, h⟩ := bind_inv h
  cases h; rfl

/-- What a MASA may lose while serving: for each refused request the text and the signers' certificates
(/repo/src/voucher/request.c:270-273). -/
def lostServe (codes : List Int) (X : List Ref) : Prop :=
  ∃ parts : List (Option Id × Option ArrList), parts.length ≤ codes.count 400 ∧
    X.Perm (parts.flatMap fun q => memR q.1 ++ arrR q.2)

theorem trix_masaServe (lib : Lib) (h : lib.Good) (ho : lib.signersOwned = true) (hcp : ∀ k, lib.copy k = true)
    (expiry : Bool) (ps : Paths) (hp : ps.Ok) : ∀ (bodies : List Body) (ca : Option Bin),
    (expiry = false → ca = none) → (∀ b ∈ bodies, b ≠ .padding) →
    TriX [] [] (masaServe lib expiry ps ca bodies) (fun _ => []) lostServe := by
  intro bodies
  induction bodies with
  | nil => intro ca _ _; exact TriX.pure [] ⟨[], by simp, by simp⟩ (by simp)
  | cons b bs ih =>
    intro ca hca hb
    unfold masaServe
    intro s0 s hl hos
    obtain ⟨r, s1, X, e1, hX, o1⟩ := trix_masaRequest lib h ho hcp expiry ps hp ca hca b (hb b (by simp)) s0 s hl hos
    have hr : expiry = false → r.2 = none := fun e => by
      subst e
      rw [masaRequest_expired lib ps ca b _ _ _ e1, hca rfl]
    obtain ⟨cs, s2, Y, e2, ⟨parts, hn, hY⟩, o2⟩ := TriX.frame (F := [X]) (B := []) (ih r.2 hr fun b h => hb b (by simp [h]))
      (by simp) s0 s1 (fun _ h => by cases h) (by simpa using o1)
    refine ⟨r.1 :: cs, s2, X ++ Y, ?_, ?_, by simpa using o2⟩
    · rw [bind_run, e1]
      show (masaServe lib expiry ps r.2 bs >>= fun rest => Pure.pure (r.1 :: rest)) s1 = _
      rw [bind_run, e2]; rfl
    · rcases hX with rfl | ⟨hc, d, l, rfl⟩
      · exact ⟨parts, by simp only [List.count_cons]; omega, by simpa using hY⟩
      · exact ⟨(d, l) :: parts, by simp [hc]; omega, by
          simpa using (hY.append_left (arrR l)).append_left (memR d)⟩

/-! ## The registrar -/

theorem Con.freeKvEls (l : List (Id × Id × Id)) : Con (Res.freeKvEls l) (kvRefs l) := by
  induction l with
  | nil => exact Con.nil
  | cons a l ih =>
    obtain ⟨el, k, v⟩ := a
    exact Con.seq (X := [(.mem, k)]) Con.drop (Con.seq (X := [(.mem, v)]) Con.drop (Con.seq (X := [(.mem, el)]) Con.drop ih))

theorem Con.freeKv {hd : Id} {l : List (Id × Id × Id)} : Con (Res.freeKv hd l) (kvRefs l ++ [(.mem, hd)]) :=
  Con.seq (Con.freeKvEls l) Con.drop

/-- Allocations whose failure is not handled succeed
(/repo/src/brski/registrar/registrar_api.cpp:33-61,152-164,191). -/
structure Mem.Good (m : Mem) : Prop where
  bare : m.bare = true
  kv : ∀ k, m.kv k = true

theorem tri_initKv {β : Type} {B : List Ref} {L : List (List Ref)} {Q : β → List (List Ref)} (m : Mem) (h : m.Good) (k : Nat)
    {f : Option Id → Prog β} (hf : ∀ i, Tri B ([(.mem, i)] :: L) (f (some i)) Q) : Tri B L (initKv m k >>= f) Q := by
  unfold initKv
  rw [h.kv]; dsimp only
  intro s0 s hb ho
  obtain ⟨i, s1, e, o⟩ := Tri.fresh (k := .mem) s0 s hb ho
  obtain ⟨b, s2, e2, o2⟩ := hf i s0 s1 hb o
  refine ⟨b, s2, ?_, o2⟩
  show ((fresh .mem s).bind fun r => Outcome.ok (some r.1, r.2)).bind (fun r => f r.1 r.2) = _
  rw [e]; exact e2

/-- The newest block is released (/repo/src/brski/registrar/registrar_api.cpp:135-304). -/
macro "tpop" : tactic => `(tactic| first
  | exact Tri.ret rfl
  | with_reducible refine Tri.bind (Tri.con0 Con.freeBin) fun _ => ?_
  | with_reducible refine Tri.bind (Tri.con0 Con.freeArrO) fun _ => ?_
  | with_reducible refine Tri.bind (Tri.con0 Con.freeKv) fun _ => ?_)

/-- Everything is released (/repo/src/brski/registrar/registrar_api.cpp:135-304). -/
macro "tpops" : tactic => `(tactic| repeat' tpop)

theorem tri_postRequest {B : List Ref} {L : List (List Ref)} : Tri B L postRequest fun _ => L := by
  unfold postRequest
  tstep
  · exact Tri.ret rfl
  tstep
  refine Tri.bind Tri.draw fun r => ?_
  split
  · exact Tri.ret rfl
  refine Tri.bind Tri.mk fun o => ?_
  cases o <;> dsimp only [one, List.nil_append, List.cons_append] <;> tstep <;> split <;> exact Tri.ret rfl

theorem tri_load {β : Type} {B : List Ref} {L : List (List Ref)} (lib : Lib) (hcp : ∀ k, lib.copy k = true)
    {o : Option (List Entry)} {f : Bool × Option ArrList → Prog β} {Q : β → List (List Ref)}
    (h0 : ∀ l, Tri B L (f (false, l)) Q) (h1 : ∀ l, Tri B (arrR l :: L) (f (true, l)) Q) :
    Tri B L (loadCerts lib o >>= f) Q := by
  refine Tri.bind (tri_loadCerts lib hcp o) fun r => ?_
  obtain ⟨_ | _, l⟩ := r
  · exact Tri.perm (by simp [loadR]) (h0 l)
  · exact h1 l

theorem Tri.skip {α : Type} {B : List Ref} {L : List (List Ref)} {p : Prog α} {Q : α → List (List Ref)}
    (h : Tri B L p Q) : Tri B (binR none :: L) p Q := Tri.perm (by rw [binR_none, List.flatten_cons, List.nil_append]) h

theorem tri_registrarRequest (lib : Lib) (h : lib.Good) (hcp : ∀ k, lib.copy k = true) (m : Mem) (hm : m.Good) (x : Id)
    (pc ps add : Option (List Entry)) (body : Body) (hb : body ≠ .padding) :
    Tri [(.x509, x)] [] (registrarRequest lib m x pc ps add body) fun _ => [] := by
  unfold registrarRequest
  refine tri_initKv m hm 0 fun mi => tri_initKv m hm 1 fun ms => ?_
  dsimp only
  refine Tri.bind (Tri.call (tri_certMeta lib h.dup x) (by simp)) fun mt => ?_
  obtain ⟨ok, li, ls⟩ := mt
  dsimp only [List.cons_append, List.nil_append]
  refine Tri.perm (M := [kvRefs li ++ [(.mem, mi)], kvRefs ls ++ [(.mem, ms)]]) (by bperm) ?_
  cases ok <;> dsimp only
  · tpops
  tstep
  · tpops
  refine Tri.bind (Tri.post (Tri.call (tri_certIssuer x) (by simp))
    (Q := fun b => binR b :: [kvRefs li ++ [(.mem, mi)], kvRefs ls ++ [(.mem, ms)]]) fun b => ?_) fun iss => ?_
  · simp [binRefs_flat]
  rcases iss with _ | iss <;> dsimp only
  · exact Tri.perm (M := [kvRefs li ++ [(.mem, mi)], kvRefs ls ++ [(.mem, ms)]]) (by simp [binR_none]) (by tpops)
  rw [hm.bare]; dsimp only
  refine Tri.bind Tri.fresh fun hd => ?_
  refine Tri.bind (tri_decode body hb) fun r => ?_
  obtain ⟨_, b⟩ := r
  dsimp only
  refine Tri.perm (M := [binR (some ⟨hd, b⟩), binR (some iss), kvRefs li ++ [(.mem, mi)], kvRefs ls ++ [(.mem, ms)]])
    (by simp [binR, memR]) ?_
  tstep
  · tpops
  refine Tri.bind (Tri.binX tri_fileToCert) fun tls => ?_
  rcases tls with _ | tls <;> dsimp only
  · refine Tri.skip ?_
    tpops
  refine Tri.bind (Tri.binX tri_fileToCert) fun cert => ?_
  rcases cert with _ | cert <;> dsimp only
  · refine Tri.skip ?_
    tpops
  refine Tri.bind (Tri.binX tri_fileToKey) fun key => ?_
  rcases key with _ | key <;> dsimp only
  · refine Tri.skip ?_
    tpops
  refine tri_load lib hcp (fun _ => ?_) fun pc => ?_ <;> dsimp only
  · tpops
  refine tri_load lib hcp (fun _ => ?_) fun ps => ?_ <;> dsimp only
  · tpops
  refine tri_load lib hcp (fun _ => ?_) fun add => ?_ <;> dsimp only
  · tpops
  refine Tri.bind (Tri.call (tri_signRequest lib h _ _ _) (by simp)) fun cms => ?_
  rcases cms with _ | cms <;> dsimp only [List.cons_append, List.nil_append]
  · refine Tri.skip ?_
    tpops
  refine Tri.bind tri_postRequest fun r => ?_
  tpops

theorem tri_saveLog (lib : Lib) (h : lib.Good) (m : Mem) (hm : m.Good) (ix lx : Id) :
    Tri [(.x509, ix), (.x509, lx)] [] (saveLog lib m ix lx) fun _ => [] := by
  unfold saveLog
  refine tri_initKv m hm 0 fun mi => tri_initKv m hm 1 fun ms => ?_
  dsimp only
  refine Tri.bind (Tri.call (tri_certMeta lib h.dup ix) (by simp)) fun mt => ?_
  obtain ⟨ok, li, ls⟩ := mt
  dsimp only [List.cons_append, List.nil_append]
  refine Tri.perm (M := [kvRefs li ++ [(.mem, mi)], kvRefs ls ++ [(.mem, ms)]]) (by bperm) ?_
  cases ok <;> dsimp only
  · exact Tri.bind (Tri.con0 Con.freeKv) fun _ => Tri.con0 Con.freeKv
  refine tri_initKv m hm 2 fun mi' => tri_initKv m hm 3 fun ms' => ?_
  dsimp only
  refine Tri.bind (Tri.call (tri_certMeta lib h.dup lx) (by simp)) fun mt => ?_
  obtain ⟨ok', li', ls'⟩ := mt
  dsimp only [List.cons_append, List.nil_append]
  refine Tri.perm (M := [kvRefs li ++ [(.mem, mi)], kvRefs ls ++ [(.mem, ms)], kvRefs li' ++ [(.mem, mi')],
    kvRefs ls' ++ [(.mem, ms')]]) (by bperm) ?_
  cases ok' <;> dsimp only
  · tpop; tpop; tpop; exact Tri.con0 Con.freeKv
  refine Tri.bind Tri.mk fun f => ?_
  rcases f with _ | f <;> dsimp only [one, List.cons_append, List.nil_append]
  · tpop; tpop; tpop; exact Tri.con0 Con.freeKv
  · refine Tri.bind (Tri.use (k := .file) (i := f) (by simp)) fun _ => Tri.bind (Tri.con0 Con.drop) fun _ => ?_
    tpop; tpop; tpop; exact Tri.con0 Con.freeKv

theorem Con.enrollEnd {c : Option Id} {cert key : Option Bin} :
    Con (Res.enrollEnd c cert key) (memR c ++ (binR cert ++ binR key)) :=
  Con.seq Con.memO (Con.seq Con.freeBinO Con.freeBinO)

theorem tri_enroll (lib : Lib) (h : lib.Good) (m : Mem) (hm : m.Good) (x : Id) (body : Body) (hb : body ≠ .padding) :
    Tri [(.x509, x)] [] (enroll lib m x body) fun _ => [] := by
  unfold enroll
  refine Tri.bindF (P := fun r => r.1 = true → ∃ c, r.2 = some c) (tri_decode body hb) ?_ fun r hr => ?_
  · intro s r s' h e
    cases body
    · obtain ⟨a, _, _, h⟩ := bind_inv h
      cases h; exact ⟨a, rfl⟩
    · cases h; cases e
    · exact absurd rfl hb
  obtain ⟨_ | _, c⟩ := r <;> dsimp only
  · exact Tri.conP (M := []) Con.enrollEnd (by bperm) fun _ => Tri.ret rfl
  obtain ⟨c, rfl⟩ : ∃ i, c = some i := hr rfl
  refine Tri.bind (Tri.binX tri_fileToCert) fun cert => ?_
  rcases cert with _ | cert <;> dsimp only
  · exact Tri.conP (M := []) Con.enrollEnd (by bperm) fun _ => Tri.ret rfl
  refine Tri.bind (Tri.binX tri_fileToKey) fun key => ?_
  rcases key with _ | key <;> dsimp only
  · exact Tri.conP (M := []) Con.enrollEnd (by bperm) fun _ => Tri.ret rfl
  refine Tri.perm (M := [[(.mem, c)]] ++ [binR (some cert), binR (some key)]) (by rw [memR_some]; bperm) ?_
  refine Tri.bind (Tri.frame (tri_signCert c) (by simp)) fun r => ?_
  obtain ⟨_ | _, c'⟩ := r <;> dsimp only
  · exact Tri.conP (M := []) Con.enrollEnd (by simp [memR]) fun _ => Tri.ret rfl
  refine Tri.perm (M := [memR c', binR (some cert), binR (some key)]) (by cases c' <;> simp [memR, one]) ?_
  refine Tri.bind Tri.mk fun text => ?_
  rcases text with _ | text <;> dsimp only [one, List.cons_append, List.nil_append]
  · exact Tri.conP (M := []) Con.enrollEnd (by simp) fun _ => Tri.ret rfl
  refine Tri.bind Tri.mk fun sx => ?_
  rcases sx with _ | sx <;> dsimp only [one, List.cons_append, List.nil_append]
  · refine Tri.bind (Tri.con0 Con.drop) fun _ => ?_
    exact Tri.conP (M := []) Con.enrollEnd (by simp) fun _ => Tri.ret rfl
  · refine Tri.bind (Tri.call (tri_saveLog lib h m hm x sx) (by simp)) fun _ => ?_
    refine Tri.bind (Tri.con0 Con.drop) fun _ => ?_
    refine Tri.bind (Tri.con0 Con.drop) fun _ => ?_
    exact Tri.conP (M := []) Con.enrollEnd (by simp) fun _ => Tri.ret rfl

end Brski.Res
