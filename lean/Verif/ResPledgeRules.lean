import Verif.ResPledge
import Verif.ResReqRules3

/-!
# Ownership in the pledge: rules
-/

namespace Brski.Res
open Outcome

theorem Con.requestEnd {n c k : Option Bin} {l : Option ArrList} :
    Con (Res.requestEnd n c k l) (binR n ++ (binR c ++ (binR k ++ arrR l))) :=
  Con.seq Con.freeBinO (Con.seq Con.freeBinO (Con.seq Con.freeBinO Con.freeArrO))

theorem Con.checkEnd {n : Option Bin} {c s : Option ArrList} :
    Con (Res.checkEnd n c s) (binR n ++ (arrR c ++ arrR s)) :=
  Con.seq Con.freeBinO (Con.seq Con.freeArrO Con.freeArrO)

theorem Con.signEnd {c k p : Option Id} : Con (Res.signEnd c k p) (memR c ++ (memR k ++ memR p)) :=
  Con.seq Con.memO (Con.seq Con.memO Con.memO)

/-- A list that can be loaded, or none for lack of memory (/repo/src/brski/pledge/pledge_utils.c:78-82). -/
theorem tri_loadG {β : Type} {B : List Ref} {L : List (List Ref)} (lib : Lib) (hcp : ∀ k, lib.copy k = true)
    {o : Option (List Entry)} (ho : Loadable o) {f : Bool × Option ArrList → Prog β} {Q : β → List (List Ref)}
    (h0 : Tri B L (f (false, none)) Q) (h1 : ∀ l, Tri B (arrR l :: L) (f (true, l)) Q) :
    Tri B L (loadCerts lib o >>= f) Q := by
  refine Tri.bindF (tri_loadCerts lib hcp o) (loadCerts_good lib o ho) fun r hr => ?_
  obtain ⟨_ | _, l⟩ := r
  · cases hr rfl
    exact Tri.perm (by simp [loadR]) h0
  · exact h1 l

theorem tri_requestFiles (lib : Lib) (h : lib.Good) (hcp : ∀ k, lib.copy k = true) (add : Option (List Entry))
    (ha : Loadable add) (nonce : Option Bin) :
    Tri [] [binR nonce] (requestFiles lib add nonce) fun b => [binR b] := by
  unfold requestFiles
  refine Tri.bind (Tri.binX tri_fileToCert) fun cert => ?_
  rcases cert with _ | cert <;> dsimp only
  · exact Tri.conP (M := []) Con.requestEnd (by bperm) fun _ => Tri.pure (by simp [binR])
  refine Tri.bind (Tri.binX tri_fileToKey) fun key => ?_
  rcases key with _ | key <;> dsimp only
  · exact Tri.conP (M := []) Con.requestEnd (by bperm) fun _ => Tri.pure (by simp [binR])
  refine tri_loadG lib hcp ha ?_ fun l => ?_ <;> dsimp only
  · exact Tri.conP (M := []) Con.requestEnd (by bperm) fun _ => Tri.pure (by simp [binR])
  refine Tri.bind (Tri.call (tri_signPledge lib h _ _) (by simp)) fun cms => ?_
  rcases cms with _ | cms <;> dsimp only [List.cons_append, List.nil_append]
  · exact Tri.conP (M := []) Con.requestEnd (by bperm) fun _ => Tri.pure (by simp [binR])
  · exact Tri.conP (M := [binR (some cms)]) Con.requestEnd (by bperm) fun _ => Tri.ret rfl

/-- A nonce without bad padding (/repo/src/brski/pledge/pledge_utils.c:53-60). -/
def NonceOk (n : Option Body) : Prop := n ≠ some .padding

theorem tri_requestArray (lib : Lib) (h : lib.Good) (hcp : ∀ k, lib.copy k = true) (created : Bool) (nonce : Option Body)
    (hn : NonceOk nonce) (add : Option (List Entry)) (ha : Loadable add) :
    Tri [] [] (requestArray lib created nonce add) fun b => [binR b] := by
  rcases created with _ | _
  · exact Tri.pure (by simp [binR])
  unfold requestArray
  rcases nonce with _ | b <;> dsimp only
  · exact Tri.perm (M := [binR none]) (by simp [binR]) (tri_requestFiles lib h hcp add ha none)
  tstep
  · exact Tri.pure (by simp [binR])
  rename_i hd
  refine Tri.bind (tri_decode b fun e => hn (by rw [e])) fun r => ?_
  obtain ⟨_ | _, a⟩ := r <;> dsimp only
  · exact Tri.conP (M := []) Con.freeBin (by cases a <;> rperm) fun _ => Tri.pure (by simp [binR])
  · exact Tri.perm (M := [binR (some ⟨hd, a⟩)]) (by cases a <;> rperm) (tri_requestFiles lib h hcp add ha _)

theorem tri_requestFile (lib : Lib) (h : lib.Good) (hcp : ∀ k, lib.copy k = true) (created : Bool) (nonce : Option Body)
    (hn : NonceOk nonce) (add : Option (List Entry)) (ha : Loadable add) :
    Tri [] [] (requestFile lib created nonce add) fun _ => [] := by
  unfold requestFile
  refine Tri.bind (tri_requestArray lib h hcp created nonce hn add ha) fun o => ?_
  rcases o with _ | cms <;> dsimp only
  · exact Tri.pure (by simp [binR])
  refine Tri.bind (Tri.call tri_cmsToFile (by simp)) fun b => ?_
  cases b <;> dsimp only [List.nil_append] <;>
    exact Tri.bind (Tri.con0 Con.freeBin) fun _ => Tri.ret rfl

theorem tri_requestText (lib : Lib) (h : lib.Good) (hcp : ∀ k, lib.copy k = true) (created : Bool) (nonce : Option Body)
    (hn : NonceOk nonce) (add : Option (List Entry)) (ha : Loadable add) :
    Tri [] [] (requestText lib created nonce add) fun o => [memR o] := by
  unfold requestText
  refine Tri.bind (tri_requestArray lib h hcp created nonce hn add ha) fun o => ?_
  rcases o with _ | cms <;> dsimp only
  · exact Tri.pure (by simp [binR, memR, one])
  refine Tri.bind Tri.mk fun t => ?_
  rcases t with _ | t <;> dsimp only [one, List.cons_append, List.nil_append]
  · exact Tri.bind (Tri.con0 Con.freeBin) fun _ => Tri.pure (by simp [memR, one])
  · exact Tri.bind (Tri.con1 Con.freeBin) fun _ => Tri.pure (by simp [memR, one])

/-! ## The check of the voucher -/

/-- `verify_masa_pledge_voucher` when the signers' certificates are not asked for
(/repo/src/brski/pledge/pledge_request.cpp:71-73): it may lose the copy of the pinned certificate. -/
theorem trix_acceptF (lib : Lib) (h : lib.Good) (hcp : ∀ k, lib.copy k = true) (certs : Option Nat)
    (store dom : Option (List Int)) :
    TriX [] [] (accept lib certs store dom false) (fun r => [memR r.pin]) lostAccept := by
  unfold accept
  refine Tri.bindX (tri_verifyV lib h certs store) fun r => ?_
  obtain ⟨_ | v, l⟩ := r <;> dsimp only [one]
  · exact TriX.pure [] (.inl rfl) (by simp [memR, one])
  refine Tri.bindX (tri_setAttrs (by simp) _) fun b => ?_
  cases b <;> dsimp only
  · refine Tri.toX ?_ fun _ => .inl rfl
    tstep; exact Tri.pure (by simp [memR, one])
  refine Tri.bindX Tri.mk fun o => ?_
  rcases o with _ | cp <;> dsimp only [one, List.nil_append, List.cons_append]
  · refine Tri.toX ?_ fun _ => .inl rfl
    tstep; exact Tri.pure (by simp [memR, one])
  refine Tri.bindX (R := fun o => arrR o :: [[(.mem, cp)], [(.mem, v)]]) (Tri.bind Tri.mk fun o => ?_) fun o => ?_
  · cases o
    · exact Tri.pure (by simp [one, arrR, arrO])
    · exact Tri.pure (by simp [one, arrR, arrO, arrRefs, arrEls])
  refine Tri.bindX (tri_pushArrO lib hcp o cp (by simp)) fun o' => ?_
  rcases o' with _ | li <;> dsimp only [pushed]
  · refine Tri.bindX (Tri.con0 Con.freeArrO) fun _ => ?_
    refine Tri.bindX (Tri.con1 Con.drop) fun _ => ?_
    exact TriX.pure (memR (some cp)) (.inr ⟨rfl, some cp, rfl⟩) (by simp [memR, one])
  refine Tri.toX ?_ fun _ => .inl rfl
  tstep
  refine Tri.bind (Tri.call (tri_verifyCert lib h _ dom) (by simp)) fun b => ?_
  cases b <;> dsimp only [List.nil_append]
  · tstep; tstep; exact Tri.pure (by simp [memR, one])
  tstep; tstep
  · tstep; exact Tri.pure (by simp [memR, one])
  · tstep; exact Tri.pure (by simp [memR, one])

/-- What the check of a voucher may lose, when it fails (/repo/src/voucher/request.c:547-553). -/
def lostCheck (r : Bool × Option Id) (X : List Ref) : Prop := X = [] ∨ r.1 = false ∧ ∃ d, X = memR d

theorem trix_checkFiles (lib : Lib) (h : lib.Good) (hcp : ∀ k, lib.copy k = true) (certs store : Option (List Entry))
    (hc : Loadable certs) (hs : Loadable store) (nonce : Option Bin) :
    TriX [] [binR nonce] (checkFiles lib certs store nonce) (fun r => [memR r.2]) lostCheck := by
  unfold checkFiles
  refine trix_load lib hcp hc ?_ fun cs => ?_ <;> dsimp only
  · refine Tri.toX ?_ fun _ => .inl rfl
    exact Tri.conP (M := []) Con.checkEnd (by bperm) fun _ => Tri.pure (by simp [memR, one])
  refine trix_load lib hcp hs ?_ fun st => ?_ <;> dsimp only
  · refine Tri.toX ?_ fun _ => .inl rfl
    exact Tri.conP (M := []) Con.checkEnd (by bperm) fun _ => Tri.pure (by simp [memR, one])
  refine TriX.bind (TriX.frame (trix_acceptF lib h hcp _ _ none) (by simp)) fun r X hX => ?_
  obtain ⟨_ | _, l, pin⟩ := r <;> dsimp only [List.cons_append, List.nil_append]
  · refine Tri.bindX (Tri.con (M := [memR pin, X]) Con.checkEnd (by bperm)) fun _ => ?_
    refine TriX.pure X ?_ (by simp)
    rcases hX with rfl | ⟨_, d, rfl⟩
    · exact .inl rfl
    · exact .inr ⟨rfl, d, rfl⟩
  · refine Tri.bindX (Tri.con (M := [memR pin, X]) Con.checkEnd (by bperm)) fun _ => ?_
    refine TriX.pure X ?_ (by simp)
    rcases hX with rfl | ⟨e, _⟩
    · exact .inl rfl
    · cases e

/-- A nonce that can be decoded, if there is one (/repo/src/brski/pledge/pledge_request.cpp:45-58). -/
def NonceGood (n : Option Body) : Prop := ∀ b, n = some b → b = .data

theorem trix_checkAnswer (lib : Lib) (h : lib.Good) (hcp : ∀ k, lib.copy k = true) (nonce : Option Body)
    (hn : NonceGood nonce) (certs store : Option (List Entry)) (hc : Loadable certs) (hs : Loadable store) :
    TriX [] [] (checkAnswer lib nonce certs store) (fun r => [memR r.2]) lostCheck := by
  unfold checkAnswer
  rcases nonce with _ | b <;> dsimp only
  · exact TriX.perm (M := [binR none]) (by simp [binR]) (trix_checkFiles lib h hcp certs store hc hs none)
  cases hn b rfl
  refine Tri.bindX Tri.mk fun o => ?_
  rcases o with _ | hd <;> dsimp only [one, List.nil_append, List.cons_append]
  · refine Tri.toX ?_ fun _ => .inl rfl
    exact Tri.conP (M := []) Con.checkEnd (by bperm) fun _ => Tri.pure (by simp [memR, one])
  refine Tri.bindFX (F := fun r => r.1 = true) (tri_decode .data (by simp)) ?_ fun r hr => ?_
  · intro s r s' e
    obtain ⟨_, _, _, e⟩ := bind_inv e
    cases e; rfl
  obtain ⟨_ | _, a⟩ := r
  · cases hr
  · dsimp only
    exact TriX.perm (M := [binR (some ⟨hd, a⟩)]) (by cases a <;> rperm) (trix_checkFiles lib h hcp certs store hc hs _)

/-! ## Connections -/

/-- What a connection leaves to its caller (/repo/src/brski/http/httplib_wrapper.cpp:253). -/
def postR : Option (Int × Option Id) → List Ref
  | none => []
  | some (_, peer) => (one .x509 peer).flatten

theorem tri_post {B : List Ref} {L : List (List Ref)} : Tri B L post fun r => postR r :: L := by
  unfold post
  refine Tri.bind Tri.draw fun r => ?_
  split
  · exact Tri.pure (by simp [postR])
  · refine Tri.bind Tri.mk fun o => Tri.pure ?_
    cases o <;> simp [postR, one]

theorem Con.x509O {o : Option Id} : Con (Res.dropO .x509 o) (one .x509 o).flatten := by
  cases o
  · exact Con.nil
  · exact Con.drop

theorem tri_peerBuf {B : List Ref} {L : List (List Ref)} (peer : Option Id) :
    Tri B ((one .x509 peer).flatten :: L) (peerBuf peer) fun b => binR b :: L := by
  unfold peerBuf
  refine Tri.bind (R := fun b => binR b :: (one .x509 peer).flatten :: L) ?_ fun b => ?_
  · rcases peer with _ | x
    · exact Tri.pure (by simp [binR])
    · exact Tri.post (Tri.call (tri_certToBuf x) (by simp [one])) fun b => by simp [binRefs_flat]
  · rcases b with _ | b <;> dsimp only <;> exact Tri.bind (Tri.con1 Con.x509O) fun _ => Tri.ret rfl

/-- An onboarding without the defects of decoder and loader (/repo/src/voucher/serialize.c:243-245,
/repo/src/brski/config.c:694-697, /repo/src/brski/pledge/pledge_request.cpp:55). -/
structure Plan.Ok (p : Plan) : Prop where
  nonce1 : NonceOk p.nonce1
  nonce2 : NonceGood p.nonce2
  add : Loadable p.add
  certs : Loadable p.certs
  store : Loadable p.store
  answer : p.answer ≠ .padding

theorem trix_answered (lib : Lib) (h : lib.Good) (hcp : ∀ k, lib.copy k = true) (p : Plan) (hp : p.Ok) (cert : Bin) :
    TriX [] [binR (some cert)] (answered lib p cert) (fun r => [memR r.2]) lostCheck := by
  unfold answered
  refine Tri.bindX (tri_decode p.answer hp.answer) fun d => ?_
  obtain ⟨_, a⟩ := d
  dsimp only
  refine TriX.bind (TriX.frame (trix_checkAnswer lib h hcp p.nonce2 hp.nonce2 p.certs p.store hp.certs hp.store) (by simp))
    fun r X hX => ?_
  obtain ⟨_ | _, pin⟩ := r <;> dsimp only [List.cons_append, List.nil_append]
  · refine Tri.bindX (Tri.con1 Con.memO) fun _ => Tri.bindX (Tri.con1 Con.freeBin) fun _ => ?_
    exact TriX.pure X hX (by simp)
  · refine Tri.bindX (Tri.con1 Con.memO) fun _ => Tri.bindX (Tri.con1 Con.freeBin) fun _ => ?_
    exact TriX.pure X hX (by simp)

theorem trix_askVoucher (lib : Lib) (h : lib.Good) (hcp : ∀ k, lib.copy k = true) (p : Plan) (hp : p.Ok) :
    TriX [] [] (askVoucher lib p) (fun r => [memR r.2]) lostCheck := by
  unfold askVoucher
  have hf : TriX [] [] (Pure.pure (false, none)) (fun r : Bool × Option Id => [memR r.2]) lostCheck :=
    TriX.pure [] (.inl rfl) (by simp [memR, one])
  refine Tri.bindX Tri.yes fun b => ?_
  cases b <;> dsimp only
  · exact hf
  refine Tri.bindX tri_post fun o => ?_
  rcases o with _ | ⟨status, peer⟩ <;> dsimp only [postR]
  · exact TriX.perm (by simp) hf
  refine Tri.bindX (tri_peerBuf peer) fun o => ?_
  rcases o with _ | cert <;> dsimp only
  · exact TriX.perm (by simp [binR]) hf
  refine Tri.bindX (Tri.call (tri_requestText lib h hcp p.created p.nonce1 hp.nonce1 p.add hp.add) (by simp)) fun o => ?_
  dsimp only [List.cons_append, List.nil_append]
  refine Tri.bindX (Tri.con1 Con.freeBin) fun _ => ?_
  rcases o with _ | text <;> dsimp only
  · exact TriX.perm (by simp [memR, one]) hf
  refine Tri.bindX (Tri.con (M := []) Con.drop (by simp [memR, one])) fun _ => ?_
  refine Tri.bindX tri_post fun o => ?_
  rcases o with _ | ⟨status, peer⟩ <;> dsimp only [postR]
  · exact TriX.perm (by simp) hf
  split
  · exact Tri.bindX (Tri.con0 Con.x509O) fun _ => hf
  refine Tri.bindX (tri_peerBuf peer) fun o => ?_
  rcases o with _ | cert <;> dsimp only
  · exact TriX.perm (by simp [binR]) hf
  · exact trix_answered lib h hcp p hp cert

/-! ## Key and certificate -/

theorem tri_pushes (lib : Lib) (h : ∀ k, lib.dup k = true) {B : List Ref} {L : List (List Ref)} :
    ∀ n l, Tri B (kvRefs l :: L) (pushes lib l n) fun r => kvRefs r.2 :: L := by
  intro n
  induction n with
  | zero => intro l; exact Tri.ret rfl
  | succ n ih =>
    intro l
    unfold pushes pushKv
    refine Tri.bind (R := fun o => match o with
      | none => kvRefs l :: L
      | some l' => kvRefs l' :: L) ?_ fun o => ?_
    · tstep
      · exact Tri.ret rfl
      · rw [h]; dsimp only
        refine Tri.bind Tri.fresh fun k => Tri.bind Tri.fresh fun v => Tri.pure ?_
        refine List.perm_iff_count.2 fun a => ?_
        simp only [List.flatten_cons, kvRefs_append, kvRefs, List.count_append, List.cons_append, List.nil_append,
          List.count_cons, List.count_nil]
        omega
    · rcases o with _ | l' <;> dsimp only
      · exact Tri.ret rfl
      · exact ih l'

/-- What key and certificate hold (/repo/src/brski/pledge/pledge_request.cpp:272-284). -/
def pairR : Option (Option Id × Option Id) → List Ref
  | none => []
  | some (c, k) => memR c ++ memR k

theorem tri_makeKeyCert (lib : Lib) (h : lib.Good) : Tri [] [] (makeKeyCert lib) fun r => [pairR r] := by
  unfold makeKeyCert
  tstep
  · exact Tri.pure (by simp [pairR])
  tstep
  · exact Tri.pure (by simp [pairR])
  rename_i issuer
  tstep
  · exact Tri.conP (M := []) Con.freeKv (by simp [kvRefs]) fun _ => Tri.pure (by simp [pairR])
  rename_i subject
  refine Tri.perm (M := [kvRefs [], [(.mem, subject)], [(.mem, issuer)]]) (by simp [kvRefs]) ?_
  refine Tri.bind (tri_pushes lib h.dup 3 []) fun r => ?_
  obtain ⟨_ | _, l⟩ := r <;> dsimp only
  · refine Tri.conP (M := [kvRefs l, [(.mem, subject)]]) Con.freeKv ?_ fun _ => ?_
    · simp only [kvRefs]; bperm
    · exact Tri.conP (M := []) Con.freeKv (by bperm) fun _ => Tri.pure (by simp [pairR])
  refine Tri.bind (Tri.call (tri_genEcKey lib h.nonneg) (by simp)) fun key => ?_
  refine Tri.bind (Tri.call (tri_genCert lib h.pub (some signMeta) key.isSome) (by simp)) fun cert => ?_
  refine Tri.conP (M := one .mem cert ++ one .mem key ++ [kvRefs l, [(.mem, subject)]]) Con.freeKv ?_ fun _ => ?_
  · simp only [kvRefs]; bperm
  refine Tri.conP (M := one .mem cert ++ one .mem key) Con.freeKv (by bperm) fun _ => Tri.pure ?_
  simp [pairR, memR]

theorem tri_encodeOwn {B : List Ref} {L : List (List Ref)} (c : Option Id)
    (hc : ∀ i, c = some i → (Kind.mem, i) ∈ L.flatten) : Tri B L (encodeOwn c) fun _ => L := by
  unfold encodeOwn
  rcases c with _ | c <;> dsimp only
  · exact Tri.ret rfl
  refine Tri.bind (Tri.use (.inr (hc c rfl))) fun _ => ?_
  tstep
  · exact Tri.ret rfl
  · tsteps

/-- What an onboarding may lose when it fails (/repo/src/voucher/request.c:547-553). -/
def lostOnboard (r : Option (Option Id × Option Id)) (X : List Ref) : Prop := X = [] ∨ r = none ∧ ∃ d, X = memR d

theorem trix_onboard (lib : Lib) (h : lib.Good) (hcp : ∀ k, lib.copy k = true) (p : Plan) (hp : p.Ok)
    (he : p.enrolled ≠ .padding) : TriX [] [] (onboard lib p) (fun r => [pairR r]) lostOnboard := by
  unfold onboard
  refine Tri.bindX (tri_makeKeyCert lib h) fun o => ?_
  rcases o with _ | ⟨cert, key⟩ <;> dsimp only
  · exact TriX.pure [] (.inl rfl) (by simp)
  refine TriX.bind (TriX.frame (trix_askVoucher lib h hcp p hp) (by simp)) fun r X hX => ?_
  obtain ⟨_ | _, pin⟩ := r <;> dsimp only [List.cons_append, List.nil_append, pairR]
  · refine Tri.bindX (Tri.con (M := [X]) Con.signEnd (by bperm)) fun _ => ?_
    refine TriX.pure X ?_ (by simp)
    rcases hX with rfl | ⟨_, d, rfl⟩
    · exact .inl rfl
    · exact .inr ⟨rfl, d, rfl⟩
  obtain rfl : X = [] := by
    rcases hX with h | ⟨e, _⟩
    · exact h
    · cases e
  refine Tri.toX ?_ fun _ => .inl rfl
  refine Tri.perm (M := [memR cert, memR key, memR pin]) (by bperm) ?_
  have hin : ∀ (c : Option Id) i, c = some i → (Kind.mem, i) ∈ memR c := by
    rintro _ i rfl; simp [memR, one]
  have hfail : Tri [] [memR cert, memR key, memR pin] (signEnd cert key pin >>= fun _ => Pure.pure none)
      fun r => [pairR r] :=
    Tri.conP (M := []) Con.signEnd (by bperm) fun _ => Tri.pure (by simp [pairR])
  refine Tri.bind (tri_encodeOwn pin fun i e => by simp [hin pin i e]) fun b => ?_
  cases b <;> dsimp only
  · exact hfail
  refine Tri.bind (tri_encodeOwn cert fun i e => by simp [hin cert i e]) fun b => ?_
  cases b <;> dsimp only
  · exact hfail
  refine Tri.bind Tri.draw fun status => ?_
  split
  · exact hfail
  refine Tri.bind (Tri.con0 Con.memO) fun _ => ?_
  refine Tri.bind (tri_decode p.enrolled he) fun r => ?_
  obtain ⟨_ | _, c⟩ := r <;> dsimp only
  · exact Tri.conP (M := []) Con.signEnd (by bperm) fun _ => Tri.pure (by simp)
  · refine Tri.conP (M := [memR c, memR key]) Con.memO (by bperm) fun _ => Tri.pure ?_
    simp

end Brski.Res
