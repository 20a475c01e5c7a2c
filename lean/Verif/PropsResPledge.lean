import Verif.PropsResReq
import Verif.ResPledgeRules

/-!
# C94: onboarding leaves nothing behind, whatever fails

`Clean` (C80) for the functions of the pledge, for every pattern of failures of memory, files, library and
network.
-/

namespace Brski.Props
open Brski.Res Outcome

/-- Certificate and key held by the caller of `post_sign_cert`
(/repo/src/brski/pledge/pledge_request.cpp:299-302). -/
def heldPair : Option (Option Id × Option Id) → List Ref
  | none => []
  | some (c, k) => heldOne .mem c ++ heldOne .mem k

/-- The property (/repo/src/brski/pledge/pledge_utils.c:23-156, /repo/src/brski/pledge/pledge_request.cpp:34-374). -/
structure C94_holds (lib : Lib) (p : Plan) : Prop where
  voucher_pledge_request_to_array : Clean [] [] (requestArray lib p.created p.nonce1 p.add) heldBin
  voucher_pledge_request_to_smimefile : Clean [] [] (requestFile lib p.created p.nonce1 p.add) fun _ => []
  voucher_pledge_request_to_base64 : Clean [] [] (requestText lib p.created p.nonce1 p.add) (heldOne .mem)
  verify_masa_pledge_request : Clean [] [] (checkAnswer lib p.nonce2 p.certs p.store) fun r => heldOne .mem r.2
  post_voucher_pledge_request : Clean [] [] (askVoucher lib p) fun r => heldOne .mem r.2
  generate_sign_cert : Clean [] [] (makeKeyCert lib) heldPair
  post_sign_cert : Clean [] [] (onboard lib p) heldPair

/-- The full statement: whatever fails (/repo/src/brski/pledge/pledge_request.cpp:34-374). -/
def C94_statement : Prop := ∀ lib p, C94_holds lib p

theorem held_pairR (r : Option (Option Id × Option Id)) : (pairR r).Perm (heldPair r) := by
  rcases r with _ | ⟨c, k⟩
  · exact .refl _
  · exact (held_memR c).append (held_memR k)

/-- Requests and keys: everything is given back, whatever fails, if nonce and lists can be read. -/
theorem C94_partial_requests (lib : Lib) (h : lib.Good) (hcp : ∀ k, lib.copy k = true) :
    (∀ created nonce add, NonceOk nonce → Loadable add →
      Clean [] [] (requestArray lib created nonce add) heldBin ∧
      Clean [] [] (requestFile lib created nonce add) (fun _ => []) ∧
      Clean [] [] (requestText lib created nonce add) (heldOne .mem)) ∧
    Clean [] [] (makeKeyCert lib) heldPair := by
  refine ⟨fun created nonce add hn ha => ⟨?_, ?_, ?_⟩, clean0 (tri_makeKeyCert lib h) fun r => by simpa using held_pairR r⟩
  · exact clean0 (tri_requestArray lib h hcp created nonce hn add ha) fun b => by simpa using held_binR b
  · exact clean0 (tri_requestFile lib h hcp created nonce hn add ha) fun _ => .refl _
  · exact clean0 (tri_requestText lib h hcp created nonce hn add ha) fun o => by simpa using held_memR o

/-- The whole onboarding, whatever fails and whatever the registrar answers but bad padding: nothing is
touched after its release, and only when it fails one block may be lost. -/
theorem C94_partial (lib : Lib) (h : lib.Good) (hcp : ∀ k, lib.copy k = true) (p : Plan) (hp : p.Ok) :
    CleanBut (checkAnswer lib p.nonce2 p.certs p.store) (fun r => heldOne .mem r.2)
      (fun r X => X = [] ∨ r.1 = false ∧ ∃ d, X = heldOne .mem d) ∧
    CleanBut (askVoucher lib p) (fun r => heldOne .mem r.2)
      (fun r X => X = [] ∨ r.1 = false ∧ ∃ d, X = heldOne .mem d) ∧
    (p.enrolled ≠ .padding → CleanBut (onboard lib p) heldPair
      fun r X => X = [] ∨ r = none ∧ ∃ d, X = heldOne .mem d) := by
  have hm : ∀ d, memR d = heldOne .mem d := fun d => by cases d <;> rfl
  refine ⟨cleanBut_of_trix (trix_checkAnswer lib h hcp p.nonce2 hp.nonce2 p.certs p.store hp.certs hp.store)
      (fun r => by simpa using held_memR r.2) fun r X hX => ?_,
    cleanBut_of_trix (trix_askVoucher lib h hcp p hp) (fun r => by simpa using held_memR r.2) fun r X hX => ?_,
    fun he => cleanBut_of_trix (trix_onboard lib h hcp p hp he) (fun r => by simpa using held_pairR r) fun r X hX => ?_⟩
  all_goals
    rcases hX with hX | ⟨hr, d, rfl⟩
    · exact .inl hX
    · exact .inr ⟨hr, d, hm d⟩

/-- So a pledge that onboards holds the certificate and the key and nothing else. -/
theorem C94_partial_onboarded (lib : Lib) (h : lib.Good) (hcp : ∀ k, lib.copy k = true) (p : Plan) (hp : p.Ok)
    (he : p.enrolled ≠ .padding) (s s' : St) (hs : SoundSt s) (c k : Option Id)
    (e : onboard lib p s = .ok (some (c, k), s')) :
    ∀ i, s'.cnt i = s.cnt i + refCount (heldOne .mem c ++ heldOne .mem k) i := by
  obtain ⟨a, s1, X, e1, _, _, hX, hc⟩ := (C94_partial lib h hcp p hp).2.2 he s hs
  rw [e] at e1
  cases e1
  rcases hX with rfl | ⟨hr, _⟩
  · intro i
    simpa [refCount, heldPair] using hc i
  · cases hr

/-- It holds both: a failed generation of the key or of the certificate, unnoticed at first, ends the onboarding
(/repo/src/brski/pledge/pledge_request.cpp:272-284,327-331). -/
theorem C94_both (lib : Lib) (p : Plan) (s s' : St) (c k : Option Id)
    (e : onboard lib p s = .ok (some (c, k), s')) : c.isSome = true ∧ k.isSome = true := by
  unfold onboard at e
  obtain ⟨o, s1, e1, e⟩ := bind_inv e
  rcases o with _ | ⟨cert, key⟩ <;> dsimp only at e
  · cases e
  obtain ⟨⟨ok, pin⟩, s2, _, e⟩ := bind_inv e
  rcases ok with _ | _ <;> dsimp only at e
  · obtain ⟨_, _, _, e⟩ := bind_inv e; cases e
  obtain ⟨b, s3, _, e⟩ := bind_inv e
  rcases b with _ | _ <;> dsimp only at e
  · obtain ⟨_, _, _, e⟩ := bind_inv e; cases e
  obtain ⟨b, s4, e4, e⟩ := bind_inv e
  rcases b with _ | _ <;> dsimp only at e
  · obtain ⟨_, _, _, e⟩ := bind_inv e; cases e
  obtain ⟨st, s5, _, e⟩ := bind_inv e
  split at e
  · obtain ⟨_, _, _, e⟩ := bind_inv e; cases e
  obtain ⟨_, s6, _, e⟩ := bind_inv e
  obtain ⟨⟨ok, c'⟩, s7, e7, e⟩ := bind_inv e
  rcases ok with _ | _ <;> dsimp only at e
  · obtain ⟨_, _, _, e⟩ := bind_inv e; cases e
  obtain ⟨_, s8, _, e⟩ := bind_inv e
  cases e
  constructor
  · cases he : p.enrolled <;> rw [he] at e7
    · obtain ⟨_, _, _, e7⟩ := bind_inv e7; cases e7; rfl
    · cases e7
    · obtain ⟨_, _, _, e7⟩ := bind_inv e7
      obtain ⟨_, _, _, e7⟩ := bind_inv e7
      cases e7
  · rcases cert with _ | cert
    · cases e4
    rcases k with _ | k
    · exfalso
      unfold makeKeyCert at e1
      obtain ⟨b, _, _, e1⟩ := bind_inv e1
      rcases b with _ | _ <;> dsimp only at e1
      · cases e1
      obtain ⟨o, _, _, e1⟩ := bind_inv e1
      rcases o with _ | iss <;> dsimp only at e1
      · cases e1
      obtain ⟨o, _, _, e1⟩ := bind_inv e1
      rcases o with _ | sub <;> dsimp only at e1
      · obtain ⟨_, _, _, e1⟩ := bind_inv e1; cases e1
      obtain ⟨⟨ok, l⟩, _, _, e1⟩ := bind_inv e1
      rcases ok with _ | _ <;> dsimp only at e1
      · obtain ⟨_, _, _, e1⟩ := bind_inv e1
        obtain ⟨_, _, _, e1⟩ := bind_inv e1; cases e1
      obtain ⟨kk, _, _, e1⟩ := bind_inv e1
      obtain ⟨cc, _, ec, e1⟩ := bind_inv e1
      obtain ⟨_, _, _, e1⟩ := bind_inv e1
      obtain ⟨_, _, _, e1⟩ := bind_inv e1
      cases e1
      cases ec
    · rfl

/-! ## Cases -/

/-- A pledge with a nonce and three certificates to load (/repo/src/brski/pledge/pledge_utils.c:47-82). -/
def somePlan : Plan := ⟨true, some .data, some .data, some [.good], some [.good, .good], none, .data, .data⟩

theorem somePlan_ok : somePlan.Ok :=
  ⟨by simp [NonceOk, somePlan], fun b e => (by cases e; rfl), fun es e => (by cases e; simp), fun es e => (by cases e; simp),
   fun es e => (by cases e), by simp [somePlan]⟩

/-- An onboarding succeeds, with certificate and key held and nothing else; ... -/
example : (outcomeOf (onboard goodLib somePlan) (startSt [])).map
    (fun r => (r.1.map fun q => (q.1.isSome, q.2.isSome), r.2.sum)) = some (some (true, true), 2) := by decide +kernel
/-- ... so do the requests ... -/
example : (outcomeOf (requestArray goodLib true (some .data) (some [.good])) (startSt [])).map
    (fun r => (r.1.isSome, r.2.sum)) = some (true, 2) := by decide +kernel
example : (outcomeOf (requestFile goodLib true none none) (startSt [])).map
    (fun r => (r.1, r.2.sum)) = some (true, 0) := by decide +kernel
example : (outcomeOf (askVoucher goodLib somePlan) (startSt [])).map
    (fun r => (r.1.1, r.1.2.isSome, r.2.sum)) = some (true, true, 1) := by decide +kernel
/-- ... a failing generation of the key is noticed only at the end, and nothing is left. -/
example : (outcomeOf (makeKeyCert goodLib) (startSt [1, 1, 1, 1, 1, 1, 0])).map
    (fun r => (r.1, r.2.sum)) = some (some (none, none), 0) := by decide +kernel
example : (outcomeOf (onboard goodLib somePlan) (startSt [1, 1, 1, 1, 1, 1, 0])).map
    (fun r => (r.1, r.2.sum)) = some (none, 0) := by decide +kernel

/-! ## Where the code leaks or is undefined -/

/-- A list that cannot be loaded is released twice: the additional certificates of the request
(/repo/src/brski/pledge/pledge_utils.c:78-82,106), or the certificates for the answer
(/repo/src/brski/pledge/pledge_request.cpp:61-69,87-88). -/
theorem C94_list :
    (¬ Clean [] [] (requestArray goodLib true none (some [.unreadable])) heldBin) ∧
    (¬ Clean [] [] (checkAnswer goodLib none (some [.unreadable]) none) fun r => heldOne .mem r.2) ∧
    ¬ Clean [] [] (checkAnswer goodLib none none (some [.good, .unreadable])) fun r => heldOne .mem r.2 :=
  ⟨not_clean_ub [] (by decide +kernel), not_clean_ub [] (by decide +kernel), not_clean_ub [] (by decide +kernel)⟩

/-- A nonce that cannot be decoded is released twice in `verify_masa_pledge_request`
(/repo/src/brski/pledge/pledge_request.cpp:55,86), a badly padded one also in `voucher_pledge_request_to_array`
(/repo/src/voucher/serialize.c:243-245, /repo/src/brski/pledge/pledge_utils.c:58). -/
theorem C94_nonce :
    (¬ Clean [] [] (checkAnswer goodLib (some .nothing) none none) fun r => heldOne .mem r.2) ∧
    ¬ Clean [] [] (requestArray goodLib true (some .padding) none) heldBin :=
  ⟨not_clean_ub [] (by decide +kernel), not_clean_ub [] (by decide +kernel)⟩

/-- Badly padded answers to the request and to the enrolment
(/repo/src/brski/pledge/pledge_request.cpp:178-181,353-355). -/
theorem C94_padding :
    (¬ Clean [] [] (askVoucher goodLib { somePlan with answer := .padding }) fun r => heldOne .mem r.2) ∧
    ¬ Clean [] [] (onboard goodLib { somePlan with enrolled := .padding }) heldPair :=
  ⟨not_clean_ub [] (by decide +kernel), not_clean_ub [] (by decide +kernel)⟩

/-- No list can be made for the pinned certificate: its copy is lost
(/repo/src/voucher/request.c:547-553). -/
theorem C94_leak : ¬ Clean [] [] (checkAnswer goodLib none none none) fun r => heldOne .mem r.2 :=
  not_clean [1, 1, 1, 1, 1, 1, 1, 1, 1, 1, 1, 1, 1, 0] 5 1 0 (by decide) (by decide +kernel)

/-- C94 is violated, also by a library that never fails unexpectedly and a configuration that can be read. -/
theorem C94_violated : ¬ C94_statement ∧ ¬ C94_holds goodLib { somePlan with answer := .padding } :=
  ⟨fun h => C94_padding.1 (h goodLib { somePlan with answer := .padding }).post_voucher_pledge_request,
   fun h => C94_padding.1 h.post_voucher_pledge_request⟩

end Brski.Props
