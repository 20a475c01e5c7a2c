import Verif.PropsRes
import Verif.ResReqRules3

/-!
# C82: serving a request leaves nothing behind

`Clean` (C80) for the functions of /repo/src/voucher/request.c:20-581, for the registrar's handlers and for a
MASA that serves any number of requests.  `CleanBut` is `Clean` up to references that are lost.
-/

namespace Brski.Props
open Brski.Res Outcome

/-- What `load_cert_files` leaves to its caller (/repo/src/brski/config.c:673-710): nothing when it fails. -/
def heldLoad (r : Bool × Option ArrList) : List Ref := if r.1 then heldArr r.2 else []

/-- The property, for `lib` answering to the incompletely handled calls and `mem` to the unchecked
allocations (/repo/src/voucher/request.c:20-581, /repo/src/brski/registrar/registrar_api.cpp:31-432,
/repo/src/brski/masa/masa_api.cpp:27-183). -/
structure C82_holds (lib : Lib) (mem : Mem) : Prop where
  sign_pledge_voucher_request : ∀ nonce certs, Clean [] [] (signPledge lib nonce certs) heldBin
  sign_voucher_request : ∀ pc ps certs, Clean [] [] (signRequest lib pc ps certs) heldBin
  sign_masa_pledge_voucher : ∀ rc rs pc ps add, Clean [] [] (issue lib rc rs pc ps add) heldBin
  verify_masa_pledge_voucher : ∀ certs store dom out,
    Clean [] [] (accept lib certs store dom out) fun r => heldArr r.certs ++ heldOne .mem r.pin
  load_cert_files : ∀ paths, Clean [] [] (loadCerts lib paths) heldLoad
  masa : ∀ expiry ps bodies, Clean [] [] (masaServe lib expiry ps none bodies) fun _ => []
  save_to_log : ∀ ix lx, Clean [(.x509, ix), (.x509, lx)] [] (saveLog lib mem ix lx) fun _ => []
  registrar_requestvoucher : ∀ x pc ps add body,
    Clean [(.x509, x)] [] (registrarRequest lib mem x pc ps add body) fun _ => []
  registrar_est_simpleenroll : ∀ x body, Clean [(.x509, x)] [] (enroll lib mem x body) fun _ => []

/-- The full statement: whatever fails (/repo/src/voucher/request.c:20-581). -/
def C82_statement : Prop := ∀ lib mem, C82_holds lib mem

/-- Ownership up to losses allowed by `E` (/repo/src/voucher/request.c:270-273). -/
def CleanBut {α : Type} (p : Prog α) (held : α → List Ref) (E : α → List Ref → Prop) : Prop :=
  ∀ s, SoundSt s → ∃ a s' X, p s = .ok (a, s') ∧ SoundSt s' ∧ (∀ r ∈ held a, s'.kind r.2 = r.1) ∧ E a X ∧
    ∀ i, s'.cnt i = s.cnt i + refCount (held a) i + refCount X i

/-- Losses of a verification that ends in an error: the text, and a list of certificates if it was asked
for (/repo/src/voucher/voucher.c:1029-1032, /repo/src/voucher/request.c:270-273). -/
def LostText (X : List Ref) : Prop := ∃ d l, X.Perm (heldOne .mem d ++ heldArr l)

/-- Losses of a MASA: one such loss for some of the requests answered by 400
(/repo/src/brski/masa/masa_api.cpp:138-147). -/
def LostServing (codes : List Int) (X : List Ref) : Prop :=
  ∃ Xs : List (List Ref), Xs.length ≤ codes.count 400 ∧ (∀ Y ∈ Xs, LostText Y) ∧ X.Perm Xs.flatten

theorem cleanBut_of_trix {α : Type} {p : Prog α} {R : α → List (List Ref)} {held : α → List Ref}
    {E E' : α → List Ref → Prop} (h : TriX [] [] p R E) (e : ∀ a, (R a).flatten.Perm (held a))
    (he : ∀ a X, E a X → E' a X) : CleanBut p held E' := by
  intro s hs
  have ho : Owns ⟨s.tape, s.pos, 0, s.kind, s.cnt, s.gap⟩ s ([] : List (List Ref)).flatten :=
    ⟨fun i => (Nat.add_zero _).symm, fun r hr => (by cases hr), fun _ _ => rfl, hs, Nat.zero_le _, fun _ _ => Nat.zero_le _⟩
  obtain ⟨a, s', X, e1, hX, o⟩ := h _ _ (fun _ h => by cases h) ho
  refine ⟨a, s', X, e1, o.unused, fun r hr => o.kinds r (List.mem_append_left _ ((e a).mem_iff.2 hr)), he a X hX, fun i => ?_⟩
  have h1 := o.cnt i
  rw [times_append, times_perm (e a) i, ← Nat.add_assoc] at h1
  exact h1

theorem held_binR (b : Option Bin) : (binR b).Perm (heldBin b) := binRefs_flat b ▸ held_bin b

theorem held_arrR (l : Option ArrList) : (arrR l).Perm (heldArr l) := held_arr l

theorem held_memR (o : Option Id) : (memR o).Perm (heldOne .mem o) := held_one .mem o

theorem held_loadR (r : Bool × Option ArrList) : (loadR r).Perm (heldLoad r) := by
  unfold loadR heldLoad
  split
  · exact held_arrR _
  · exact .refl _

/-- The functions of `request.c`: the two that make requests give back everything; the one that makes
vouchers may lose a text and the signers' certificates, the one that checks a voucher may lose one
block, both only when they fail. -/
theorem C82_partial_requests (lib : Lib) (h : lib.Good) (ho : lib.signersOwned = true) (hcp : ∀ k, lib.copy k = true) :
    (∀ nonce certs, Clean [] [] (signPledge lib nonce certs) heldBin) ∧
    (∀ pc ps certs, Clean [] [] (signRequest lib pc ps certs) heldBin) ∧
    (∀ paths, Clean [] [] (loadCerts lib paths) heldLoad) ∧
    (∀ rc rs pc ps add, CleanBut (issue lib rc rs pc ps add) heldBin fun r X => X = [] ∨ r = none ∧ LostText X) ∧
    (∀ certs store dom out, CleanBut (accept lib certs store dom out) (fun r => heldArr r.certs ++ heldOne .mem r.pin)
      fun r X => X = [] ∨ r.ok = false ∧ ∃ d, X = heldOne .mem d) := by
  refine ⟨fun nonce certs => clean0 (tri_signPledge lib h nonce certs) fun b => by simpa using held_binR b,
    fun pc ps certs => clean0 (tri_signRequest lib h pc ps certs) fun b => by simpa using held_binR b,
    fun paths => clean0 (tri_loadCerts lib hcp paths) fun r => by simpa using held_loadR r,
    fun rc rs pc ps add => cleanBut_of_trix (trix_issue lib h ho hcp rc rs pc ps add)
      (fun b => by simpa using held_binR b) fun r X hX => ?_,
    fun certs store dom out => cleanBut_of_trix (trix_accept lib h ho hcp certs store dom out) (fun r => ?_) fun r X hX => ?_⟩
  · rcases hX with hX | ⟨hr, d, l, rfl⟩
    · exact .inl hX
    · exact .inr ⟨hr, d, l, (held_memR d).append (held_arrR l)⟩
  · simpa using (held_arrR r.certs).append (held_memR r.pin)
  · rcases hX with hX | ⟨hr, d, rfl⟩
    · exact .inl hX
    · exact .inr ⟨hr, d, by cases d <;> rfl⟩

/-- A MASA whose lists can be loaded, serving any bodies but badly padded ones: each request answered by
400 loses at most a text and a list of certificates. -/
theorem C82_partial_masa (lib : Lib) (h : lib.Good) (ho : lib.signersOwned = true) (hcp : ∀ k, lib.copy k = true)
    (expiry : Bool) (ps : Paths) (hp : ps.Ok) (bodies : List Body) (hb : Body.padding ∉ bodies) :
    CleanBut (masaServe lib expiry ps none bodies) (fun _ => []) LostServing := by
  refine cleanBut_of_trix (trix_masaServe lib h ho hcp expiry ps hp bodies none (fun _ => rfl) fun b m e => hb (e ▸ m))
    (fun _ => .refl _) fun codes X ⟨parts, hn, hX⟩ => ?_
  refine ⟨parts.map fun q => memR q.1 ++ arrR q.2, by simpa using hn, fun Y hY => ?_, by simpa [List.flatMap] using hX⟩
  obtain ⟨q, _, rfl⟩ := List.mem_map.1 hY
  exact ⟨q.1, q.2, (held_memR _).append (held_arrR _)⟩

/-- So as long as it refuses nothing it loses nothing, however long it serves. -/
theorem C82_partial_masa_served (lib : Lib) (h : lib.Good) (ho : lib.signersOwned = true) (hcp : ∀ k, lib.copy k = true)
    (expiry : Bool) (ps : Paths) (hp : ps.Ok) (bodies : List Body) (hb : Body.padding ∉ bodies) (s s' : St)
    (hs : SoundSt s) (codes : List Int) (e : masaServe lib expiry ps none bodies s = .ok (codes, s'))
    (hc : (400 : Int) ∉ codes) : ∀ i, s'.cnt i = s.cnt i := by
  obtain ⟨a, s1, X, e1, _, _, ⟨Xs, hn, _, hX⟩, c⟩ := C82_partial_masa lib h ho hcp expiry ps hp bodies hb s hs
  rw [e] at e1
  cases e1
  rw [List.count_eq_zero.2 hc] at hn
  obtain rfl : Xs = [] := List.eq_nil_of_length_eq_zero (Nat.le_zero.1 hn)
  obtain rfl : X = [] := by simpa using hX
  intro i
  simpa [refCount] using c i

/-- The registrar, if its unchecked allocations succeed: whatever is configured, whatever files can be
read, whatever the MASA answers, for every body but a badly padded one. -/
theorem C82_partial_registrar (lib : Lib) (h : lib.Good) (hcp : ∀ k, lib.copy k = true) (mem : Mem) (hm : mem.Good) :
    (∀ ix lx, Clean [(.x509, ix), (.x509, lx)] [] (saveLog lib mem ix lx) fun _ => []) ∧
    (∀ x pc ps add body, body ≠ .padding →
      Clean [(.x509, x)] [] (registrarRequest lib mem x pc ps add body) fun _ => []) ∧
    (∀ x body, body ≠ .padding → Clean [(.x509, x)] [] (enroll lib mem x body) fun _ => []) :=
  ⟨fun ix lx => clean0 (tri_saveLog lib h mem hm ix lx) fun _ => .refl _,
   fun x pc ps add body hb => clean0 (tri_registrarRequest lib h hcp mem hm x pc ps add body hb) fun _ => .refl _,
   fun x body hb => clean0 (tri_enroll lib h mem hm x body hb) fun _ => .refl _⟩

/-! ## Cases -/

/-- Memory is never exhausted (/repo/src/brski/registrar/registrar_api.cpp:191). -/
def goodMem : Mem := ⟨true, fun _ => true⟩

theorem goodMem_good : goodMem.Good := ⟨rfl, fun _ => rfl⟩

/-- A MASA with three certificates to load (/repo/src/brski/masa/masa_api.cpp:110-136). -/
def somePaths : Paths := ⟨some [.good], none, none, some [.good, .good], none⟩

theorem somePaths_ok : somePaths.Ok :=
  ⟨fun es e => (by cases e; simp), fun es e => (by cases e), fun es e => (by cases e), fun es e => (by cases e; simp),
   fun es e => (by cases e)⟩

/-- The functions deliver when all calls succeed ... -/
example : (outcomeOf (signPledge goodLib true (some 1)) (startSt [])).map (fun r => (r.1.isSome, r.2.sum)) =
    some (true, 2) := by decide +kernel
example : (outcomeOf (signRequest goodLib (some 1) (some [0]) (some 1)) (startSt [])).map
    (fun r => (r.1.isSome, r.2.sum)) = some (true, 2) := by decide +kernel
example : (outcomeOf (issue goodLib (some 1) (some [0]) none none (some 1)) (startSt [])).map
    (fun r => (r.1.isSome, r.2.sum)) = some (true, 2) := by decide +kernel
example : (outcomeOf (accept goodLib (some 1) (some [0]) (some [0]) true) (startSt [])).map
    (fun r => (r.1.ok, r.2.sum)) = some (true, 4) := by decide +kernel
/-- ... and a MASA answers, with nothing left, ... -/
example : (outcomeOf (masaServe goodLib true somePaths none [.data, .nothing, .data]) (startSt [])).map
    (fun r => (r.1, r.2.sum)) = some ([200, 200, 200], 0) := by decide +kernel

/-- A state with two certificates (/repo/src/brski/registrar/registrar_api.cpp:137). -/
def twoCerts : St := ⟨fun _ => 1, 0, 2, fun _ => .x509, fun i => if i < 2 then 1 else 0, fun _ => 0⟩

theorem twoCerts_sound : SoundSt twoCerts := fun i h => by
  have h : 2 ≤ i := h
  show (if i < 2 then 1 else 0) = 0
  rw [if_neg (by omega)]

/-- ... and so does the registrar, also when a list cannot be loaded. -/
example : (outcomeOf (registrarRequest goodLib goodMem 0 (some [.good]) none (some [.good]) .data) twoCerts).map
    (fun r => (r.1, r.2.sum)) = some (200, 2) := by decide +kernel
example : (outcomeOf (registrarRequest goodLib goodMem 0 (some [.unreadable]) none none .data) twoCerts).map
    (fun r => (r.1, r.2.sum)) = some (500, 2) := by decide +kernel
example : (outcomeOf (enroll goodLib goodMem 0 .data) twoCerts).map (fun r => (r.1, r.2.sum)) =
    some (200, 2) := by decide +kernel
example : (outcomeOf (saveLog goodLib goodMem 0 1) twoCerts).map (fun r => r.2.sum) = some 2 := by decide +kernel

/-! ## Where the code leaks or is undefined -/

/-- A message verifies and names its signer, but its content is not a voucher: the list of certificates
is lost (/repo/src/voucher/request.c:270-273). -/
theorem C82_leak_issue : ¬ Clean [] [] (issue goodLib none none none none none) heldBin :=
  not_clean [1, 1, 1, 1, 1, 0, 1, 1, 1, 1, 1, 1, 0] 5 1 0 (by decide) (by decide +kernel)

/-- The MASA loses it, too: a signed message that is no voucher costs it memory. -/
theorem C82_leak_masa : ¬ Clean [] [] (masaServe goodLib true ⟨none, none, none, none, none⟩ none [.data]) fun _ => [] :=
  not_clean (List.replicate 17 1 ++ [0, 1, 1, 1, 1, 1, 1, 0]) 18 1 0 (by decide) (by decide +kernel)

/-- No list can be made for the pinned certificate: its copy is lost (/repo/src/voucher/request.c:547-553). -/
theorem C82_leak_accept :
    ¬ Clean [] [] (accept goodLib none none none true) fun r => heldArr r.certs ++ heldOne .mem r.pin :=
  not_clean [1, 1, 1, 1, 1, 1, 1, 1, 1, 1, 1, 1, 1, 0] 5 1 0 (by decide) (by decide +kernel)

/-- A list that cannot be loaded is released twice (/repo/src/brski/config.c:694-697,
/repo/src/brski/masa/masa_api.cpp:175). -/
theorem C82_masa_list :
    ¬ Clean [] [] (masaServe goodLib true ⟨some [.unreadable], none, none, none, none⟩ none [.data]) fun _ => [] :=
  not_clean_ub [] (by decide +kernel)

/-- So is a badly padded body (/repo/src/voucher/serialize.c:243-245, /repo/src/brski/masa/masa_api.cpp:180). -/
theorem C82_masa_padding :
    ¬ Clean [] [] (masaServe goodLib true ⟨none, none, none, none, none⟩ none [.padding]) fun _ => [] :=
  not_clean_ub [] (by decide +kernel)

theorem not_cleanT {α : Type} {B : List Ref} {p : Prog α} (hB : ∀ r ∈ B, r.1 = .x509 ∧ r.2 < 2) (i : Id)
    (h : leftOf p (fun _ => []) twoCerts i ≠ some (twoCerts.cnt i, 0)) : ¬ Clean B [] p fun _ => [] := by
  intro hc
  obtain ⟨a, s', e, _, _, c⟩ := hc twoCerts twoCerts_sound (fun r hr => by
      rw [List.append_nil] at hr; rw [(hB r hr).1]; rfl)
    (fun r hr => by
      show 0 < if r.2 < 2 then 1 else 0
      rw [if_pos (hB r hr).2]; exact Nat.one_pos) (fun _ => Nat.zero_le _)
  apply h
  have := c i
  simp only [leftOf, e, refCount, List.map_nil, List.count_nil] at this ⊢
  rw [show s'.cnt i = twoCerts.cnt i by omega]

/-- The second of two lists cannot be made: the first is lost
(/repo/src/brski/registrar/registrar_api.cpp:38-41). -/
theorem C82_leak_log :
    ¬ Clean [(.x509, 0), (.x509, 1)] [] (saveLog goodLib ⟨true, fun k => k != 1⟩ 0 1) fun _ => [] :=
  not_cleanT (by decide) 2 (by decide +kernel)

/-- The same in a constructor (/repo/src/brski/registrar/registrar_api.cpp:153-158): the destructor does not
run. -/
theorem C82_registrar_exception :
    ¬ Clean [(.x509, 0)] [] (registrarRequest goodLib ⟨true, fun k => k != 1⟩ 0 none none none .data) fun _ => [] :=
  not_cleanT (by decide) 2 (by decide +kernel)

/-- The result of `malloc` is not checked (/repo/src/brski/registrar/registrar_api.cpp:191-196). -/
theorem C82_registrar_malloc :
    ¬ Clean [(.x509, 0)] [] (registrarRequest goodLib ⟨false, fun _ => true⟩ 0 none none none .data) fun _ => [] :=
  not_cleanT (by decide) 2 (by decide +kernel)

/-- A badly padded body is released twice (/repo/src/brski/registrar/registrar_api.cpp:192,428). -/
theorem C82_registrar_padding :
    (¬ Clean [(.x509, 0)] [] (registrarRequest goodLib goodMem 0 none none none .padding) fun _ => []) ∧
    ¬ Clean [(.x509, 0)] [] (enroll goodLib goodMem 0 .padding) fun _ => [] :=
  ⟨not_cleanT (by decide) 2 (by decide +kernel), not_cleanT (by decide) 2 (by decide +kernel)⟩

/-- C82 is violated, also by a library and a memory that never fail unexpectedly. -/
theorem C82_violated : ¬ C82_statement ∧ ¬ C82_holds goodLib goodMem :=
  ⟨fun h => C82_leak_issue ((h goodLib goodMem).sign_masa_pledge_voucher none none none none none),
   fun h => C82_leak_issue (h.sign_masa_pledge_voucher none none none none none)⟩

end Brski.Props
