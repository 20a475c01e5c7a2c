import Verif.ResRules5

/-!
# C80, C81: ownership of library objects

`Clean B G p held` says what a caller of /repo/src/voucher/crypto_ossl.c may expect: lent the references
`B` and given the references `G`, the function `p` does nothing undefined, whatever calls fail, and
afterwards every object has as many references as before, less those given away, plus those in the
result.
-/

namespace Brski.Props
open Brski.Res Outcome

/-- The number of references to an object in a list (/repo/src/voucher/crypto_ossl.c:60-1694). -/
def refCount (L : List Ref) (i : Id) : Nat := (L.map Prod.snd).count i

/-- A state in which unused names have no references (/repo/src/voucher/crypto_ossl.c:60-1694). -/
def SoundSt (s : St) : Prop := ∀ i, s.next ≤ i → s.cnt i = 0

/-- The specification of ownership (/repo/src/voucher/crypto_ossl.c:60-1694). -/
def Clean {α : Type} (B G : List Ref) (p : Prog α) (held : α → List Ref) : Prop :=
  ∀ s, SoundSt s → (∀ r ∈ B ++ G, s.kind r.2 = r.1) → (∀ r ∈ B, refCount G r.2 < s.cnt r.2) →
    (∀ i, refCount G i ≤ s.cnt i) →
    ∃ a s', p s = .ok (a, s') ∧ SoundSt s' ∧ (∀ r ∈ held a, s'.kind r.2 = r.1) ∧
      ∀ i, s'.cnt i + refCount G i = s.cnt i + refCount (held a) i

/-! ## What results hold -/

/-- An optional object (/repo/src/voucher/crypto_ossl.c:60-1694). -/
def heldOne (k : Kind) : Option Id → List Ref
  | none => []
  | some i => [(k, i)]

/-- An optional `struct BinaryArray` (/repo/src/voucher/array.h:155-158): itself and its array. -/
def heldBin : Option Bin → List Ref
  | none => []
  | some b => (.mem, b.hd) :: heldOne .mem b.arr

/-- A length with a buffer that may be NULL (/repo/src/voucher/crypto_ossl.c:362-408). -/
def heldPtr : Option (Option Id) → List Ref
  | none => []
  | some d => heldOne .mem d

/-- A list of arrays (/repo/src/voucher/array.h:113-118): its head, its elements and their arrays. -/
def heldArr : Option ArrList → List Ref
  | none => []
  | some l => (.mem, l.hd) :: l.els.flatMap fun e => [(.mem, e.1), (.mem, e.2)]

/-- The elements of a list of keys and values (/repo/src/voucher/keyvalue.h:26-30). -/
def heldKv (l : List (Id × Id × Id)) : List Ref := l.flatMap fun e => [(.mem, e.1), (.mem, e.2.1), (.mem, e.2.2)]

/-- The property: every function of /repo/src/voucher/crypto_ossl.c:140-1694 that acquires something,
and `verify_cms_voucher` (/repo/src/voucher/voucher.c:1017-1044). -/
structure C80_holds (lib : Lib) (cert out : Bool) : Prop where
  cmsbuf_to_file : Clean [] [] cmsToFile fun _ => []
  certbuf_to_file : Clean [] [] certToFile fun _ => []
  keybuf_to_file : Clean [] [] keyToFile fun _ => []
  cert2buf : ∀ x, Clean [(.x509, x)] [] (certToBuf (some x)) heldBin
  file_to_x509buf : Clean [] [] fileToCert heldBin
  file_to_keybuf : Clean [] [] fileToKey heldBin
  generate_rsakey : Clean [] [] (genRsaKey lib) heldBin
  generate_eckey : Clean [] [] (genEcKey lib) (heldOne .mem)
  copycert : ∀ x, Clean [(.x509, x)] [] (copyCert (some x)) (heldOne .x509)
  getcert_meta : ∀ x, Clean [(.x509, x)] [] (certMeta lib (some x)) fun r => heldKv r.2.1 ++ heldKv r.2.2
  getcert_issuer : ∀ x, Clean [(.x509, x)] [] (certIssuer (some x)) heldBin
  generate_cert : ∀ m key, Clean [] [] (genCert lib m key cert) (heldOne .mem)
  sign_cert : ∀ old, Clean [] [(.mem, old)] (signCert (some old)) fun r => heldOne .mem r.2
  verify_cert : ∀ n store, Clean [] [] (verifyCert lib n store) fun _ => []
  sign_cms : ∀ certs, Clean [] [] (signCms lib certs) heldPtr
  verify_cms : ∀ certs store, Clean [] [] (verifyCms lib certs store out) fun r => heldOne .mem r.data ++ heldArr r.certs
  verify_voucher : ∀ certs store,
    Clean [] [] (verifyVoucher lib certs store out) fun r => heldOne .mem r.1 ++ heldArr r.2

/-- The full statement: whatever the library answers, with and without output parameters
(/repo/src/voucher/crypto_ossl.c:140-1694). -/
def C80_statement : Prop := ∀ lib cert out, C80_holds lib cert out

/-! ## From the logic to the specification -/

theorem clean_of_tri {α : Type} {B G : List Ref} {p : Prog α} {R : α → List (List Ref)} {held : α → List Ref}
    (h : Tri B [G] p R) (e : ∀ a, (R a).flatten.Perm (held a)) : Clean B G p held := by
  intro s hs hk hb hg
  have hb' : Live ⟨s.tape, s.pos, 0, s.kind, fun i => s.cnt i - refCount G i, s.gap⟩ B := fun r hr => ⟨by
    have := hb r hr
    show 0 < s.cnt r.2 - refCount G r.2
    omega, hk r (List.mem_append_left _ hr)⟩
  have ho : Owns ⟨s.tape, s.pos, 0, s.kind, fun i => s.cnt i - refCount G i, s.gap⟩ s [G].flatten := by
    refine ⟨fun i => ?_, fun r hr => ?_, fun _ _ => rfl, hs, Nat.zero_le _, fun _ _ => Nat.zero_le _⟩
    · have := hg i
      show s.cnt i = s.cnt i - refCount G i + times [G].flatten i
      rw [show [G].flatten = G by simp]
      show _ = _ + refCount G i
      omega
    · simp only [List.flatten_cons, List.flatten_nil, List.append_nil] at hr
      exact hk r (List.mem_append_right _ hr)
  obtain ⟨a, s', e1, o⟩ := h _ _ hb' ho
  refine ⟨a, s', e1, o.unused, fun r hr => o.kinds r ((e a).mem_iff.2 hr), fun i => ?_⟩
  have h1 := o.cnt i
  rw [times_perm (e a) i] at h1
  have h1 : s'.cnt i = s.cnt i - refCount G i + refCount (held a) i := h1
  have := hg i
  omega

theorem clean0 {α : Type} {B : List Ref} {p : Prog α} {R : α → List (List Ref)} {held : α → List Ref}
    (h : Tri B [] p R) (e : ∀ a, (R a).flatten.Perm (held a)) : Clean B [] p held :=
  clean_of_tri (G := []) (Tri.perm (by simp) h) e

theorem held_one (k : Kind) (o : Option Id) : (one k o).flatten.Perm (heldOne k o) := by
  cases o <;> exact List.Perm.refl _

theorem held_bin (b : Option Bin) : (binRefs b).flatten.Perm (heldBin b) := by
  rcases b with _ | ⟨hd, _ | a⟩
  · exact .refl _
  · exact .refl _
  · exact .swap _ _ _

theorem held_ptr (d : Option (Option Id)) : (ptrRefs d).flatten.Perm (heldPtr d) := by
  rcases d with _ | _ | d <;> exact .refl _

theorem held_arrEls (l : List (Id × Id)) : (arrEls l).Perm (l.flatMap fun e => [(.mem, e.1), (.mem, e.2)]) := by
  induction l with
  | nil => exact .refl _
  | cons a l ih =>
    obtain ⟨el, p⟩ := a
    exact (List.Perm.swap _ _ _).trans ((ih.cons _).cons _)

theorem held_arr (l : Option ArrList) : (arrO l).flatten.Perm (heldArr l) := by
  rcases l with _ | l
  · exact .refl _
  · simp only [arrO, arrRefs, heldArr, List.flatten_cons, List.flatten_nil, List.append_nil]
    exact List.perm_append_comm.trans ((held_arrEls _).cons _)

theorem held_kv (l : List (Id × Id × Id)) : (kvRefs l).Perm (heldKv l) := by
  induction l with
  | nil => exact .refl _
  | cons a l ih =>
    obtain ⟨el, k, v⟩ := a
    refine List.Perm.trans ?_ (((ih.cons (.mem, v)).cons (.mem, k)).cons (.mem, el))
    exact ((List.Perm.swap _ _ _).cons _).trans (List.Perm.swap _ _ _)

/-- C80 for a library whose ignored and half-handled results are good: everything, for every pattern of
other failures, when output parameters are present; extraction of the signers' certificates only when
the library hands over references. -/
theorem C80_partial (lib : Lib) (h : lib.Good) (ho : lib.signersOwned = true) (hcp : ∀ k, lib.copy k = true) :
    C80_holds lib true false ∧
    ∀ certs store, Clean [] [] (verifyCms lib certs store true) fun r => heldOne .mem r.data ++ heldArr r.certs := by
  have hv : ∀ out, ∀ certs store,
      Clean [] [] (verifyCms lib certs store out) fun r => heldOne .mem r.data ++ heldArr r.certs :=
    fun out certs store => clean0 (tri_verifyCms lib h certs store out fun _ => ⟨ho, hcp⟩) fun r => by
      rw [verR, List.flatten_append]
      exact (held_one _ _).append (held_arr _)
  refine ⟨⟨clean0 tri_cmsToFile fun _ => .refl _, clean0 tri_certToFile fun _ => .refl _,
    clean0 tri_keyToFile fun _ => .refl _, fun x => clean0 (tri_certToBuf x) held_bin, clean0 tri_fileToCert held_bin,
    clean0 tri_fileToKey held_bin, clean0 (tri_genRsaKey lib h.nonneg) held_bin,
    clean0 (tri_genEcKey lib h.nonneg) (held_one _), fun x => clean0 (tri_copyCert x) (held_one _), fun x => ?_,
    fun x => clean0 (tri_certIssuer x) held_bin, fun m key => clean0 (tri_genCert lib h.pub m key) (held_one _),
    fun old => clean_of_tri (tri_signCert old) fun r => held_one _ _,
    fun n store => clean0 (tri_verifyCert lib h n store) fun _ => .refl _,
    fun certs => clean0 (tri_signCms lib h certs) held_ptr, hv false, fun certs store => ?_⟩, hv true⟩
  · refine clean0 (tri_certMeta lib h.dup x) fun r => ?_
    simpa using (held_kv r.2.1).append (held_kv r.2.2)
  · refine clean0 (tri_verifyVoucher lib h certs store) fun r => ?_
    rw [List.flatten_append]
    exact (held_one _ _).append (held_arr _)

/-- Without `out_certs` it does not matter who owns the signers' certificates. -/
theorem C80_partial_no_certs (lib : Lib) (h : lib.Good) (certs : Option Nat) (store : Option (List Int)) :
    (Clean [] [] (verifyCms lib certs store false) fun r => heldOne .mem r.data ++ heldArr r.certs) ∧
    Clean [] [] (verifyVoucher lib certs store false) fun r => heldOne .mem r.1 ++ heldArr r.2 := by
  constructor
  · refine clean0 (tri_verifyCms lib h certs store false (by simp)) fun r => ?_
    rw [verR, List.flatten_append]
    exact (held_one _ _).append (held_arr _)
  · refine clean0 (tri_verifyVoucher lib h certs store) fun r => ?_
    rw [List.flatten_append]
    exact (held_one _ _).append (held_arr _)

/-! ## Cases -/

/-- A library in which everything incompletely handled is good (/repo/src/voucher/crypto_ossl.c:60-1694). -/
def goodLib : Lib := ⟨true, fun _ => true, fun _ => true, fun _ => true, true, fun _ => true, false, fun _ => true⟩

theorem goodLib_good : goodLib.Good := ⟨rfl, fun _ => rfl, fun _ => rfl, fun _ => rfl, rfl, fun _ => rfl⟩

/-- Nothing exists yet and the calls give the listed results, then 1
(/repo/src/voucher/crypto_ossl.c:60-1694). -/
def startSt (l : List Int) : St := ⟨fun n => l.getD n 1, 0, 0, fun _ => .mem, fun _ => 0, fun _ => 0⟩

theorem startSt_sound (l : List Int) : SoundSt (startSt l) := fun _ _ => rfl

/-- Result and references of the first objects after a run (/repo/src/voucher/crypto_ossl.c:60-1694). -/
def outcomeOf {α : Type} (p : Prog α) (s : St) : Option (α × List Nat) :=
  match p s with
  | .ok (a, s') => some (a, (List.range s'.next).map s'.cnt)
  | .ub => none

/-- When all calls succeed the functions deliver: three of the four objects made for an RSA key are
given back ... -/
example : outcomeOf (genRsaKey goodLib) (startSt []) = some (some ⟨0, some 3⟩, [1, 0, 0, 1]) := by decide +kernel
example : outcomeOf (genEcKey goodLib) (startSt []) = some (some 4, [0, 0, 0, 0, 1]) := by decide +kernel
/-- ... a failing conversion gives back everything ... -/
example : outcomeOf (genRsaKey goodLib) (startSt [1, 1, 1, 1, 1, 0]) = some (none, [0, 0, 0]) := by decide +kernel
/-- ... a certificate with a validity, two names and an extension is made ... -/
example : (outcomeOf (genCert goodLib (some ⟨false, true, some [(true, true)], some [(true, true)], true⟩) true true)
    (startSt [])).map (fun r => (r.1.isSome, r.2.sum)) = some (true, 1) := by decide +kernel
/-- ... a message is verified against two certificates, a trusted certificate and a CRL, and its signer's
certificate delivered; a voucher is read from it. -/
example : (outcomeOf (verifyCms goodLib (some 2) (some [0, 1]) true) (startSt [])).map
    (fun r => (r.1.ok, r.1.data.isSome, r.1.certs.map (·.els.length), r.2.sum)) =
    some (true, true, some 1, 4) := by decide +kernel
example : (outcomeOf (verifyVoucher goodLib (some 2) (some [0, 1]) false) (startSt [])).map
    (fun r => (r.1.1.isSome, r.2.sum)) = some (true, 1) := by decide +kernel

/-! ## Where the code leaks or is undefined -/

/-- References left after a run, and in the result, to one object (/repo/src/voucher/crypto_ossl.c:60-1694). -/
def leftOf {α : Type} (p : Prog α) (held : α → List Ref) (s : St) (i : Id) : Option (Nat × Nat) :=
  match p s with
  | .ok (a, s') => some (s'.cnt i, refCount (held a) i)
  | .ub => none

theorem clean_left {α : Type} {p : Prog α} {held : α → List Ref} (h : Clean [] [] p held) (l : List Int) (i : Id) :
    ∃ n, leftOf p held (startSt l) i = some (n, n) := by
  obtain ⟨a, s', e, _, _, c⟩ := h (startSt l) (startSt_sound l) (fun _ h => by cases h) (fun _ h => by cases h)
    (fun _ => Nat.zero_le _)
  refine ⟨s'.cnt i, ?_⟩
  have : s'.cnt i = refCount (held a) i := by
    have := c i
    simp only [refCount, List.map_nil, List.count_nil, startSt] at this ⊢
    omega
  simp only [leftOf, e, this]

theorem not_clean {α : Type} {p : Prog α} {held : α → List Ref} (l : List Int) (i : Id) (m n : Nat) (hne : m ≠ n)
    (h : leftOf p held (startSt l) i = some (m, n)) : ¬ Clean [] [] p held := by
  intro hc
  obtain ⟨k, e⟩ := clean_left hc l i
  rw [h] at e
  cases e
  exact hne rfl

theorem not_clean_ub {α : Type} {p : Prog α} {held : α → List Ref} (l : List Int)
    (h : leftOf p held (startSt l) 0 = none) : ¬ Clean [] [] p held := by
  intro hc
  obtain ⟨k, e⟩ := clean_left hc l 0
  rw [h] at e
  cases e

/-- What a certificate is made with in the cases below (/repo/src/voucher/crypto_ossl.c:856-960). -/
def someMeta : Meta := ⟨false, true, some [(true, true)], some [(true, true)], true⟩

/-- `X509_set_pubkey` fails: certificate and key are lost (1018-1022,1082-1086). -/
theorem C80_leak_pubkey : ¬ Clean [] [] (genCert { goodLib with setPubkey := false } (some someMeta) true true)
    (heldOne .mem) :=
  not_clean [] 0 1 0 (by decide) (by decide +kernel)

/-- A failing `sk_X509_push` loses the certificate (1206). -/
theorem C80_leak_stack : ¬ Clean [] [] (signCms { goodLib with stackPush := fun _ => false } (some 1)) heldPtr :=
  not_clean [] 4 1 0 (by decide) (by decide +kernel)

/-- A failing `X509_STORE_add_cert` loses the certificate (1264-1268). -/
theorem C80_leak_store : ¬ Clean [] [] (verifyCert { goodLib with storeAdd := fun _ => false } 0 (some [0])) fun _ => [] :=
  not_clean [] 4 1 0 (by decide) (by decide +kernel)

/-- A failing `push_ptr_list` loses the CRL (1289-1293). -/
theorem C80_leak_list : ¬ Clean [] [] (verifyCert { goodLib with listPush := fun _ => false } 0 (some [1])) fun _ => [] :=
  not_clean [] 4 1 0 (by decide) (by decide +kernel)

/-- When the certificates of the signers cannot be extracted, `verify_cms_voucher` loses the data
(/repo/src/voucher/crypto_ossl.c:1676-1679, /repo/src/voucher/voucher.c:1027-1032). -/
theorem C80_leak_voucher : ¬ Clean [] [] (verifyVoucher goodLib none none true) fun r => heldOne .mem r.1 ++ heldArr r.2 :=
  not_clean [1, 1, 1, 1, 1, 0, 1, 1, 1, 0] 3 1 0 (by decide) (by decide +kernel)

/-- A NULL `cert` is written through before it is tested (981,993,1045,1057). -/
theorem C80_null_cert : ¬ Clean [] [] (genCert goodLib (some someMeta) true false) (heldOne .mem) :=
  not_clean_ub [] (by decide +kernel)

/-- A negative result of `EVP_PKEY_keygen` is taken for success (455). -/
theorem C80_negative : ¬ Clean [] [] (genRsaKey { goodLib with negative := true }) heldBin :=
  not_clean_ub [1, 1, 1, 1, -1] (by decide +kernel)

/-- A copy that cannot be made for a list of keys and values
(/repo/src/voucher/keyvalue.c:48,95,102). -/
theorem C80_dup : ¬ ∀ x, Clean [(.x509, x)] [] (certMeta { goodLib with dup := fun _ => false } (some x))
    fun r => heldKv r.2.1 ++ heldKv r.2.2 := by
  intro h
  obtain ⟨a, s', e, _⟩ := h 0 ⟨fun _ => 1, 0, 1, fun _ => .x509, fun i => if i = 0 then 1 else 0, fun _ => 0⟩
    (fun i hi => if_neg (by have : 1 ≤ i := hi; omega)) (by simp) (by simp [refCount]) (by simp [refCount])
  have hu : (certMeta { goodLib with dup := fun _ => false } (some 0)
      ⟨fun _ => 1, 0, 1, fun _ => .x509, fun i => if i = 0 then 1 else 0, fun _ => 0⟩ matches .ub) = true := by
    decide +kernel
  rw [e] at hu
  cases hu

/-- When the library only lends the signers' certificates, as the name `CMS_get0_signers` says, every
run of `crypto_verify_cms` that would deliver them is undefined: they are released by
`sk_X509_pop_free` (1606) and again with the message (1684). -/
theorem C80_signers (lib : Lib) (h : lib.Good) (hcp : ∀ k, lib.copy k = true) (ho : lib.signersOwned = false)
    (certs : Option Nat) (store : Option (List Int)) (s : St) (hs : SoundSt s) (r : Verified) (s' : St)
    (hr : verifyCms lib certs store true s = .ok (r, s')) : r.certs = none :=
  saf_verifyCms lib h hcp ho certs store s s r s' hs
    ⟨fun i => by simp, fun _ h => by simp at h, fun _ _ => rfl, hs, Nat.le_refl _, fun _ h => by simp at h⟩ hr

/-- A message with a signer: undefined when lent, delivered when handed over. -/
example : outcomeOf (verifyCms { goodLib with signersOwned := false } none none true) (startSt [1, 1, 1, 1, 1, 0]) = none := by
  decide +kernel
example : (outcomeOf (verifyCms goodLib none none true) (startSt [1, 1, 1, 1, 1, 0])).map (fun r => (r.1.ok, r.1.certs.isSome)) =
    some (true, true) := by decide +kernel
/-- A message whose signers cannot be listed: no certificates, and no complaint. -/
example : (outcomeOf (verifyCms { goodLib with signersOwned := false } none none true)
    (startSt [1, 1, 1, 1, 1, 0, 1, 1, 0])).map (fun r => (r.1.ok, r.1.certs.isSome)) = some (true, false) := by
  decide +kernel

/-- C80 as stated fails. -/
theorem C80_violated : ¬ C80_statement := fun h => C80_leak_pubkey ((h _ true false).generate_cert _ _)

/-! ## C81: failures of key generation are reported -/

/-- The calls of `crypto_generate_rsakey` are, in order, two allocations, two settings and the generation
(/repo/src/voucher/crypto_ossl.c:423-456).  The key is NULL when the generation fails, that is, when its
result is not positive. -/
def C81_rsa (lib : Lib) : Prop := ∀ s, (∀ k < 4, s.tape (s.pos + k) ≠ 0) → s.tape (s.pos + 4) ≤ 0 →
  ∃ s', genRsaKey lib s = .ok (none, s')

/-- The calls of `crypto_generate_eckey` are an allocation, two settings and the generation of
parameters, then an allocation, a setting and the generation of the key
(/repo/src/voucher/crypto_ossl.c:484-535). -/
def C81_ec (lib : Lib) : Prop := ∀ s, (∀ k < 3, s.tape (s.pos + k) ≠ 0) →
  (s.tape (s.pos + 3) ≤ 0 → ∃ s', genEcKey lib s = .ok (none, s')) ∧
  (0 < s.tape (s.pos + 3) → s.tape (s.pos + 4) ≠ 0 → s.tape (s.pos + 5) ≠ 0 → s.tape (s.pos + 6) ≤ 0 →
    ∃ s', genEcKey lib s = .ok (none, s'))

/-- The full statement (/repo/src/voucher/crypto_ossl.c:422-553). -/
def C81_statement : Prop := ∀ lib, C81_rsa lib ∧ C81_ec lib

theorem bne_of {a : Int} (h : a ≠ 0) : (a != 0) = true := by simpa using h

theorem rsa_fails (lib : Lib) (s : St) (h : s.tape (s.pos + 4) ≤ 0) (hn : s.tape (s.pos + 4) = 0 ∨ lib.negative = false)
    (h0 : s.tape s.pos ≠ 0) (h1 : s.tape (s.pos + 1) ≠ 0) (h2 : s.tape (s.pos + 2) ≠ 0)
    (h3 : s.tape (s.pos + 3) ≠ 0) : ∃ s', genRsaKey lib s = .ok (none, s') := by
  have h4 : ¬ 0 < s.tape (s.pos + 4) := by omega
  have h5 : (lib.negative && s.tape (s.pos + 4) != 0) = false := by rcases hn with e | e <;> simp [e]
  simp [genRsaKey, bind_run, pure_run, map_run, Nat.add_assoc, Res.mk, yes, draw_run, fresh_run, Outcome.bind, h0, h1, h4, h5,
    bne_of h2, bne_of h3, use_run, keygen, drop_run, St.make, St.setCnt, St.Has, freeBin, dropO]

theorem ec_fails (lib : Lib) (s : St) (h : s.tape (s.pos + 6) ≤ 0) (hn : s.tape (s.pos + 6) = 0 ∨ lib.negative = false)
    (h0 : s.tape s.pos ≠ 0) (h1 : s.tape (s.pos + 1) ≠ 0) (h2 : s.tape (s.pos + 2) ≠ 0) (h3 : 0 < s.tape (s.pos + 3))
    (h4 : s.tape (s.pos + 4) ≠ 0) (h5 : s.tape (s.pos + 5) ≠ 0) : ∃ s', genEcKey lib s = .ok (none, s') := by
  have h6 : ¬ 0 < s.tape (s.pos + 6) := by omega
  have h7 : (lib.negative && s.tape (s.pos + 6) != 0) = false := by rcases hn with e | e <;> simp [e]
  simp [genEcKey, ctxNew, bind_run, pure_run, map_run, Nat.add_assoc, Res.mk, yes, draw_run, fresh_run, Outcome.bind, h0, h3,
    h4, h6, h7, bne_of h1, bne_of h2, bne_of h5, use_run, keygen, drop_run, St.make, St.setCnt, St.Has, dropO]

theorem ec_params_fail (lib : Lib) (s : St) (h : s.tape (s.pos + 3) ≤ 0) (h0 : s.tape s.pos ≠ 0)
    (h1 : s.tape (s.pos + 1) ≠ 0) (h2 : s.tape (s.pos + 2) ≠ 0) : ∃ s', genEcKey lib s = .ok (none, s') := by
  have h3 : ¬ 0 < s.tape (s.pos + 3) := by omega
  cases hb : lib.negative && s.tape (s.pos + 3) != 0 <;>
    simp [genEcKey, ctxNew, bind_run, pure_run, map_run, Nat.add_assoc, Res.mk, yes, draw_run, fresh_run, Outcome.bind, h0, h3,
      hb, bne_of h1, bne_of h2, use_run, keygen, drop_run, St.make, St.setCnt, St.Has, dropO]

/-- C81 when failures are reported by 0; failing parameters are noticed in any case, since no context is
made without them. -/
theorem C81_partial (lib : Lib) :
    (lib.negative = false → C81_rsa lib ∧ C81_ec lib) ∧
    (∀ s, (∀ k < 4, s.tape (s.pos + k) ≠ 0) → s.tape (s.pos + 4) = 0 → ∃ s', genRsaKey lib s = .ok (none, s')) ∧
    (∀ s, (∀ k < 3, s.tape (s.pos + k) ≠ 0) → s.tape (s.pos + 3) ≤ 0 → ∃ s', genEcKey lib s = .ok (none, s')) := by
  refine ⟨fun hl => ⟨fun s hk h => ?_, fun s hk => ⟨fun h => ?_, fun h3 h4 h5 h => ?_⟩⟩, fun s hk h => ?_, fun s hk h => ?_⟩
  · exact rsa_fails lib s h (.inr hl) (hk 0 (by decide)) (hk 1 (by decide)) (hk 2 (by decide)) (hk 3 (by decide))
  · exact ec_params_fail lib s h (hk 0 (by decide)) (hk 1 (by decide)) (hk 2 (by decide))
  · exact ec_fails lib s h (.inr hl) (hk 0 (by decide)) (hk 1 (by decide)) (hk 2 (by decide)) h3 h4 h5
  · exact rsa_fails lib s (by omega) (.inl h) (hk 0 (by decide)) (hk 1 (by decide)) (hk 2 (by decide)) (hk 3 (by decide))
  · exact ec_params_fail lib s h (hk 0 (by decide)) (hk 1 (by decide)) (hk 2 (by decide))

/-- A negative result of `EVP_PKEY_keygen` always ends in `i2d_PrivateKey` of a NULL pointer
(/repo/src/voucher/crypto_ossl.c:455,534,253). -/
theorem C81_undefined (lib : Lib) (hl : lib.negative = true) (s : St) :
    ((∀ k < 4, s.tape (s.pos + k) ≠ 0) → s.tape (s.pos + 4) < 0 → genRsaKey lib s = .ub) ∧
    ((∀ k < 3, s.tape (s.pos + k) ≠ 0) → 0 < s.tape (s.pos + 3) → s.tape (s.pos + 4) ≠ 0 → s.tape (s.pos + 5) ≠ 0 →
      s.tape (s.pos + 6) < 0 → genEcKey lib s = .ub) := by
  constructor
  · intro hk h
    have h0 := hk 0 (by decide)
    have h1 := hk 1 (by decide)
    have h2 := bne_of (hk 2 (by decide))
    have h3 := bne_of (hk 3 (by decide))
    have h4 : ¬ 0 < s.tape (s.pos + 4) := by omega
    have h5 : (s.tape (s.pos + 4) != 0) = true := bne_of (by omega)
    simp only [Nat.add_zero] at h0
    simp [genRsaKey, bind_run, pure_run, map_run, Nat.add_assoc, Res.mk, yes, draw_run, fresh_run, Outcome.bind, h0, h1, h2, h3,
      h4, h5, hl, use_run, keygen, drop_run, St.make, St.setCnt, St.Has, keyToDer, undefined_run]
  · intro hk h3 h4 h5 h
    have h0 := hk 0 (by decide)
    have h1 := bne_of (hk 1 (by decide))
    have h2 := bne_of (hk 2 (by decide))
    have h5 := bne_of h5
    have h6 : ¬ 0 < s.tape (s.pos + 6) := by omega
    have h7 : (s.tape (s.pos + 6) != 0) = true := bne_of (by omega)
    simp only [Nat.add_zero] at h0
    simp [genEcKey, ctxNew, bind_run, pure_run, map_run, Nat.add_assoc, Res.mk, yes, draw_run, fresh_run, Outcome.bind, h0, h1,
      h2, h3, h4, h5, h6, h7, hl, use_run, keygen, drop_run, St.make, St.setCnt, St.Has, dropO, keyToDer, undefined_run]

/-- Generations that fail: with 0 the key is NULL, with -1 the run is undefined. -/
example : (outcomeOf (genRsaKey goodLib) (startSt [1, 1, 1, 1, 0])).map (·.1) = some none := by decide +kernel
example : outcomeOf (genEcKey { goodLib with negative := true }) (startSt [1, 1, 1, 1, 1, 1, -1]) = none := by
  decide +kernel

/-- C81 as stated fails. -/
theorem C81_violated : ¬ C81_statement := by
  intro h
  obtain ⟨s', e⟩ := (h { goodLib with negative := true }).1 (startSt [1, 1, 1, 1, -1]) (by decide) (by decide)
  rw [(C81_undefined { goodLib with negative := true } rfl (startSt [1, 1, 1, 1, -1])).1 (by decide) (by decide)] at e
  cases e

end Brski.Props
