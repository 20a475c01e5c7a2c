import Verif.PropsMain
import Verif.PledgeOwns

/-!
# C83: memory of the client commands
-/

namespace Brski.Props
open Outcome Brski.Voucher DlList Config Cli Crypto Base64 BoolTime Request Server Pledge Main Brski.Spec

theorem outputDomainCert_ok {O : Ossl} (S : Sys O) (al : Allocator) (cert o : Bytes) (io : Io) :
    ∃ x, outputDomainCert S al cert o io = .ok x := by
  unfold outputDomainCert
  split
  · obtain ⟨s, hs⟩ := C03_encode_safe al cert
    rw [hs, bind'_ok]
    cases s with
    | none => exact ⟨_, rfl⟩
    | some s => exact ⟨_, rfl⟩
  · exact ⟨_, rfl⟩

theorem putOut_owns {O : Ossl} (S : Sys O) (al : Allocator) (o : Bytes) (io : Io) (sent : List Msg) (p : Nat)
    (ps qs : List (Option Nat)) {h0 h : Heap} (hw : h0.Wf) (ho : Owns h0 h (ps ++ some p :: qs)) :
    ∃ r, putOut S al o io sent p ps h = .ok r ∧ (r.ok = true → Owns h0 r.heap qs) ∧
      (r.ok = false → Owns h0 r.heap (ps ++ some p :: qs)) := by
  unfold putOut
  obtain ⟨b, hb⟩ := owns_read ho (p := p) (by simp)
  rw [hb, bind'_ok]
  obtain ⟨x, hx⟩ := outputDomainCert_ok S al b o io
  rw [hx, bind'_ok]
  split
  · obtain ⟨h', e, o'⟩ := owns_release hw (ps ++ [some p]) qs (by simpa using ho)
    rw [e, bind'_ok]
    exact ⟨_, rfl, fun _ => o', nofun⟩
  · exact ⟨_, rfl, nofun, fun _ => ho⟩

/-- **C83** (memory of `preq`): the command is defined and on success has released everything; when it fails at most the pinned
certificate is left. -/
theorem C83_preq_memory {O : Ossl} (hsm : Small O) (S : Sys O) {e : PledgeEnv} (hr : Ready e) (net : Net)
    (hnet : ∀ t a, net.second t = some a → Sized e.blk a.body ∧ ¬ BadPadding (padded (cstr a.body))) (al : Allocator) (o : Bytes)
    (io : Io) {h : Heap} (hw : h.Wf) :
    ∃ r, preq S e net al o io h = .ok r ∧ (r.ok = true → Owns h r.heap []) ∧ (r.ok = false → ∃ p, Owns h r.heap [p]) := by
  unfold preq
  obtain ⟨x, hx, ho⟩ := postVoucher_owns hsm hr net (fun t a ha => ⟨(hnet t a ha).1, fun hd =>
      (hnet t a ha).2 ((dangling_iff _ _ _ (hnet t a ha).1.1 (hnet t a ha).1.2).1 hd).2.2⟩)
    hw (owns_nil hw)
  rw [hx, bind'_ok]
  cases hp : x.pinned with
  | none => rw [hp] at ho; exact ⟨_, rfl, nofun, fun _ => ⟨none, ho⟩⟩
  | some p =>
    rw [hp] at ho
    obtain ⟨r, e, q1, q2⟩ := putOut_owns S al o io x.sent p [] [] hw ho
    exact ⟨r, e, q1, fun hf => ⟨_, q2 hf⟩⟩

/-- **C83** (memory of `sign`): the same; when it fails, certificate and key may be left. -/
theorem C83_sign_memory {O : Ossl} (hsm : Small O) (S : Sys O) {e : PledgeEnv} (hr : Ready e) (g : Gen) (net : Net)
    (hsz : NetSized e g net) (hnet : ∀ t a, net.second t = some a → ¬ BadPadding (padded (cstr a.body)))
    (hen : ∀ ca t s b, net.enrol ca t = some (s, b) → ¬ BadPadding (padded (cstr b))) (alC alK : Allocator) (o : Bytes) (io : Io)
    {h : Heap} (hw : h.Wf) :
    ∃ r, sign S e g net alC alK o io h = .ok r ∧ (r.ok = true → Owns h r.heap []) ∧
      (r.ok = false → ∃ c k, Owns h r.heap [c, k]) := by
  unfold sign
  obtain ⟨x, hx, ho⟩ := C66_partial O e g net h hsm hr hsz hw hnet hen
  rw [hx, bind'_ok]
  cases hp : x.out with
  | none =>
    rw [hp] at ho
    exact ⟨_, rfl, nofun, fun _ => ⟨none, none, owns_none.2 (owns_none.2 ho)⟩⟩
  | some ck =>
    obtain ⟨c, k⟩ := ck
    rw [hp] at ho
    simp only [outPtrs] at ho ⊢
    obtain ⟨cert, hc⟩ := owns_read ho (p := c) (by simp)
    obtain ⟨key, hk⟩ := owns_read ho (p := k) (by simp)
    obtain ⟨h', ef, o'⟩ := owns_release hw [some c, some k] [] ho
    rw [hc, bind'_ok, hk, bind'_ok]
    have hbad : ∀ io', ∃ r, (Outcome.ok (⟨false, io', x.sent, x.heap⟩ : Ended)) = .ok r ∧ (r.ok = true → Owns h r.heap []) ∧
        (r.ok = false → ∃ c k, Owns h r.heap [c, k]) := fun io' => ⟨_, rfl, nofun, fun _ => ⟨_, _, ho⟩⟩
    split
    · obtain ⟨s, hs⟩ := C03_encode_safe alC cert
      rw [hs, bind'_ok]
      cases s with
      | none => exact hbad _
      | some s =>
        obtain ⟨buf, n⟩ := s
        obtain ⟨t, ht⟩ := C03_encode_safe alK key
        simp only
        rw [ht, bind'_ok]
        cases t with
        | none => exact hbad _
        | some t =>
          simp only
          rw [ef, bind'_ok]
          exact ⟨_, rfl, fun _ => o', nofun⟩
    · split
      · split
        · rw [ef, bind'_ok]
          exact ⟨_, rfl, fun _ => o', nofun⟩
        · exact hbad _
      · exact hbad _

/-- **C83** (memory of `epvr`): the same, when a TLS certificate is configured; the certificate stays allocated when the file
cannot be made. -/
theorem C83_epvr_memory {O : Ossl} (S : Sys O) {e : PledgeEnv} (hr : Ready e) (tls : FileRes) (ht : tls ≠ .unset) (o : Bytes) (io : Io)
    {h : Heap} (hw : h.Wf) :
    ∃ r, exportPvr S e tls o io h = .ok r ∧ (r.ok = true ∨ o = [] → Owns h r.heap []) ∧ (r.ok = false → ∃ p, Owns h r.heap [p]) := by
  unfold exportPvr
  cases tls with
  | unset => exact absurd rfl ht
  | bad => exact ⟨_, rfl, fun _ => owns_nil hw, fun _ => ⟨none, owns_none.2 (owns_nil hw)⟩⟩
  | der reg =>
    simp only [readFile, bind'_ok]
    rw [show (h.alloc reg).1.read (h.alloc reg).2 = .ok reg by simp [Heap.read, Heap.alloc], bind'_ok]
    have ho := owns_alloc (owns_nil hw) reg
    split
    · obtain ⟨⟨qh, qp⟩, hq, hoq⟩ := requestText_owns (O := O) hr reg hw ho
      rw [hq, bind'_ok]
      cases qp with
      | none =>
        simp only at hoq ⊢
        obtain ⟨h', ef, o'⟩ := owns_release hw [some (h.alloc reg).2] [] (owns_none.1 hoq)
        rw [ef, bind'_ok]
        exact ⟨_, rfl, fun _ => o', fun _ => ⟨none, owns_none.2 o'⟩⟩
      | some p =>
        simp only at hoq ⊢
        obtain ⟨b, hb⟩ := owns_read hoq (p := p) (by simp)
        obtain ⟨h', ef, o'⟩ := owns_release hw [some p, some (h.alloc reg).2] [] hoq
        rw [hb, bind'_ok, ef, bind'_ok]
        exact ⟨_, rfl, fun _ => o', nofun⟩
    · rename_i hne
      unfold requestFile
      obtain ⟨⟨qh, qp⟩, hq, hoq⟩ := requestArray_owns (O := O) hr reg hw ho
      rw [hq, bind'_ok]
      cases qp with
      | none =>
        simp only [bind'_ok, Bool.false_eq_true, if_false]
        exact ⟨_, rfl, fun hc => (hc.elim nofun fun h => absurd h hne), fun _ => ⟨_, owns_none.1 hoq⟩⟩
      | some p =>
        simp only at hoq ⊢
        obtain ⟨b, hb⟩ := owns_read hoq (p := p) (by simp)
        obtain ⟨h', ef, o'⟩ := owns_release hw [some p] [some (h.alloc reg).2] hoq
        rw [hb, bind'_ok, ef, bind'_ok, bind'_ok]
        simp only
        split
        · obtain ⟨h2, ef2, o2⟩ := owns_release hw [some (h.alloc reg).2] [] o'
          rw [ef2, bind'_ok]
          exact ⟨_, rfl, fun _ => o2, nofun⟩
        · exact ⟨_, rfl, fun hc => (hc.elim nofun fun h => absurd h hne), fun _ => ⟨_, o'⟩⟩

/-- **C83** (memory of `vmasa`): for input that fits into the buffer and is not badly padded the command is defined.  The
decoded voucher stays allocated also on success. -/
theorem C83_vmasa_memory {O : Ossl} (hsm : Small O) (S : Sys O) {e : PledgeEnv} (hr : Ready e) (hblk : e.blk.length = 4)
    (inFile : Bytes) (reg : FileRes) (hreg : reg ≠ .unset) (inbuf input : Bytes) (hin : inbuf.length = 4096)
    (hlen : input.length < 4096) (hpad : ¬ BadPadding (padded input)) (al : Allocator) (o : Bytes) (io : Io) {h : Heap} (hw : h.Wf) :
    ∃ r, vmasa S e inFile reg inbuf input al o io h = .ok r ∧ (r.ok = true → ∃ p, Owns h r.heap [some p]) ∧
      (r.ok = false → ∃ m t p, Owns h r.heap [t, p, m]) := by
  unfold vmasa
  split
  · exact ⟨_, rfl, nofun, fun _ => ⟨none, none, none, owns_none.2 (owns_none.2 (owns_none.2 (owns_nil hw)))⟩⟩
  rcases readStdin_inv (input := input) hin with ⟨hl, -⟩ | ⟨-, buf, hr', hwr⟩
  · omega
  rw [hr', bind'_ok]
  simp only
  rw [hwr, bind'_ok, List.take_left]
  have hdec : ∃ m, decodeInput e.masaAl e.blk h input = .ok m ∧ Owns h m.heap [m.ptr] ∧
      ((∃ c, m.arr = .of c ∧ m.ptr ≠ none) ∨ m.arr = ⟨none, sizeMax⟩) := by
    rcases decodeInput_cases e.masaAl e.blk hblk h input (by omega) with ⟨c, -, g⟩ | ⟨-, g⟩ | ⟨g1, g⟩
    · exact ⟨_, g, owns_alloc (owns_nil hw) c, .inl ⟨c, rfl, nofun⟩⟩
    · exact ⟨_, g, owns_none.2 (owns_nil hw), .inr rfl⟩
    · exact absurd ((dangling_iff _ _ _ hblk (by omega)).1 g1).2.2 hpad
  obtain ⟨m, hm, hom, hcase⟩ := hdec
  rw [hm, bind'_ok]
  cases reg with
  | unset => exact absurd rfl hreg
  | bad =>
    exact ⟨_, rfl, nofun, fun _ => ⟨m.ptr, none, none, owns_none.2 (owns_none.2 hom)⟩⟩
  | der cert =>
    simp only [readFile, bind'_ok]
    rw [show (m.heap.alloc cert).1.read (m.heap.alloc cert).2 = .ok cert by simp [Heap.read, Heap.alloc], bind'_ok]
    obtain ⟨⟨vh, vp⟩, hv, hov⟩ := verifyRequest_owns hsm hr m.arr (hcase.imp (fun ⟨c, h, _⟩ => ⟨c, h⟩) id) cert hw
      (owns_alloc hom cert)
    rw [hv, bind'_ok]
    cases vp with
    | none =>
      exact ⟨_, rfl, nofun, fun _ => ⟨m.ptr, none, some (m.heap.alloc cert).2, hov⟩⟩
    | some p =>
      simp only at hov ⊢
      obtain ⟨r, e1, q1, q2⟩ := putOut_owns S al o io [] p [some (m.heap.alloc cert).2] [m.ptr] hw
        (owns_perm (List.Perm.swap _ _ _) hov)
      refine ⟨r, e1, fun hok => ?_, fun hf => ⟨_, _, _, q2 hf⟩⟩
      cases hmp : m.ptr with
      | some q => exact ⟨q, by rw [← hmp]; exact q1 hok⟩
      | none =>
        exfalso
        rcases hcase with ⟨c, -, hne⟩ | hs
        · exact hne hmp
        · obtain ⟨n, pin, -, hacc, -⟩ := (verifyRequest_inv hr.sized hv).2 p rfl
          rw [hs, verify_failed] at hacc
          cases hacc
