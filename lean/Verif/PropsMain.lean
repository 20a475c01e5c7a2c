import Verif.MainLemmas
import Verif.PropsUtils
import Verif.PropsNames

/-!
# C83: results of the client commands
-/

namespace Brski.Props
open Outcome Brski.Voucher DlList Config Cli Crypto Base64 BoolTime Request Server Pledge Main Brski.Spec

/-! ## Specification -/

/-- The name under which a result is stored: the name asked for with the extension, cut to 254 bytes. -/
def storedAs (o ext : Bytes) : Bytes := (o.takeWhile (· ≠ 0) ++ ext).take 254

/-- A result goes to standard output as one line of base64 and no file changes, or it goes to a file that then holds what the
disc keeps of `text`, no other file changes and nothing is printed. -/
def Delivered (keeps : Bytes → Bytes → Bytes) (o name result : Bytes) (text : Option Bytes) (io io' : Io) : Prop :=
  if o = [] then io'.out = io.out ++ rfc4648 result ++ [10] ∧ io'.files = io.files
  else io'.out = io.out ∧ ∃ t, text = some t ∧ ∀ n, io'.files n = if n = name then some (keeps name t) else io.files n

/-- Nothing was printed, and no file but `name` has changed. -/
def OnlyFile (name : Bytes) (io io' : Io) : Prop := io'.out = io.out ∧ ∀ n, n ≠ name → io'.files n = io.files n

/-- The text of a certificate, private key or message in a file; `none` when OpenSSL cannot read the bytes or fails to write. -/
def pemOf {α : Type} (d2i : Bytes → Option α) (pem : α → Bytes × Bool) (der : Bytes) : Option Bytes :=
  (d2i der).bind fun c => if (pem c).2 then some (pem c).1 else none

/-- The text that has been handed to the file by then, also when writing failed. -/
def begun {α : Type} (d2i : Bytes → Option α) (pem : α → Bytes × Bool) (der : Bytes) : Bytes :=
  match d2i der with
  | none => []
  | some c => (pem c).1

/-! ## The functions that put something out -/

theorem certToFile_inv {O : Ossl} (S : Sys O) (der name : Bytes) (io : Io) :
    OnlyFile name io (certToFile S der name io).1 ∧ ((certToFile S der name io).2 = true →
      ∃ t, pemOf O.d2iX509 S.pemCert der = some t ∧
        ∀ n, (certToFile S der name io).1.files n = if n = name then some (S.keeps name t) else io.files n) := by
  unfold certToFile pemOf
  split
  · cases O.d2iX509 der with
    | none => exact ⟨⟨rfl, fun n hn => by simp [Io.put, hn]⟩, nofun⟩
    | some c =>
      refine ⟨⟨rfl, fun n hn => by simp [Io.put, hn]⟩, fun h => ?_⟩
      simp only at h
      exact ⟨_, by simp [h], fun n => rfl⟩
  · exact ⟨⟨rfl, fun _ _ => rfl⟩, nofun⟩

theorem keyToFile_inv {O : Ossl} (S : Sys O) (der name : Bytes) (io : Io) :
    OnlyFile name io (keyToFile S der name io).1 ∧ ((keyToFile S der name io).2 = true →
      ∃ t, pemOf O.d2iKey S.pemKey der = some t ∧
        ∀ n, (keyToFile S der name io).1.files n = if n = name then some (S.keeps name t) else io.files n) := by
  unfold keyToFile pemOf
  split
  · cases O.d2iKey der with
    | none => exact ⟨⟨rfl, fun n hn => by simp [Io.put, hn]⟩, nofun⟩
    | some c =>
      refine ⟨⟨rfl, fun n hn => by simp [Io.put, hn]⟩, fun h => ?_⟩
      simp only at h
      exact ⟨_, by simp [h], fun n => rfl⟩
  · exact ⟨⟨rfl, fun _ _ => rfl⟩, nofun⟩

theorem cmsToFile_inv {O : Ossl} (S : Sys O) (der name : Bytes) (io : Io) :
    OnlyFile name io (cmsToFile S der name io).1 ∧ ((cmsToFile S der name io).2 = true →
      ∃ t, pemOf O.d2iCms S.smime der = some t ∧
        ∀ n, (cmsToFile S der name io).1.files n = if n = name then some (S.keeps name t) else io.files n) := by
  unfold cmsToFile pemOf
  cases O.d2iCms der with
  | none => exact ⟨⟨rfl, fun n hn => rfl⟩, nofun⟩
  | some c =>
    simp only
    split
    · refine ⟨⟨rfl, fun n hn => by simp [Io.put, hn]⟩, fun h => ?_⟩
      simp only at h
      exact ⟨_, by simp [h], fun n => rfl⟩
    · exact ⟨⟨rfl, fun _ _ => rfl⟩, nofun⟩

theorem certToFile_out {O : Ossl} (S : Sys O) (der name : Bytes) (io : Io) : (certToFile S der name io).1.out = io.out :=
  (certToFile_inv S der name io).1.1

theorem outputDomainCert_inv {O : Ossl} {S : Sys O} {al : Allocator} {cert o : Bytes} {io io' : Io} {b : Bool}
    (h : outputDomainCert S al cert o io = .ok (io', b)) :
    (b = true → Delivered S.keeps o (storedAs o (str ".crt")) cert (pemOf O.d2iX509 S.pemCert cert) io io') ∧
    (b = false → OnlyFile (storedAs o (str ".crt")) io io' ∧ (o = [] → io' = io)) := by
  unfold outputDomainCert at h
  unfold Delivered
  by_cases ho : o = []
  · simp only [ho, if_true] at h ⊢
    cases hs : array2base64str al cert with
    | ub => rw [hs] at h; cases h
    | ok s =>
      rw [hs, bind'_ok] at h
      cases s with
      | none => cases h; exact ⟨nofun, fun _ => ⟨⟨rfl, fun _ _ => rfl⟩, fun _ => rfl⟩⟩
      | some s =>
        obtain ⟨buf, m⟩ := s
        cases h
        refine ⟨fun _ => ⟨?_, rfl⟩, nofun⟩
        simp only [printText, Io.print, cstr_encoded hs, List.append_assoc]
  · simp only [ho, if_false] at h ⊢
    have hi := certToFile_inv S cert (storedAs o (str ".crt")) io
    have hn : outName o (str ".crt") = storedAs o (str ".crt") := rfl
    rw [hn] at h
    simp only [Outcome.ok.injEq] at h
    rw [h] at hi
    simp only at hi
    exact ⟨fun hb => ⟨hi.1.1, hi.2 hb⟩, fun _ => ⟨hi.1, fun hh => absurd hh (by simp)⟩⟩

/-- Success delivers, failure changes at most the file asked for (nothing when no file was asked for). -/
def Outputs {O : Ossl} (S : Sys O) (o cert : Bytes) (io : Io) (r : Ended) : Prop :=
  (r.ok = true → Delivered S.keeps o (storedAs o (str ".crt")) cert (pemOf O.d2iX509 S.pemCert cert) io r.io) ∧
  (r.ok = false → OnlyFile (storedAs o (str ".crt")) io r.io ∧ (o = [] → r.io = io))

theorem putOut_inv {O : Ossl} {S : Sys O} {al : Allocator} {o : Bytes} {io : Io} {sent : List Msg} {p : Nat} {ps : List (Option Nat)}
    {h : Heap} {r : Ended} (he : putOut S al o io sent p ps h = .ok r) :
    r.sent = sent ∧ ∃ cert, h.blk p = some cert ∧ Outputs S o cert io r := by
  unfold putOut at he
  cases hb : h.blk p with
  | none => simp only [Heap.read, hb] at he; cases he
  | some cert =>
    simp only [Heap.read, hb, bind'_ok] at he
    cases ho : outputDomainCert S al cert o io with
    | ub => rw [ho] at he; cases he
    | ok x =>
      rw [ho, bind'_ok] at he
      obtain ⟨io', b⟩ := x
      have hi := outputDomainCert_inv ho
      cases b with
      | true =>
        simp only [if_true] at he
        cases hf : freeAll h (ps ++ [some p]) with
        | ub => rw [hf] at he; cases he
        | ok h' => rw [hf, bind'_ok] at he; cases he; exact ⟨rfl, cert, rfl, fun _ => hi.1 rfl, nofun⟩
      | false =>
        simp only [Bool.false_eq_true, if_false] at he
        cases he
        exact ⟨rfl, cert, rfl, nofun, fun _ => hi.2 rfl⟩

theorem preq_inv {O : Ossl} (hsm : Small O) {S : Sys O} {e : PledgeEnv} {net : Net} (hsz : RunSized e net) {al : Allocator}
    {o : Bytes} {io : Io} {h : Heap} {r : Ended} (he : preq S e net al o io h = .ok r) :
    (r.ok = false ∧ r.io = io) ∨
    ∃ a1 r1 cms a2 r2 pin, net.first = some a1 ∧ a1.cert = some r1 ∧ Asked O e r1 cms ∧
      r.sent = [.voucher [], .voucher (rfc4648 cms)] ∧ net.second (rfc4648 cms) = some a2 ∧ Checked O e a2 r2 pin ∧
      Outputs S o pin io r := by
  unfold preq at he
  cases hp : postVoucher O e net h with
  | ub => rw [hp] at he; cases he
  | ok x =>
    rw [hp, bind'_ok] at he
    obtain ⟨-, hx⟩ := postVoucher_inv hsm hsz.1 hsz.2 hp
    cases hpin : x.pinned with
    | none => rw [hpin] at he; cases he; exact .inl ⟨rfl, rfl⟩
    | some p =>
      rw [hpin] at he hx
      obtain ⟨hs, cert, hc, ho⟩ := putOut_inv he
      rcases hx with ⟨hx, -⟩ | ⟨a1, r1, cms, h1, h2, h3, h4, h5⟩
      · cases hx
      · obtain ⟨-, a2, r2, pin, h6, h7, h8⟩ := h5 p rfl
        have := h8 cert hc
        subst this
        exact .inr ⟨a1, r1, cms, a2, r2, cert, h1, h2, h3, by rw [hs, h4], h6, h7, ho⟩

/-- What `sign` does with certificate and key: two lines, or two files; when it fails, at most the two files have changed, and
only the certificate can have been printed. -/
def SignOutputs {O : Ossl} (S : Sys O) (o crt key : Bytes) (io : Io) (r : Ended) : Prop :=
  (r.ok = true → o = [] → r.io.out = io.out ++ rfc4648 crt ++ [10] ++ rfc4648 key ++ [10] ∧ r.io.files = io.files) ∧
  (r.ok = true → o ≠ [] → r.io.out = io.out ∧ ∃ c k, pemOf O.d2iX509 S.pemCert crt = some c ∧ pemOf O.d2iKey S.pemKey key = some k ∧
    ∀ n, r.io.files n = if n = storedAs o (str ".key") then some (S.keeps n k)
      else if n = storedAs o (str ".crt") then some (S.keeps n c) else io.files n) ∧
  (r.ok = false → o = [] → r.io.files = io.files ∧ (r.io.out = io.out ∨ r.io.out = io.out ++ rfc4648 crt ++ [10])) ∧
  (r.ok = false → o ≠ [] → r.io.out = io.out ∧
    ∀ n, n ≠ storedAs o (str ".crt") → n ≠ storedAs o (str ".key") → r.io.files n = io.files n) ∧
  (o ≠ [] → S.opens (storedAs o (str ".crt")) = true → pemOf O.d2iX509 S.pemCert crt = none →
    r.ok = false ∧ r.io.files (storedAs o (str ".crt")) = some (S.keeps (storedAs o (str ".crt")) (begun O.d2iX509 S.pemCert crt)))

/-- The file is emptied before the conversion. -/
theorem certToFile_bad {O : Ossl} (S : Sys O) (der name : Bytes) (io : Io) (hop : S.opens name = true)
    (hd : pemOf O.d2iX509 S.pemCert der = none) :
    certToFile S der name io = (io.put name (S.keeps name (begun O.d2iX509 S.pemCert der)), false) := by
  unfold certToFile begun
  unfold pemOf at hd
  rw [if_pos hop]
  cases hc : O.d2iX509 der with
  | none => rfl
  | some c =>
    rw [hc] at hd
    cases hb : (S.pemCert c).2 with
    | false => simp [hb]
    | true => simp [hb] at hd

theorem sign_inv {O : Ossl} (hsm : Small O) {S : Sys O} {e : PledgeEnv} {g : Gen} {net : Net} (hsz : RunSized e net)
    (hen : NetSized e g net) {alC alK : Allocator} {o : Bytes} {io : Io} {h : Heap} {r : Ended}
    (he : sign S e g net alC alK o io h = .ok r) :
    (r.ok = false ∧ r.io = io) ∨
    ∃ a1 r1 cms a2 r2 pin key own s body crt, net.first = some a1 ∧ a1.cert = some r1 ∧ Asked O e r1 cms ∧
      net.second (rfc4648 cms) = some a2 ∧ Checked O e a2 r2 pin ∧ g.key = some key ∧ g.cert key = some own ∧
      r.sent = [.voucher [], .voucher (rfc4648 cms), .enrol (pemText pin) (rfc4648 own)] ∧
      net.enrol (pemText pin) (rfc4648 own) = some (s, body) ∧ s < 400 ∧ BodyDecodes g.al g.blk body crt ∧
      SignOutputs S o crt key io r := by
  unfold sign at he
  cases hp : postSignCert O e g net h with
  | ub => rw [hp] at he; cases he
  | ok x =>
    rw [hp, bind'_ok] at he
    have hx := postSignCert_inv hsm hsz.1 hsz.2 hen.2 hp
    cases hout : x.out with
    | none => rw [hout] at he; cases he; exact .inl ⟨rfl, rfl⟩
    | some ck =>
      obtain ⟨c, k⟩ := ck
      rw [hout] at he hx
      rcases hx with ⟨hx, -⟩ | ⟨a1, r1, cms, a2, r2, pin, key, own, h1, h2, h3, h4, h5, h6, h7, h8, h9⟩
      · cases hx
      · obtain ⟨s, body, crt, q1, q2, q3, q4, q5⟩ := h9 c k rfl
        rw [certString_pem] at h8 q1
        simp only at he
        cases hc : x.heap.blk c with
        | none => simp only [Heap.read, hc] at he; cases he
        | some cert =>
          cases hk : x.heap.blk k with
          | none => simp only [Heap.read, hc, hk, bind'_ok] at he; cases he
          | some ky =>
            have e1 := q4 cert hc
            have e2 := q5 ky hk
            subst e1 e2
            simp only [Heap.read, hc, hk, bind'_ok] at he
            suffices hr : r.sent = x.sent ∧ SignOutputs S o cert ky io r from
              .inr ⟨a1, r1, cms, a2, r2, pin, ky, own, s, body, cert, h1, h2, h3, h4, h5, h6, h7, by rw [hr.1, h8], q1, q2, q3, hr.2⟩
            by_cases ho : o = []
            · rw [if_pos ho] at he
              cases hb : array2base64str alC cert with
              | ub => rw [hb] at he; cases he
              | ok b =>
                rw [hb, bind'_ok] at he
                cases b with
                | none =>
                  cases he
                  exact ⟨rfl, nofun, nofun, fun _ _ => ⟨rfl, .inl rfl⟩, fun _ h => absurd ho h, fun h => absurd ho h⟩
                | some b =>
                  obtain ⟨buf, m⟩ := b
                  simp only at he
                  have t1 := cstr_encoded hb
                  cases hb2 : array2base64str alK ky with
                  | ub => rw [hb2] at he; cases he
                  | ok b =>
                    rw [hb2, bind'_ok] at he
                    cases b with
                    | none =>
                      cases he
                      refine ⟨rfl, nofun, nofun, fun _ _ => ⟨rfl, .inr ?_⟩, fun _ h => absurd ho h, fun h => absurd ho h⟩
                      simp only [printText, Io.print, t1, List.append_assoc]
                    | some b2 =>
                      obtain ⟨buf2, m2⟩ := b2
                      simp only at he
                      cases hf : freeAll x.heap [some c, some k] with
                      | ub => rw [hf] at he; cases he
                      | ok h' =>
                        rw [hf, bind'_ok] at he
                        cases he
                        refine ⟨rfl, fun _ _ => ⟨?_, rfl⟩, fun _ h => absurd ho h, nofun, nofun, fun h => absurd ho h⟩
                        simp only [printText, Io.print, t1, cstr_encoded hb2, List.append_assoc]
            · rw [if_neg ho] at he
              have i1 := certToFile_inv S cert (storedAs o (str ".crt")) io
              rw [show outName o (str ".crt") = storedAs o (str ".crt") from rfl,
                show outName o (str ".key") = storedAs o (str ".key") from rfl] at he
              have i0 := certToFile_bad S cert (storedAs o (str ".crt")) io
              generalize certToFile S cert (storedAs o (str ".crt")) io = X at he i1 i0
              cases hx2 : X.2 with
              | false =>
                rw [hx2] at he
                cases he
                exact ⟨rfl, nofun, nofun, fun _ h => absurd h ho, fun _ _ => ⟨i1.1.1, fun n hn _ => i1.1.2 n hn⟩, fun _ q1 q2 => by
                  rw [i0 q1 q2]; exact ⟨rfl, if_pos rfl⟩⟩
              | true =>
                rw [hx2, if_pos rfl] at he
                have i2 := keyToFile_inv S ky (storedAs o (str ".key")) X.1
                generalize keyToFile S ky (storedAs o (str ".key")) X.1 = Y at he i2
                cases hy2 : Y.2 with
                | false =>
                  rw [hy2] at he
                  cases he
                  exact ⟨rfl, nofun, nofun, fun _ h => absurd h ho, fun _ _ => ⟨i2.1.1.trans i1.1.1, fun n hn hn' => by
                    rw [← i1.1.2 n hn]; exact i2.1.2 n hn'⟩, fun _ q1 q2 => by
                    rw [i0 q1 q2] at hx2; cases hx2⟩
                | true =>
                  rw [hy2, if_pos rfl] at he
                  cases hf : freeAll x.heap [some c, some k] with
                  | ub => rw [hf] at he; cases he
                  | ok h' =>
                    rw [hf, bind'_ok] at he
                    cases he
                    refine ⟨rfl, fun _ h => absurd h ho, fun _ _ => ⟨i2.1.1.trans i1.1.1, ?_⟩, nofun, nofun, fun _ q1 q2 => by
                      rw [i0 q1 q2] at hx2; cases hx2⟩
                    obtain ⟨t1, p1, f1⟩ := i1.2 hx2
                    obtain ⟨t2, p2, f2⟩ := i2.2 hy2
                    refine ⟨t1, t2, p1, p2, fun n => ?_⟩
                    simp only [f2 n, f1 n]
                    split
                    · rename_i e; rw [e]
                    · split
                      · rename_i e; rw [e]
                      · rfl

/-- `epvr`: on success the request for the certificate found is on standard output in base64, or in the file. -/
theorem exportPvr_inv {O : Ossl} {S : Sys O} {e : PledgeEnv} (hs : ∀ s, e.nonce = some s → Sized e.blk s) {tls : FileRes}
    {o : Bytes} {io : Io} {h : Heap} {r : Ended} (he : exportPvr S e tls o io h = .ok r) :
    r.sent = [] ∧
    (r.ok = false → OnlyFile (storedAs o (str ".smime")) io r.io ∧ (o = [] → r.io = io)) ∧
    (r.ok = true → ∃ reg cms, tls = .der reg ∧ Asked O e reg cms ∧
      Delivered S.keeps o (storedAs o (str ".smime")) cms (pemOf O.d2iCms S.smime cms) io r.io) := by
  unfold exportPvr at he
  cases tls with
  | unset => cases he
  | bad => cases he; exact ⟨rfl, fun _ => ⟨⟨rfl, fun _ _ => rfl⟩, fun _ => rfl⟩, nofun⟩
  | der reg =>
    simp only [readFile, bind'_ok] at he
    rw [show (h.alloc reg).1.read (h.alloc reg).2 = .ok reg by simp [Heap.read, Heap.alloc], bind'_ok] at he
    by_cases ho : o = []
    · rw [if_pos ho] at he
      cases hq : requestText O e reg (h.alloc reg).1 with
      | ub => rw [hq] at he; cases he
      | ok q =>
        rw [hq, bind'_ok] at he
        obtain ⟨-, hq⟩ := requestText_inv hs hq
        obtain ⟨qh, qp⟩ := q
        cases qp with
        | none =>
          simp only at he
          cases hf : freeAll qh [some (h.alloc reg).2] with
          | ub => rw [hf] at he; cases he
          | ok h' =>
            rw [hf, bind'_ok] at he; cases he
            exact ⟨rfl, fun _ => ⟨⟨rfl, fun _ _ => rfl⟩, fun _ => rfl⟩, nofun⟩
        | some p =>
          simp only at he
          cases hb : qh.blk p with
          | none => simp only [Heap.read, hb] at he; cases he
          | some text =>
            simp only [Heap.read, hb, bind'_ok] at he
            cases hf : freeAll qh [some p, some (h.alloc reg).2] with
            | ub => rw [hf] at he; cases he
            | ok h' =>
              rw [hf, bind'_ok] at he; cases he
              obtain ⟨t, n, cms, e1, e2, e3, -, e4⟩ := hq p rfl
              refine ⟨rfl, nofun, fun _ => ⟨reg, cms, rfl, ⟨t, n, e1, e2, e3⟩, ?_⟩⟩
              unfold Delivered
              rw [if_pos ho]
              simp only [printText, Io.print, e4 text hb, List.append_assoc, and_self]
    · rw [if_neg ho] at he
      rw [show outName o (str ".smime") = storedAs o (str ".smime") from rfl] at he
      unfold requestFile at he
      cases hq : requestArray O e reg (h.alloc reg).1 with
      | ub => rw [hq] at he; cases he
      | ok q =>
        rw [hq, bind'_ok] at he
        obtain ⟨-, hq⟩ := requestArray_inv hs hq
        obtain ⟨qh, qp⟩ := q
        cases qp with
        | none =>
          simp only [bind'_ok, Bool.false_eq_true, if_false] at he
          cases he
          exact ⟨rfl, fun _ => ⟨⟨rfl, fun _ _ => rfl⟩, fun _ => rfl⟩, nofun⟩
        | some p =>
          simp only at he
          cases hb : qh.blk p with
          | none => simp only [Heap.read, hb] at he; cases he
          | some cms =>
            simp only [Heap.read, hb, bind'_ok] at he
            have hi := cmsToFile_inv S cms (storedAs o (str ".smime")) io
            generalize cmsToFile S cms (storedAs o (str ".smime")) io = X at he hi
            cases hf : freeAll qh [some p] with
            | ub => rw [hf] at he; cases he
            | ok h' =>
              rw [hf, bind'_ok, bind'_ok] at he
              simp only at he
              cases hx : X.2 with
              | false =>
                rw [hx] at he
                cases he
                exact ⟨rfl, fun _ => ⟨hi.1, fun h => absurd h ho⟩, nofun⟩
              | true =>
                rw [hx, if_pos rfl] at he
                cases hf2 : freeAll h' [some (h.alloc reg).2] with
                | ub => rw [hf2] at he; cases he
                | ok h'' =>
                  rw [hf2, bind'_ok] at he
                  cases he
                  obtain ⟨t, n, cms', e1, e2, e3, -, e4⟩ := hq p rfl
                  have := e4 cms hb
                  subst this
                  refine ⟨rfl, nofun, fun _ => ⟨reg, cms, rfl, ⟨t, n, e1, e2, e3⟩, ?_⟩⟩
                  unfold Delivered
                  rw [if_neg ho]
                  exact ⟨hi.1.1, hi.2 hx⟩

theorem decodeInput_cases (al : Allocator) (blk : Bytes) (hblk : blk.length = 4) (h : Heap) (text : Bytes)
    (hsz : text.length < 2 ^ 63) :
    (∃ c, base64str2array al blk text = .ok (some c.length, .owned c) ∧
      decodeInput al blk h text = .ok ⟨(h.alloc c).1, some c.length, some (h.alloc c).2, c⟩) ∨
    (base64str2array al blk text = .ok (none, .null) ∧ decodeInput al blk h text = .ok ⟨h, none, none, []⟩) ∨
    (base64str2array al blk text = .ok (none, .dangling) ∧
      decodeInput al blk h text = .ok ⟨(burn h).1, none, some (burn h).2, []⟩) := by
  have hg := genDecode_spec al blk text hblk hsz
  unfold decodeInput
  have hb : base64str2array al blk text = genDecode al blk text := by
    unfold base64str2array
    rw [hg]
    split
    · rfl
    · split
      · rfl
      · split <;> rfl
  rw [hb, hg]
  split
  · exact .inr (.inl ⟨rfl, rfl⟩)
  · split
    · exact .inr (.inl ⟨rfl, rfl⟩)
    · split
      · exact .inr (.inr ⟨rfl, rfl⟩)
      · rename_i bs _
        exact .inl ⟨bs, rfl, rfl⟩

theorem readStdin_inv {inbuf input : Bytes} (hin : inbuf.length = 4096) :
    (4096 ≤ input.length ∧ ((Utils.readStdin input 0 inbuf).bind fun r => match r.2 with
      | none => .ok none
      | some sz => (wr r.1 sz 0).bind fun b => .ok (some b)) = .ub) ∨
    (input.length < 4096 ∧ ∃ buf, Utils.readStdin input 0 inbuf = .ok (buf, some input.length) ∧
      wr buf input.length 0 = .ok (input ++ 0 :: inbuf.drop (input.length + 1))) := by
  by_cases hl : input.length < 4096
  · right
    have hr := readStdin_spec input [] inbuf (by simpa using hin)
    simp only [List.nil_append, List.length_nil, Nat.zero_add, hin] at hr
    rw [if_pos (by omega)] at hr
    refine ⟨hl, _, hr, ?_⟩
    have hd : inbuf.drop input.length = inbuf[input.length] :: inbuf.drop (input.length + 1) :=
      List.drop_eq_getElem_cons (by omega)
    rw [hd, wr_at]
  · left
    exact ⟨by omega, C48_violated_overrun inbuf input hin (by omega)⟩

/-- `vmasa`: on success standard input decodes to an acceptable voucher, whose pinned certificate was put out; the
certificate in the input file was built into a chain with it. -/
theorem vmasa_inv {O : Ossl} (hsm : Small O) {S : Sys O} {e : PledgeEnv} (hs : ∀ s, e.nonce = some s → Sized e.blk s)
    (hblk : e.blk.length = 4) {inFile : Bytes} {reg : FileRes} {inbuf input : Bytes} (hin : inbuf.length = 4096) {al : Allocator} {o : Bytes} {io : Io}
    {h : Heap} {r : Ended} (he : vmasa S e inFile reg inbuf input al o io h = .ok r) :
    r.sent = [] ∧
    ((r.ok = false ∧ r.io = io) ∨
     inFile ≠ [] ∧ input.length < 4096 ∧ ∃ cert c s n v pin, reg = .der cert ∧
      base64str2array e.masaAl e.blk input = .ok (some c.length, .owned c) ∧ e.serial = some s ∧ NonceIs e 1 n ∧
      Acceptable O e.verRt c e.verifyCerts.certs e.verifyStore.certs s n v pin ∧ ChainBuilt O cert pin none ∧
      Outputs S o pin io r) := by
  unfold vmasa at he
  by_cases hf : inFile = []
  · rw [if_pos hf] at he; cases he; exact ⟨rfl, .inl ⟨rfl, rfl⟩⟩
  rw [if_neg hf] at he
  rcases readStdin_inv (input := input) hin with ⟨hl, hub⟩ | ⟨hl, buf, hr, hw⟩
  · exfalso
    cases hr : Utils.readStdin input 0 inbuf with
    | ub => rw [hr] at he; cases he
    | ok x =>
      rw [hr, bind'_ok] at he hub
      obtain ⟨b, k⟩ := x
      cases k with
      | none => cases hub
      | some sz =>
        simp only at he hub
        cases hw : wr b sz 0 with
        | ub => rw [hw] at he; cases he
        | ok y => rw [hw] at hub; cases hub
  · rw [hr, bind'_ok] at he
    simp only at he
    rw [hw, bind'_ok, List.take_left] at he
    cases hd : decodeInput e.masaAl e.blk h input with
    | ub => rw [hd] at he; cases he
    | ok m =>
      rw [hd, bind'_ok] at he
      cases reg with
      | unset => cases he
      | bad => cases he; exact ⟨rfl, .inl ⟨rfl, rfl⟩⟩
      | der cert =>
        simp only [readFile, bind'_ok] at he
        rw [show (m.heap.alloc cert).1.read (m.heap.alloc cert).2 = .ok cert by simp [Heap.read, Heap.alloc], bind'_ok] at he
        cases hv : verifyRequest O e m.arr cert (m.heap.alloc cert).1 with
        | ub => rw [hv] at he; cases he
        | ok v =>
          rw [hv, bind'_ok] at he
          obtain ⟨-, h4⟩ := verifyRequest_inv hs hv
          obtain ⟨vh, vp⟩ := v
          cases vp with
          | none => cases he; exact ⟨rfl, .inl ⟨rfl, rfl⟩⟩
          | some p =>
            simp only at he
            obtain ⟨hsent, pc, hpc, hout⟩ := putOut_inv he
            refine ⟨hsent, .inr ⟨hf, hl, ?_⟩⟩
            obtain ⟨n, pin, hn, hacc, -, hq2⟩ := h4 p rfl
            have hpin := hq2 pc hpc
            rcases decodeInput_cases e.masaAl e.blk hblk h input (by omega) with ⟨c', g1, g2⟩ | ⟨g1, g2⟩ | ⟨g1, g2⟩
            · rw [g2] at hd
              cases hd
              rw [show Body.arr ⟨(h.alloc c').1, some c'.length, some (h.alloc c').2, c'⟩ = .of c' from rfl] at hacc
              obtain ⟨x, s, v, pb, rr, e1, e2, e3, e4, e5, rfl⟩ := C32_acceptance O hsm e.verRt _ _ _ _ _ _ _ _
                (fun y hy => by cases hy; exact wf_of c') hn.wf (wf_of cert) _ hacc
              cases e1
              have hrr : cert = rr := by simpa [BinArr.of] using congrArg BinArr.array e3
              subst hrr
              have : pc = pb := by simpa [BinArr.of] using hpin
              subst this
              exact ⟨cert, c', s, n, v, pc, rfl, g1, e2, hn, by simpa [Props.content, BinArr.of] using e4, e5, hout⟩
            · rw [g2] at hd
              cases hd
              rw [show Body.arr ⟨h, none, none, []⟩ = ⟨none, sizeMax⟩ from rfl, verify_failed] at hacc
              cases hacc
            · rw [g2] at hd
              cases hd
              rw [show Body.arr ⟨(burn h).1, none, some (burn h).2, []⟩ = ⟨none, sizeMax⟩ from rfl, verify_failed] at hacc
              cases hacc

/-! ## `main` -/

/-- Sizes that hold on every machine: the arrays on the stack have the size they are declared with, and no answer is longer
than the address space. -/
structure Machine {O : Ossl} (W : World O) : Prop where
  blk : W.rt.blk.length = 4
  genBlk : W.gen.blk.length = 4
  inbuf : W.inbuf.length = 4096
  second : ∀ a p t ans, (W.net a p).second t = some ans → (cstr ans.body).length < 2 ^ 63
  enrol : ∀ a p ca t s b, (W.net a p).enrol ca t = some (s, b) → (cstr b).length < 2 ^ 63

theorem configured_sized {O : Ossl} {W : World O} (hM : Machine W) {f : Ini.IniFile} {addr : Option Bytes} {e : PledgeEnv}
    (hc : Configured W f addr e) : (∀ s, e.nonce = some s → Sized e.blk s) ∧ e.blk = W.rt.blk ∧ e.address = addr := by
  obtain ⟨A, V, S, rfl, -⟩ := hc
  refine ⟨fun s hs => ⟨hM.blk, ?_⟩, rfl, rfl⟩
  simp only [settingOf] at hs
  split at hs
  · cases hs
  · cases hs
    unfold cstr
    have h1 := (List.takeWhile_sublist (· ≠ 0) (l := (((Spec.iniValue (str "nonce") (Spec.iniEntries (str "pledge") f)).getD []).take
      2047).takeWhile (· ≠ 0))).length_le
    have h2 := (List.takeWhile_sublist (· ≠ 0) (l := ((Spec.iniValue (str "nonce") (Spec.iniEntries (str "pledge") f)).getD []).take
      2047)).length_le
    have h3 := List.length_take_le 2047 ((Spec.iniValue (str "nonce") (Spec.iniEntries (str "pledge") f)).getD [])
    omega

/-- The process ended with a failure; nothing was printed and no file has changed. -/
def Quiet (io : Io) (d : Done) : Prop := d = .early false ∨ ∃ cmd r, d = .ran cmd r ∧ r.ok = false ∧ r.io = io

/-- What a command other than `serial` runs with. -/
theorem main_command {O : Ossl} {W : World O} (hs : SoundHost W) {args : List Bytes} {o : Opts} {cmd : Command}
    (hopt : processOptions W.help args = .ok (.run o cmd)) (hcmd : cmd ≠ .getSerial) {m : Mem} (hw : Wf m) {io : Io} {h : Heap}
    {d : Done} (he : main W args m io h = .ok d) :
    d = .early false ∨ ∃ m' c f e, W.ini o.config = some f ∧ envOf W m' c = .ok e ∧ Configured W f (addressOf f o cmd) e ∧
      strOf m' (c (.str .registrar .tlsCert)) = .ok (settingOf f (str "registrar") (str "tlsCertPath") [] 2047) ∧
      command W o cmd m' c (portFor W o cmd) io h = .ok d := by
  unfold main at he
  rcases prepare_env hs hopt hcmd hw with hx | ⟨m', c, f, e, h1, h2, h3, h4, h5, -⟩
  · left
    cases hp : prepare W.help W.conf W.dup W.ini W.port args m with
    | ub => rw [hp] at hx; cases hx
    | ok p =>
      rw [hp, bind'_ok] at hx he
      cases p with
      | go => cases hx
      | exit s _ => cases hx; cases he; rfl
  · right
    rw [h1, bind'_ok] at he
    simp only at he
    cases hc : command W o cmd m' c (portFor W o cmd) io h with
    | ub => rw [hc] at he; cases he
    | ok d' =>
      rw [hc, bind'_ok] at he
      cases hf : freeConfig m' c with
      | ub => rw [hf] at he; cases he
      | ok z =>
        rw [hf, bind'_ok] at he
        cases he
        exact ⟨m', c, f, e, h2, h3, h4, h5, hc⟩

/-- **C83** (`preq`): the process fails silently, or it sent the request it made for the certificate of the registrar to the
address and port given on the command line or in the configuration file, the answer passed every check with the serial number,
nonce and certificates named in the configuration file, and the certificate pinned in the answer is what is printed or stored;
if that fails, nothing else is printed or stored. -/
theorem C83_preq {O : Ossl} (hsm : Small O) {W : World O} (hs : SoundHost W) (hM : Machine W) {args : List Bytes} {o : Opts}
    (hopt : processOptions W.help args = .ok (.run o .pledgeRequest)) {m : Mem} (hw : Wf m) {io : Io} {h : Heap} {d : Done}
    (he : main W args m io h = .ok d) :
    Quiet io d ∨ ∃ r f e a1 r1 cms a2 r2 pin, d = .ran .pledgeRequest r ∧ W.ini o.config = some f ∧
      Configured W f (addressOf f o .pledgeRequest) e ∧
      let net := W.net ((addressOf f o .pledgeRequest).getD []) (portFor W o .pledgeRequest)
      net.first = some a1 ∧ a1.cert = some r1 ∧ Asked O e r1 cms ∧ r.sent = [.voucher [], .voucher (rfc4648 cms)] ∧
      net.second (rfc4648 cms) = some a2 ∧ Checked O e a2 r2 pin ∧ Outputs W.sys o.outFile pin io r := by
  rcases main_command hs hopt (by simp) hw he with rfl | ⟨m', c, f, e, h1, h2, h3, -, hc⟩
  · exact .inl (.inl rfl)
  simp only [command, h2, bind'_ok] at hc
  obtain ⟨hsz, hblk, haddr⟩ := configured_sized hM h3
  rw [haddr] at hc
  generalize hnet : W.net ((addressOf f o .pledgeRequest).getD []) (portFor W o .pledgeRequest) = net at hc
  cases hp : preq W.sys e net (W.outAl 0) o.outFile io h with
  | ub => rw [hp] at hc; cases hc
  | ok r =>
    rw [hp, bind'_ok] at hc
    cases hc
    rcases preq_inv hsm ⟨hsz, fun t a ha => ⟨by rw [hblk]; exact hM.blk, hM.second _ _ t a (by rw [hnet]; exact ha)⟩⟩ hp with
      ⟨q1, q2⟩ | ⟨a1, r1, cms, a2, r2, pin, q1, q2, q3, q4, q5, q6, q7⟩
    · exact .inl (.inr ⟨_, r, rfl, q1, q2⟩)
    · exact .inr ⟨r, f, e, a1, r1, cms, a2, r2, pin, rfl, h1, h3, by simp only [hnet]; exact ⟨q1, q2, q3, q4, q5, q6, q7⟩⟩

/-- **C83** (`sign`): the same for the certificate issued to the pledge and its private key.  The connection for the enrolment
trusts exactly the pinned certificate. -/
theorem C83_sign {O : Ossl} (hsm : Small O) {W : World O} (hs : SoundHost W) (hM : Machine W) {args : List Bytes} {o : Opts}
    (hopt : processOptions W.help args = .ok (.run o .signCert)) {m : Mem} (hw : Wf m) {io : Io} {h : Heap} {d : Done}
    (he : main W args m io h = .ok d) :
    Quiet io d ∨ ∃ r f e a1 r1 cms a2 r2 pin key own s body crt, d = .ran .signCert r ∧ W.ini o.config = some f ∧
      Configured W f (addressOf f o .signCert) e ∧
      let net := W.net ((addressOf f o .signCert).getD []) (portFor W o .signCert)
      net.first = some a1 ∧ a1.cert = some r1 ∧ Asked O e r1 cms ∧ net.second (rfc4648 cms) = some a2 ∧
      Checked O e a2 r2 pin ∧ W.gen.key = some key ∧ W.gen.cert key = some own ∧
      r.sent = [.voucher [], .voucher (rfc4648 cms), .enrol (pemText pin) (rfc4648 own)] ∧
      net.enrol (pemText pin) (rfc4648 own) = some (s, body) ∧ s < 400 ∧ BodyDecodes W.gen.al W.gen.blk body crt ∧
      SignOutputs W.sys o.outFile crt key io r := by
  rcases main_command hs hopt (by simp) hw he with rfl | ⟨m', c, f, e, h1, h2, h3, -, hc⟩
  · exact .inl (.inl rfl)
  simp only [command, h2, bind'_ok] at hc
  obtain ⟨hsz, hblk, haddr⟩ := configured_sized hM h3
  rw [haddr] at hc
  generalize hnet : W.net ((addressOf f o .signCert).getD []) (portFor W o .signCert) = net at hc
  cases hp : sign W.sys e W.gen net (W.outAl 0) (W.outAl 1) o.outFile io h with
  | ub => rw [hp] at hc; cases hc
  | ok r =>
    rw [hp, bind'_ok] at hc
    cases hc
    have h2nd : ∀ t a, net.second t = some a → Sized e.blk a.body := fun t a ha =>
      ⟨by rw [hblk]; exact hM.blk, hM.second _ _ t a (by rw [hnet]; exact ha)⟩
    rcases sign_inv hsm ⟨hsz, h2nd⟩ ⟨h2nd, fun ca t s b hb => ⟨hM.genBlk, hM.enrol _ _ ca t s b (by rw [hnet]; exact hb)⟩⟩ hp with
      ⟨q1, q2⟩ | ⟨a1, r1, cms, a2, r2, pin, key, own, s, body, crt, q⟩
    · exact .inl (.inr ⟨_, r, rfl, q1, q2⟩)
    · exact .inr ⟨r, f, e, a1, r1, cms, a2, r2, pin, key, own, s, body, crt, rfl, h1, h3, by simp only [hnet]; exact q⟩

/-- **C83** (`epvr`): on success the request for the TLS certificate named in the section of the registrar is what is printed or
stored; otherwise at most the file for it has changed.  Nothing is sent. -/
theorem C83_epvr {O : Ossl} {W : World O} (hs : SoundHost W) (hM : Machine W) {args : List Bytes} {o : Opts}
    (hopt : processOptions W.help args = .ok (.run o .exportPvr)) {m : Mem} (hw : Wf m) {io : Io} {h : Heap} {d : Done}
    (he : main W args m io h = .ok d) :
    d = .early false ∨ ∃ r f e path, d = .ran .exportPvr r ∧ W.ini o.config = some f ∧ r.sent = [] ∧
      Configured W f (addressOf f o .exportPvr) e ∧ settingOf f (str "registrar") (str "tlsCertPath") [] 2047 = some path ∧
      (r.ok = false → OnlyFile (storedAs o.outFile (str ".smime")) io r.io ∧ (o.outFile = [] → r.io = io)) ∧
      (r.ok = true → ∃ reg cms, W.certs path = some reg ∧ Asked O e reg cms ∧
        Delivered W.sys.keeps o.outFile (storedAs o.outFile (str ".smime")) cms (pemOf O.d2iCms W.sys.smime cms) io r.io) := by
  rcases main_command hs hopt (by simp) hw he with rfl | ⟨m', c, f, e, h1, h2, h3, h4, hc⟩
  · exact .inl rfl
  simp only [command, h2, h4, bind'_ok] at hc
  obtain ⟨hsz, -, -⟩ := configured_sized hM h3
  cases hp : exportPvr W.sys e (fileAt W.certs (settingOf f (str "registrar") (str "tlsCertPath") [] 2047)) o.outFile io h with
  | ub => rw [hp] at hc; cases hc
  | ok r =>
    rw [hp, bind'_ok] at hc
    cases hc
    obtain ⟨q1, q2, q3⟩ := exportPvr_inv hsz hp
    cases hpath : settingOf f (str "registrar") (str "tlsCertPath") [] 2047 with
    | none => rw [hpath] at hp; cases hp
    | some path =>
      refine .inr ⟨r, f, e, path, rfl, h1, q1, h3, hpath, q2, fun hok => ?_⟩
      obtain ⟨reg, cms, g1, g2, g3⟩ := q3 hok
      refine ⟨reg, cms, ?_, g2, g3⟩
      simp only [hpath, fileAt] at g1
      cases hcf : W.certs path with
      | none => rw [hcf] at g1; cases g1
      | some b => rw [hcf] at g1; cases g1; rfl

/-- **C83** (`vmasa`): the process fails silently, or all of standard input decodes to a voucher that passed every check with
the serial number, nonce and certificates of the configuration file, and the certificate pinned in it is what is printed or
stored. -/
theorem C83_vmasa {O : Ossl} (hsm : Small O) {W : World O} (hs : SoundHost W) (hM : Machine W) {args : List Bytes} {o : Opts}
    (hopt : processOptions W.help args = .ok (.run o .verifyMasa)) {m : Mem} (hw : Wf m) {io : Io} {h : Heap} {d : Done}
    (he : main W args m io h = .ok d) :
    Quiet io d ∨ ∃ r f e reg c s n v pin, d = .ran .verifyMasa r ∧ W.ini o.config = some f ∧ r.sent = [] ∧
      Configured W f (addressOf f o .verifyMasa) e ∧ W.certs o.inFile = some reg ∧ W.input.length < 4096 ∧
      base64str2array e.masaAl e.blk W.input = .ok (some c.length, .owned c) ∧ e.serial = some s ∧ NonceIs e 1 n ∧
      Acceptable O e.verRt c e.verifyCerts.certs e.verifyStore.certs s n v pin ∧ ChainBuilt O reg pin none ∧
      Outputs W.sys o.outFile pin io r := by
  rcases main_command hs hopt (by simp) hw he with rfl | ⟨m', c, f, e, h1, h2, h3, -, hc⟩
  · exact .inl (.inl rfl)
  simp only [command, h2, bind'_ok] at hc
  obtain ⟨hsz, hblk, -⟩ := configured_sized hM h3
  cases hp : vmasa W.sys e o.inFile (fileAt W.certs (some o.inFile)) W.inbuf W.input (W.outAl 0) o.outFile io h with
  | ub => rw [hp] at hc; cases hc
  | ok r =>
    rw [hp, bind'_ok] at hc
    cases hc
    obtain ⟨q0, ⟨q1, q2⟩ | ⟨-, q2, cert, c', s, n, v, pin, q3, q4, q5, q6, q7, q8, q9⟩⟩ :=
      vmasa_inv hsm hsz (by rw [hblk]; exact hM.blk) hM.inbuf hp
    · exact .inl (.inr ⟨_, r, rfl, q1, q2⟩)
    · refine .inr ⟨r, f, e, cert, c', s, n, v, pin, rfl, h1, q0, h3, ?_, q2, q4, q5, q6, q7, q8, q9⟩
      simp only [fileAt] at q3
      cases hcf : W.certs o.inFile with
      | none => rw [hcf] at q3; cases q3
      | some b => rw [hcf] at q3; cases q3; rfl

/-- **C83** (`serial`): no configuration is read, nothing is sent and no file changes; on success the first serial number in the
subject of the certificate named, up to a NUL, is printed (without a line feed), otherwise nothing. -/
theorem C83_serial {O : Ossl} {W : World O} (hI : ∀ b i, CleanKv (W.nameAl b i)) {args : List Bytes} {o : Opts}
    (hopt : processOptions W.help args = .ok (.run o .getSerial)) {m : Mem} (hw : Wf m) {io : Io} {h : Heap} {d : Done}
    (he : main W args m io h = .ok d) :
    ∃ r, d = .ran .getSerial r ∧ r.sent = [] ∧ (r.ok = false → r.io = io) ∧
      (r.ok = true → ∃ der c s b, W.certs o.inFile = some der ∧ O.d2iX509 der = some c ∧ (W.names c).subject = some s ∧
        firstText s 105 = some b ∧ r.io.out = io.out ++ upToNul b ∧ r.io.files = io.files) := by
  have hprep : prepare W.help W.conf W.dup W.ini W.port args m = .ok (.go o .getSerial m (fun _ => none) 0) := by
    unfold prepare
    rw [hopt, bind'_ok]
    rfl
  unfold main at he
  rw [hprep, bind'_ok] at he
  simp only [command, getSerial] at he
  have hend : ∀ {r : Ended}, ((Outcome.ok r).bind fun r => (Outcome.ok (Done.ran .getSerial r))).bind
      (fun d => (freeConfig m fun _ => none).bind fun _ => .ok d) = .ok d → d = .ran .getSerial r := by
    intro r hr
    rw [bind'_ok, bind'_ok] at hr
    cases hf : freeConfig m fun _ => none with
    | ub => rw [hf] at hr; cases hr
    | ok z => rw [hf, bind'_ok] at hr; cases hr; rfl
  by_cases hf : o.inFile = []
  · rw [if_pos hf] at he
    exact ⟨_, hend he, rfl, fun _ => rfl, nofun⟩
  rw [if_neg hf] at he
  cases hc : W.certs o.inFile with
  | none =>
    simp only [fileAt, hc, readFile, bind'_ok] at he
    exact ⟨_, hend he, rfl, fun _ => rfl, nofun⟩
  | some der =>
    simp only [fileAt, hc, readFile, bind'_ok] at he
    rw [show (h.alloc der).1.read (h.alloc der).2 = .ok der by simp [Heap.read, Heap.alloc], bind'_ok] at he
    cases hx : O.d2iX509 der with
    | none =>
      rw [hx] at he
      exact ⟨_, hend he, rfl, fun _ => rfl, nofun⟩
    | some c =>
      rw [hx] at he
      simp only at he
      obtain ⟨m', r, e1, -, -, e2, -⟩ := C51_partial m hw (W.nameAl false) (W.nameAl true) (hI _) (hI _) (some (W.names c))
      rw [e1, bind'_ok] at he
      cases r with
      | none => exact ⟨_, hend he, rfl, fun _ => rfl, nofun⟩
      | some s =>
        simp only at he
        cases hfr : freeAll (h.alloc der).1 [some (h.alloc der).2] with
        | ub => rw [hfr] at he; cases he
        | ok h' =>
          rw [hfr, bind'_ok] at he
          refine ⟨_, hend he, rfl, nofun, fun _ => ?_⟩
          obtain ⟨c', i, sub, g1, -, g3, g4⟩ := e2 s rfl
          cases g1
          obtain ⟨b, g5, rfl⟩ := Option.map_eq_some_iff.1 g4
          refine ⟨der, c, sub, b, rfl, hx, g3, g5, ?_, rfl⟩
          show io.out ++ cstr (upToNul b) = _
          congr 1
          unfold cstr upToNul
          exact takeWhile_of_all fun x hx => by
            have := nul_free b
            simp only [ne_eq, decide_not, Bool.not_eq_eq_eq_not, Bool.not_true, decide_eq_false_iff_not]
            intro h0
            exact this (h0 ▸ hx)
