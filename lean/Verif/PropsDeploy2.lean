import Verif.PropsDeploy
import Verif.PropsMain3

/-!
# C84: a matching deployment, and the commands `preq` and `sign` in it
-/

namespace Brski.Props
open Outcome Brski.Voucher VoucherJson Crypto BoolTime Request Base64 Brski.Spec Server Pledge Routes Wire Tls Deploy

/-! ## An instance -/

/-- Certificates of connections are numbers; a chain is good when it contains a trusted one. -/
def demoLib : Lib where
  Cert := Nat
  pem := fun t => if t = certString (rfc4648 [8]) then some [8] else none
  chainOk := fun anchors chain => chain.any fun c => List.contains (α := Nat) anchors c

/-- A connection where the server presents the certificate 7 issued by 8, and the client 3. -/
def demoLink : Link demoLib := ⟨str "localhost", [(7 : Nat), (8 : Nat)], [(3 : Nat)], ⟨[(3 : Nat)], true⟩, ⟨[], true, true⟩⟩

/-- The deployment of the instance. -/
def demoSite : Site toy demoLib where
  reg := demoReg fun _ => none
  enr := demoEnroll fun _ => none
  masa := demoMasa
  regHeap := fun _ => Heap.empty
  masaHeap := Heap.empty
  masaCtx := none
  tls := [7]
  client := none
  toReg := demoLink
  toMasa := demoLink
  mp := ⟨fun _ => false, fun _ _ => false⟩
  close := false

/-- A pledge that generates the key 6 and the certificate 5. -/
def demoGen5 : Gen := { demoGen with key := some [6], cert := fun _ => some [5] }

theorem demoLink_up : LinkUp demoLink := ⟨rfl, by decide, by decide⟩

theorem demo_matching : Matching demoPledge demoSite (str "S1") (some [1]) [8] where
  paths := by decide
  ptime := ⟨_, rfl, ⟨⟨2020, 6, 4, 3, 2, 1⟩, by unfold tmHolds; decide, by unfold DateTime.Valid; decide, by decide⟩⟩
  pserial := rfl
  serialOk := ⟨.of_plain (by decide), by decide⟩
  pnonce := .inr ⟨str "AQ==", [1], rfl, rfl, fun _ => ⟨rfl, (by unfold BodyDecodes; decide +kernel : BodyDecodes zeroAllocator [0, 0, 0, 0] (str "AQ==") [1])⟩⟩
  nonceOk := fun b h => by cases h; exact ⟨by simp, by decide⟩
  pmem := ⟨noFail_plain, noFail_plain, noOom_zero, noOom_zero, fun _ => rfl⟩
  pblk := rfl
  plists := by simp [demoPledge]
  rknown := rfl
  rserial := rfl
  rissuer := ⟨[5], rfl, by simp, by decide⟩
  rtime := ⟨_, rfl, ⟨⟨2020, 6, 4, 3, 2, 1⟩, by unfold tmHolds; decide, by unfold DateTime.Valid; decide, by decide⟩⟩
  rtls := ⟨rfl, by simp [demoSite], by decide⟩
  rmem := ⟨noFail_plain, noOom_zero, noOom_zero, rfl⟩
  rblk := rfl
  rlists := by simp [demoSite, demoReg]
  rhost := ⟨nofun, nofun⟩
  rheap := fun _ => Heap.wf_empty
  mtime := ⟨_, demoTime, rfl, by decide +kernel, demoTime_ok⟩
  mpin := ⟨rfl, by simp, by decide⟩
  mmem := ⟨noFail_plain, noOom_zero, noOom_zero, noOom_zero⟩
  mblk := rfl
  mlists := by simp [demoSite, demoMasa]
  mheap := Heap.wf_empty
  pworks := ⟨[3], [3], rfl, rfl, toy_works 3⟩
  rworks := ⟨[7], [7], rfl, rfl, toy_works 7⟩
  mworks := ⟨[1], [1], rfl, rfl, toy_works 1⟩
  mtrust := fun _ _ h => h
  msigners := fun der text h => toy_signers der text _ _ h
  chain := ⟨(7 : UInt8), (8 : UInt8), rfl, rfl, by simp [toy]⟩
  toReg := demoLink_up
  toMasa := demoLink_up

theorem demo_enrolling : Enrolling demoGen5 demoSite [8] [6] [5] (1 : UInt8) (5 : UInt8) (8 : UInt8) (8 : UInt8) (1 : UInt8) [8] where
  gprepared := rfl
  gkey := rfl
  gcert := rfl
  certOk := ⟨by simp, by decide⟩
  gmem := ⟨noOom_zero, noOom_zero, noOom_zero⟩
  gblk := rfl
  issued := demo_issued _
  crtOk := ⟨by simp, by decide⟩
  emem := ⟨noOom_zero, noOom_zero⟩
  eblk := rfl
  tmem := rfl
  pem := ⟨[(8 : Nat)], if_pos rfl, by decide⟩
  server := by simp [demoSite, demoLink]

/-- Non-vacuity of C84_voucher. -/
example : ∃ request H' p, postVoucher toy demoPledge (netOf demoSite) Heap.empty =
      .ok ⟨H', some p, [.voucher [], .voucher (rfc4648 request)]⟩ ∧ H'.blk p = some [8] :=
  let ⟨r, H', p, h1, _, h2, _⟩ := C84_voucher toy_small demo_matching Heap.wf_empty
  ⟨r, H', p, h1, h2⟩

/-- Non-vacuity of C84_enrolled. -/
example : ∃ request H' p q, postSignCert toy demoPledge demoGen5 (netOf demoSite) Heap.empty =
      .ok ⟨H', some (p, q), [.voucher [], .voucher (rfc4648 request), .enrol (certString (rfc4648 [8])) (rfc4648 [5])]⟩ ∧
      H'.blk p = some [8] ∧ H'.blk q = some [6] :=
  let ⟨r, H', p, q, h1, h2, h3, _⟩ := C84_enrolled toy_small demo_matching demo_enrolling Heap.wf_empty
  ⟨r, H', p, q, h1, h2, h3⟩

/-! ## The commands -/

open Main Cli Config DlList

/-- The result can be put out (specification, /repo/src/brski/brski.cpp:239-262): the base64 text fits into memory, or the file
can be opened and OpenSSL writes the certificate. -/
def CertWritable {O : Ossl} (S : Sys O) (al : Allocator) (o cert : Bytes) : Prop :=
  (o = [] ∧ NoOom al) ∨ (o ≠ [] ∧ S.opens (storedAs o (str ".crt")) = true ∧ ∃ t, pemOf O.d2iX509 S.pemCert cert = some t)

theorem certToFile_full {O : Ossl} {S : Sys O} {name cert t : Bytes} (ho : S.opens name = true)
    (ht : pemOf O.d2iX509 S.pemCert cert = some t) (io : Io) : certToFile S cert name io = (io.put name (S.keeps name t), true) := by
  unfold certToFile
  unfold pemOf at ht
  rw [if_pos ho]
  cases hc : O.d2iX509 cert with
  | none => rw [hc] at ht; cases ht
  | some c =>
    rw [hc] at ht
    simp only [Option.bind_some] at ht ⊢
    split at ht
    · rename_i hb; cases ht; rw [hb]
    · cases ht

theorem keyToFile_full {O : Ossl} {S : Sys O} {name key t : Bytes} (ho : S.opens name = true)
    (ht : pemOf O.d2iKey S.pemKey key = some t) (io : Io) : keyToFile S key name io = (io.put name (S.keeps name t), true) := by
  unfold keyToFile
  unfold pemOf at ht
  rw [if_pos ho]
  cases hc : O.d2iKey key with
  | none => rw [hc] at ht; cases ht
  | some c =>
    rw [hc] at ht
    simp only [Option.bind_some] at ht ⊢
    split at ht
    · rename_i hb; cases ht; rw [hb]
    · cases ht

theorem outputDomainCert_full {O : Ossl} {S : Sys O} {al : Allocator} {o cert : Bytes} (hs : cert.length < sizeMax / 4)
    (h : CertWritable S al o cert) (io : Io) : ∃ io', outputDomainCert S al cert o io = .ok (io', true) := by
  unfold outputDomainCert
  rcases h with ⟨rfl, ha⟩ | ⟨ho, h1, t, h2⟩
  · obtain ⟨buf, n, e, -⟩ := C02_encode_rfc4648 al ha cert hs
    rw [if_pos rfl, e]
    exact ⟨_, rfl⟩
  · rw [if_neg ho, show outName o (str ".crt") = storedAs o (str ".crt") from rfl, certToFile_full h1 h2]
    exact ⟨_, rfl⟩

/-- The memory `m'` and the configuration `c` are what `main` has read for the command (/repo/src/brski/brski.cpp:264-312), and `e` is
what the client functions find there. -/
def Reads {O : Ossl} (W : World O) (args : List Bytes) (m : Mem) (o : Opts) (cmd : Command) (m' : Mem) (c : Conf) (e : PledgeEnv) : Prop :=
  prepare W.help W.conf W.dup W.ini W.port args m = .ok (.go o cmd m' c (portFor W o cmd)) ∧ envOf W m' c = .ok e

/-- The configuration file is there and no allocation fails while it is read (specification). -/
structure ConfReadable {O : Ossl} (W : World O) (o : Opts) : Prop where
  file : W.ini o.config ≠ none
  strs : ∀ s k, (W.conf s).str k = true
  lists : ∀ s l k, (W.conf s).list l k = true
  dup : W.dup = true

/-- With such a file `main` comes to its command. -/
theorem prepare_readable {O : Ossl} {W : World O} {args : List Bytes} {o : Opts} {cmd : Command}
    (hopt : processOptions W.help args = .ok (.run o cmd)) {m : Mem} (hw : Wf m) (hr : ConfReadable W o) (s : Bool) (m1 : Mem) :
    prepare W.help W.conf W.dup W.ini W.port args m ≠ .ok (.exit s m1) := by
  intro h
  unfold prepare at h
  rw [hopt, bind'_ok] at h
  simp only at h
  have hl : ∃ m1 c1, (if cmd = .getSerial then .ok (m, (fun _ => none), true)
      else loadConfig W.conf (W.ini o.config) m fun _ => none) = Outcome.ok (m1, c1, true) := by
    by_cases hc : cmd = .getSerial
    · exact ⟨m, _, if_pos hc⟩
    · obtain ⟨m1, c1, ok1, g, e, -, -, -, -, -, h5⟩ := loadConfig_own (al := W.conf) (file := W.ini o.config) hw
        fun s l => .inr (.inr (hr.lists s l))
      rw [h5 hr.strs hr.lists hr.file] at e
      exact ⟨m1, c1, by rw [if_neg hc, e]⟩
  obtain ⟨m2, c2, e2⟩ := hl
  rw [e2, bind'_ok, if_pos rfl] at h
  rw [hr.dup] at h
  simp only [applyOverrides, if_true] at h
  split at h
  · split at h
    · cases hf : freeOld m2 (c2 (.str .registrar .bindAddress)) with
      | ub => rw [hf] at h; cases h
      | ok z => rw [hf] at h; cases h
    · cases h
  · cases h

/-- What `main` does for a command of the pledge, from what it does once the configuration is read. -/
theorem main_runs {O : Ossl} {W : World O} (hs : SoundHost W) {args : List Bytes} {o : Opts} {cmd : Command}
    (hopt : processOptions W.help args = .ok (.run o cmd)) (hcmd : cmd ≠ .getSerial) {m : Mem} (hw : Wf m) (io : Io) (h : Heap) :
    (¬ ConfReadable W o ∧ main W args m io h = .ok (.early false)) ∨ ∃ m' c f e, W.ini o.config = some f ∧ Reads W args m o cmd m' c e ∧
      Configured W f (addressOf f o cmd) e ∧
      ∀ d, command W o cmd m' c (portFor W o cmd) io h = .ok d → main W args m io h = .ok d := by
  unfold main
  rcases prepare_env hs hopt hcmd hw with hx | ⟨m', c, f, e, h1, h2, h3, h4, -, z, h5⟩
  · left
    cases hp : prepare W.help W.conf W.dup W.ini W.port args m with
    | ub => rw [hp] at hx; cases hx
    | ok p =>
      rw [hp, bind'_ok] at hx
      rw [bind'_ok]
      cases p with
      | go => cases hx
      | exit s m1 => cases hx; exact ⟨fun hr => prepare_readable hopt hw hr _ _ hp, rfl⟩
  · right
    refine ⟨m', c, f, e, h2, ⟨h1, h3⟩, h4, fun d hd => ?_⟩
    rw [h1, bind'_ok]
    simp only [hd, bind'_ok, h5]

theorem configured_address {O : Ossl} {W : World O} {f : Ini.IniFile} {a : Option Bytes} {e : PledgeEnv} (h : Configured W f a e) :
    e.address = a := by
  obtain ⟨_, _, _, rfl, -⟩ := h
  rfl

/-- **C84**, the command `preq`: `main` cannot read its configuration and fails, or it has read a configuration such that, if a
matching deployment is at the configured address, the certificate the MASA is configured to pin is what is printed or stored,
the exit status is success, and nothing stays allocated. -/
theorem C84_preq {O : Ossl} (hsm : Small O) {W : World O} (hs : SoundHost W) {args : List Bytes} {o : Opts}
    (hopt : processOptions W.help args = .ok (.run o .pledgeRequest)) {m : Mem} (hw : Wf m) (io : Io) {H : Heap} (hH : H.Wf) :
    (¬ ConfReadable W o ∧ main W args m io H = .ok (.early false)) ∨ ∃ m' c f e, W.ini o.config = some f ∧
      Reads W args m o .pledgeRequest m' c e ∧ Configured W f (addressOf f o .pledgeRequest) e ∧
      ∀ (L : Lib) (D : Site O L) (serial : Bytes) (nonce : Option Bytes) (pin : Bytes),
        W.net ((addressOf f o .pledgeRequest).getD []) (portFor W o .pledgeRequest) = netOf D →
        Matching e D serial nonce pin → CertWritable W.sys (W.outAl 0) o.outFile pin →
        ∃ r, main W args m io H = .ok (.ran .pledgeRequest r) ∧ r.ok = true ∧
          Delivered W.sys.keeps o.outFile (storedAs o.outFile (str ".crt")) pin (pemOf O.d2iX509 W.sys.pemCert pin) io r.io ∧
          ∀ q, r.heap.blk q = H.blk q := by
  rcases main_runs hs hopt (by simp) hw io H with h | ⟨m', c, f, e, h1, h2, h3, h4⟩
  · exact .inl h
  refine .inr ⟨m', c, f, e, h1, h2, h3, fun L D serial nonce pin hn hM hwr => ?_⟩
  obtain ⟨H', p, req, e1, o1, b1⟩ := voucher_owned hsm hM hH
  obtain ⟨io', e2⟩ := outputDomainCert_full (by have := hM.mpin.2.2; unfold sizeMax; omega) hwr io
  obtain ⟨H2, e3, o3⟩ := owns_release hH [some p] [] o1
  have hp : preq W.sys e (W.net (e.address.getD []) (portFor W o .pledgeRequest)) (W.outAl 0) o.outFile io H =
      .ok ⟨true, io', [.voucher [], .voucher (rfc4648 req)], H2⟩ := by
    rw [configured_address h3, hn]
    simp only [preq, e1, bind'_ok, putOut, Heap.read, b1, e2, if_true, List.nil_append, e3]
  exact ⟨_, h4 _ (command_preq h2.2 hp), rfl, (outputDomainCert_inv e2).1 rfl, fun q => o3.rest q (by simp)⟩

/-- The same for the certificate and the key of `sign` (specification, /repo/src/brski/brski.cpp:374-406). -/
def PairWritable {O : Ossl} (S : Sys O) (alC alK : Allocator) (o crt key : Bytes) : Prop :=
  (o = [] ∧ NoOom alC ∧ NoOom alK ∧ key.length < sizeMax / 4) ∨
    (o ≠ [] ∧ S.opens (storedAs o (str ".crt")) = true ∧ S.opens (storedAs o (str ".key")) = true ∧
      (∃ t, pemOf O.d2iX509 S.pemCert crt = some t) ∧ ∃ t, pemOf O.d2iKey S.pemKey key = some t)

/-- Certificate and key are on standard output, or in their files (specification). -/
def PairPutOut {O : Ossl} (S : Sys O) (o crt key : Bytes) (io io' : Io) : Prop :=
  if o = [] then io'.out = io.out ++ rfc4648 crt ++ [10] ++ rfc4648 key ++ [10] ∧ io'.files = io.files
  else io'.out = io.out ∧ ∃ c k, pemOf O.d2iX509 S.pemCert crt = some c ∧ pemOf O.d2iKey S.pemKey key = some k ∧
    ∀ n, io'.files n = if n = storedAs o (str ".key") then some (S.keeps n k)
      else if n = storedAs o (str ".crt") then some (S.keeps n c) else io.files n

theorem sign_full {O : Ossl} {S : Sys O} {e : PledgeEnv} {g : Gen} {net : Net} {alC alK : Allocator} {o : Bytes} {H H' H2 : Heap}
    {p q : Nat} {crt key : Bytes} {sent : List Msg} (he : postSignCert O e g net H = .ok ⟨H', some (p, q), sent⟩)
    (hc : H'.blk p = some crt) (hk : H'.blk q = some key) (hf : freeAll H' [some p, some q] = .ok H2)
    (hs : crt.length < sizeMax / 4) (hwr : PairWritable S alC alK o crt key) (io : Io) :
    ∃ io', sign S e g net alC alK o io H = .ok ⟨true, io', sent, H2⟩ ∧ PairPutOut S o crt key io io' := by
  unfold sign PairPutOut
  rw [he]
  simp only [bind'_ok, Heap.read, hc, hk]
  rcases hwr with ⟨rfl, ha, ha', hs'⟩ | ⟨ho, w1, w2, ⟨t1, w3⟩, ⟨t2, w4⟩⟩
  · obtain ⟨buf, n, x1, -⟩ := C02_encode_rfc4648 alC ha crt hs
    obtain ⟨buf', n', x2, -⟩ := C02_encode_rfc4648 alK ha' key hs'
    simp only [if_true, x1, x2, bind'_ok, hf]
    exact ⟨_, rfl, by simp only [printText, Io.print, cstr_encoded x1, cstr_encoded x2, List.append_assoc], rfl⟩
  · simp only [ho, if_false]
    rw [show outName o (str ".crt") = storedAs o (str ".crt") from rfl,
      show outName o (str ".key") = storedAs o (str ".key") from rfl, certToFile_full w1 w3]
    simp only [if_true, keyToFile_full w2 w4, hf, bind'_ok]
    refine ⟨_, rfl, rfl, t1, t2, w3, w4, fun n => ?_⟩
    simp only [Io.put]
    split
    · rename_i hn; rw [hn]
    · split
      · rename_i hn; rw [hn]
      · rfl

/-- **C84**, the command `sign`: the same for the certificate the CA of the registrar issues and the generated key. -/
theorem C84_sign {O : Ossl} (hsm : Small O) {W : World O} (hs : SoundHost W) {args : List Bytes} {o : Opts}
    (hopt : processOptions W.help args = .ok (.run o .signCert)) {m : Mem} (hw : Wf m) (io : Io) {H : Heap} (hH : H.Wf) :
    (¬ ConfReadable W o ∧ main W args m io H = .ok (.early false)) ∨ ∃ m' c f e, W.ini o.config = some f ∧
      Reads W args m o .signCert m' c e ∧ Configured W f (addressOf f o .signCert) e ∧
      ∀ (L : Lib) (D : Site O L) (serial : Bytes) (nonce : Option Bytes) (pin key cert crt : Bytes) (ca x y z : O.Cert) (k : O.Key),
        W.net ((addressOf f o .signCert).getD []) (portFor W o .signCert) = netOf D →
        Matching e D serial nonce pin → Enrolling W.gen D pin key cert ca x y z k crt →
        PairWritable W.sys (W.outAl 0) (W.outAl 1) o.outFile crt key →
        ∃ r, main W args m io H = .ok (.ran .signCert r) ∧ r.ok = true ∧ PairPutOut W.sys o.outFile crt key io r.io ∧
          ∀ q, r.heap.blk q = H.blk q := by
  rcases main_runs hs hopt (by simp) hw io H with h | ⟨m', c, f, e, h1, h2, h3, h4⟩
  · exact .inl h
  refine .inr ⟨m', c, f, e, h1, h2, h3, fun L D serial nonce pin key cert crt ca x y z k hn hM hE hwr => ?_⟩
  obtain ⟨H', p, q, req, e1, o1, b1, b2⟩ := enrolled_owned hsm hM hE hH
  obtain ⟨H2, e3, o3⟩ := owns_release hH [some p, some q] [] o1
  rw [← hn, ← configured_address h3] at e1
  obtain ⟨io', hp, hout⟩ := sign_full e1 b1 b2 e3 (by have := hE.crtOk.2; unfold sizeMax; omega) hwr io
  exact ⟨_, h4 _ (command_sign h2.2 hp), rfl, hout, fun q => o3.rest q (by simp)⟩

/-! ## Instances of the commands -/

/-- What was read when the preparation is known. -/
theorem reads_known {O : Ossl} {W : World O} {args : List Bytes} {o o' : Opts} {cmd cmd' : Command} {p : Nat} {e e0 : PledgeEnv}
    {t : Option Bytes} {m' : Mem} {c : Conf} (hp : prepView W args = some ⟨o', cmd', p, confView e0, t⟩)
    (h0 : e0 = { W.rt with
      address := e0.address, keyPath := e0.keyPath, certPath := e0.certPath, createdOn := e0.createdOn, nonce := e0.nonce,
      serial := e0.serial, signCert := e0.signCert, signKey := e0.signKey, additional := e0.additional,
      verifyCerts := e0.verifyCerts, verifyStore := e0.verifyStore }) (h : Reads W args mem0 o cmd m' c e) : e = e0 := by
  obtain ⟨h1, h2⟩ := h
  unfold prepView at hp
  rw [h1] at hp
  simp only [h2] at hp
  cases ht : strOf m' (c (.str .registrar .tlsCert)) with
  | ub => rw [ht] at hp; cases hp
  | ok t' =>
    cases hf : freeConfig m' c with
    | ub => rw [ht, hf] at hp; cases hp
    | ok z =>
      rw [ht, hf] at hp
      simp only [Option.some.injEq, Prep.mk.injEq, confView, ConfView.mk.injEq, List.cons.injEq, and_true] at hp
      obtain ⟨-, -, -, ⟨⟨a1, a2, a3, a4, a5, a6⟩, ⟨a7, a8⟩, a9, a10, a11⟩, -⟩ := hp
      rw [envOf_rt h2, a1, a2, a3, a4, a5, a6, a7, a8, a9, a10, a11, ← h0]

/-- The world of the instance of C83 with another network and generator. -/
def withNet {O : Ossl} (W : World O) (net : Net) (g : Gen) : World O := { W with net := fun _ _ => net, gen := g }

theorem prepView_withNet {O : Ossl} (W : World O) (net : Net) (g : Gen) (args : List Bytes) :
    prepView (withNet W net g) args = prepView W args := rfl

theorem withNet_sound {O : Ossl} {W : World O} (net : Net) (g : Gen) (h : SoundHost W) : SoundHost (withNet W net g) :=
  ⟨h.conf, h.lists, h.lines⟩

/-- `e0` differs from the run time part of the world in configured members only. -/
def RtOf (rt e0 : PledgeEnv) : Prop :=
  e0 = { rt with
    address := e0.address, keyPath := e0.keyPath, certPath := e0.certPath, createdOn := e0.createdOn, nonce := e0.nonce,
    serial := e0.serial, signCert := e0.signCert, signKey := e0.signKey, additional := e0.additional,
    verifyCerts := e0.verifyCerts, verifyStore := e0.verifyStore }

/-- `preq` when the preparation is known. -/
theorem preq_known {O : Ossl} (hsm : Small O) {W : World O} (hs : SoundHost W) {L : Lib} {D : Site O L} {g : Gen} {args : List Bytes}
    {o : Opts} {p : Nat} {e0 : PledgeEnv} {t : Option Bytes} (hopt : processOptions W.help args = .ok (.run o .pledgeRequest))
    (hp : prepView W args = some ⟨o, .pledgeRequest, p, confView e0, t⟩) (h0 : RtOf W.rt e0) {serial : Bytes} {nonce : Option Bytes}
    {pin : Bytes} (hM : Matching e0 D serial nonce pin) (hw : CertWritable W.sys (W.outAl 0) o.outFile pin) (io : Io) :
    ∃ r, main (withNet W (netOf D) g) args mem0 io Heap.empty = .ok (.ran .pledgeRequest r) ∧ r.ok = true ∧
      Delivered W.sys.keeps o.outFile (storedAs o.outFile (str ".crt")) pin (pemOf O.d2iX509 W.sys.pemCert pin) io r.io := by
  have hp' := (prepView_withNet W (netOf D) g args).trans hp
  obtain ⟨m, c, e1, -, e3⟩ := main_prep hp' h0 io Heap.empty
  rcases C84_preq hsm (withNet_sound (netOf D) g hs) hopt wf_mem0 io Heap.wf_empty with ⟨-, h⟩ | ⟨m', c', f, e, -, hr, -, h⟩
  · rw [e3] at h
    simp only [command, e1, bind'_ok] at h
    cases hq : preq (withNet W (netOf D) g).sys e0 ((withNet W (netOf D) g).net (e0.address.getD []) p) ((withNet W (netOf D) g).outAl 0)
        o.outFile io Heap.empty with
    | ub => rw [hq] at h; cases h
    | ok r => rw [hq] at h; cases h
  · obtain rfl := reads_known hp' h0 hr
    obtain ⟨r, h1, h2, h3, -⟩ := h L D serial nonce pin rfl hM hw
    exact ⟨r, h1, h2, h3⟩

/-- `sign` when the preparation is known. -/
theorem sign_known {O : Ossl} (hsm : Small O) {W : World O} (hs : SoundHost W) {L : Lib} {D : Site O L} {g : Gen} {args : List Bytes}
    {o : Opts} {p : Nat} {e0 : PledgeEnv} {t : Option Bytes} (hopt : processOptions W.help args = .ok (.run o .signCert))
    (hp : prepView W args = some ⟨o, .signCert, p, confView e0, t⟩) (h0 : RtOf W.rt e0) {serial : Bytes} {nonce : Option Bytes}
    {pin key cert crt : Bytes} {ca x y z : O.Cert} {k : O.Key} (hM : Matching e0 D serial nonce pin)
    (hE : Enrolling g D pin key cert ca x y z k crt) (hw : PairWritable W.sys (W.outAl 0) (W.outAl 1) o.outFile crt key) (io : Io) :
    ∃ r, main (withNet W (netOf D) g) args mem0 io Heap.empty = .ok (.ran .signCert r) ∧ r.ok = true ∧
      PairPutOut W.sys o.outFile crt key io r.io := by
  have hp' := (prepView_withNet W (netOf D) g args).trans hp
  obtain ⟨m, c, e1, -, e3⟩ := main_prep hp' h0 io Heap.empty
  rcases C84_sign hsm (withNet_sound (netOf D) g hs) hopt wf_mem0 io Heap.wf_empty with ⟨-, h⟩ | ⟨m', c', f, e, -, hr, -, h⟩
  · rw [e3] at h
    simp only [command, e1, bind'_ok] at h
    cases hq : Main.sign (withNet W (netOf D) g).sys e0 (withNet W (netOf D) g).gen ((withNet W (netOf D) g).net (e0.address.getD []) p)
        ((withNet W (netOf D) g).outAl 0) ((withNet W (netOf D) g).outAl 1) o.outFile io Heap.empty with
    | ub => rw [hq] at h; cases h
    | ok r => rw [hq] at h; cases h
  · obtain rfl := reads_known hp' h0 hr
    obtain ⟨r, h1, h2, h3, -⟩ := h L D serial nonce pin key cert crt ca x y z k rfl hM hE hw
    exact ⟨r, h1, h2, h3⟩

theorem prepView_withSys {O : Ossl} (W : World O) (S : Sys O) (args : List Bytes) : prepView (withSys W S) args = prepView W args := rfl

/-- A system where every file can be opened and written. -/
def plainSys : Sys toy := ⟨fun _ => true, fun _ t => t, fun (c : UInt8) => ([c], true), fun (k : UInt8) => ([k], true), fun _ => ([], true)⟩

/-- The world of C83 on it, with the deployment of this file. -/
def siteHost : World toy := withNet (hostOn (fun _ _ => none) plainSys) (netOf demoSite) demoGen5

/-- Its configuration can be read. -/
example : ConfReadable siteHost { noOpts with config := str "ini" } where
  file := fun h => by cases h
  strs := fun _ _ => rfl
  lists := fun _ _ _ => rfl
  dup := rfl

theorem host_outAl (S : Sys toy) (k : Nat) : NoOom ((hostOn (fun _ _ => none) S).outAl k) := noOom_zero

theorem host_help (S : Sys toy) : (hostOn (fun _ _ => none) S).help = .ub := rfl

/-- Non-vacuity of C84_preq: the certificate 08, which the MASA of the instance pins, is printed. -/
example : ∃ r, main siteHost [str "preq", str "-c", str "ini"] mem0 emptyIo Heap.empty = .ok (.ran .pledgeRequest r) ∧ r.ok = true ∧
    r.io.out = rfc4648 [8] ++ [10] := by
  obtain ⟨r, h1, h2, h3⟩ := preq_known (g := demoGen5) toy_small (host_sane (fun _ _ => none) plainSys)
    (by rw [host_help]; decide +kernel) ((prepView_withSys _ plainSys _).trans (host_preq _)) rfl demo_matching
    (.inl ⟨rfl, host_outAl plainSys 0⟩) emptyIo
  exact ⟨r, h1, h2, h3.1⟩

/-- Non-vacuity of C84_sign: the certificate 08 issued by the registrar is in the file `x.crt`, the key 06 in `x.key`. -/
example : ∃ r, main siteHost [str "sign", str "-c", str "ini", str "-o", str "x"] mem0 emptyIo Heap.empty = .ok (.ran .signCert r) ∧
    r.ok = true ∧ r.io.files (str "x.crt") = some [8] ∧ r.io.files (str "x.key") = some [6] := by
  have p1 : pemOf toy.d2iX509 plainSys.pemCert [8] = some [8] := rfl
  have p2 : pemOf toy.d2iKey plainSys.pemKey [6] = some [6] := rfl
  obtain ⟨r, q1, q2, q3⟩ := sign_known (g := demoGen5) toy_small (host_sane (fun _ _ => none) plainSys)
    (by rw [host_help]; decide +kernel) ((prepView_withSys _ plainSys _).trans (host_sign _)) rfl demo_matching
    demo_enrolling (.inr ⟨by decide, rfl, rfl, ⟨[8], p1⟩, ⟨[6], p2⟩⟩) emptyIo
  unfold PairPutOut at q3
  rw [if_neg (by decide)] at q3
  obtain ⟨-, c, k, c1, c2, c3⟩ := q3
  rw [hostOn_sys] at c1 c2 c3
  rw [p1] at c1
  rw [p2] at c2
  cases c1
  cases c2
  refine ⟨r, q1, q2, ?_, ?_⟩
  · rw [c3, if_neg (by decide), if_pos (by decide)]
    rfl
  · rw [c3, if_pos (by decide)]
    rfl

end Brski.Props
