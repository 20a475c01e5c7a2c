import Verif.Main
import Verif.PledgeDemo
import Verif.PropsCli

/-!
# A pledge that is started from the command line
-/

namespace Brski.Props
open Outcome DlList Config Cli Crypto Base64 BoolTime Server Pledge Main

/-- A configuration file for instances; it describes `demoPledge`. -/
def demoIni : Ini.IniFile :=
  [.section (str "registrar"), .entry (str "bindAddress") (str "localhost"), .entry (str "tlsCertPath") (str "tls"),
   .section (str "pledge"), .entry (str "nonce") (str "AQ=="), .entry (str "serialNumber") (str "S1"),
   .entry (str "idevidKeyPath") (str "key"), .entry (str "idevidCertPath") (str "cert"),
   .entry (str "cmsSignCertPath") (str "cms"), .entry (str "cmsSignKeyPath") (str "cms"),
   .entry (str "cmsVerifyStorePath") (str "store")]

/-- A machine for instances: the configuration file is `demoIni`, the registrar on port 443 of `localhost` is `demoNet` and
answers enrolments with `crt`; every file can be written. -/
def demoHost (crt : Bytes → Bytes → Option (Nat × Bytes)) : World toy where
  help := .ub
  conf := fun _ => ⟨fun _ => true, fun _ _ => true⟩
  dup := true
  ini := fun n => if n = str "ini" then some demoIni else none
  port := fun _ => 443
  certs := fun n => if n = str "cms" then some [3] else if n = str "store" then some [1] else if n = str "tls" then some [7] else none
  keys := fun n => if n = str "cms" then some [3] else none
  sys := ⟨fun _ => true, fun _ t => t, fun c => ([80, c], true), fun k => ([75, k], true),
    fun m => (83 :: m.2, true)⟩
  net := fun a p => if a = str "localhost" ∧ p = 443 then { demoNet [7] [7] demoVoucherText [] with enrol := crt }
    else ⟨none, fun _ => none, fun _ _ => none⟩
  gen := demoGen
  inbuf := List.replicate 4096 0
  input := demoVoucherText
  rt := demoPledge
  listMem := fun _ => true
  listAl := fun _ _ _ => true
  outAl := fun _ => zeroAllocator
  names := fun _ => ⟨some 1, some [], some [⟨105, some (str "S1")⟩]⟩
  nameAl := fun _ _ _ => true

/-- What an observer sees of a run: success, standard output, the content of some files, the number of messages and of blocks
left. -/
def doneView (files : List Bytes) : Outcome Done → Option (Bool × Bytes × List (Option Bytes) × Nat × Nat)
  | .ok (.ran _ r) => some (r.ok, r.io.out, files.map r.io.files, r.sent.length,
      ((List.range r.heap.next).filter fun p => (r.heap.blk p).isSome).length)
  | _ => none

/-- Nothing printed, no files. -/
def emptyIo : Io := ⟨[], fun _ => none⟩

/-- The configured members of an environment. -/
structure ConfView where
  texts : List (Option Bytes)
  files : List FileRes
  lists : List Server.Loaded
deriving Repr, DecidableEq

/-- The configured members of an environment. -/
def confView (e : PledgeEnv) : ConfView :=
  ⟨[e.address, e.keyPath, e.certPath, e.createdOn, e.nonce, e.serial], [e.signCert, e.signKey],
    [e.additional, e.verifyCerts, e.verifyStore]⟩

/-- What `main` has prepared for the command. -/
structure Prep where
  opts : Opts
  cmd : Command
  port : Nat
  conf : ConfView
  tls : Option Bytes
deriving Repr, DecidableEq

/-- What `main` has prepared for the command; `none` also when the configuration could not be released again. -/
def prepView {O : Ossl} (W : World O) (args : List Bytes) : Option Prep :=
  match prepare W.help W.conf W.dup W.ini W.port args mem0 with
  | .ok (.go o cmd m c p) => match envOf W m c, strOf m (c (.str .registrar .tlsCert)), freeConfig m c with
    | .ok e, .ok t, .ok _ => some ⟨o, cmd, p, confView e, t⟩
    | _, _, _ => none
  | _ => none

/-- Nothing but the configured members comes from the configuration. -/
theorem envOf_rt {O : Ossl} {W : World O} {m : Mem} {c : Conf} {e : PledgeEnv} (h : envOf W m c = .ok e) :
    e = { W.rt with
      address := e.address, keyPath := e.keyPath, certPath := e.certPath, createdOn := e.createdOn, nonce := e.nonce,
      serial := e.serial, signCert := e.signCert, signKey := e.signKey, additional := e.additional,
      verifyCerts := e.verifyCerts, verifyStore := e.verifyStore } := by
  unfold envOf at h
  cases h1 : strOf m (c (.str .registrar .bindAddress)) with
  | ub => rw [h1] at h; cases h
  | ok x1 =>
  cases h2 : strOf m (c (.str .pledge .idevidKey)) with
  | ub => rw [h1, h2] at h; cases h
  | ok x2 =>
  cases h3 : strOf m (c (.str .pledge .idevidCert)) with
  | ub => rw [h1, h2, h3] at h; cases h
  | ok x3 =>
  cases h4 : strOf m (c (.str .pledge .createdOn)) with
  | ub => rw [h1, h2, h3, h4] at h; cases h
  | ok x4 =>
  cases h5 : strOf m (c (.str .pledge .nonce)) with
  | ub => rw [h1, h2, h3, h4, h5] at h; cases h
  | ok x5 =>
  cases h6 : strOf m (c (.str .pledge .serialNumber)) with
  | ub => rw [h1, h2, h3, h4, h5, h6] at h; cases h
  | ok x6 =>
  cases h7 : strOf m (c (.str .pledge .cmsSignCert)) with
  | ub => rw [h1, h2, h3, h4, h5, h6, h7] at h; cases h
  | ok x7 =>
  cases h8 : strOf m (c (.str .pledge .cmsSignKey)) with
  | ub => rw [h1, h2, h3, h4, h5, h6, h7, h8] at h; cases h
  | ok x8 =>
  rw [h1, h2, h3, h4, h5, h6, h7, h8] at h
  simp only [bind'_ok] at h
  cases h9 : listOf (W.listMem .add) (W.listAl .add) W.certs m (c (.list .pledge .add)) with
  | ub => rw [h9] at h; cases h
  | ok x9 =>
  rw [h9, bind'_ok] at h
  cases h10 : listOf (W.listMem .verifyCerts) (W.listAl .verifyCerts) W.certs m (c (.list .pledge .verifyCerts)) with
  | ub => rw [h10] at h; cases h
  | ok x10 =>
  rw [h10, bind'_ok] at h
  cases h11 : listOf (W.listMem .verifyStore) (W.listAl .verifyStore) W.certs m (c (.list .pledge .verifyStore)) with
  | ub => rw [h11] at h; cases h
  | ok x11 =>
  rw [h11, bind'_ok] at h
  cases h
  rfl

/-- A run whose preparation is known is that of the command. -/
theorem main_prep {O : Ossl} {W : World O} {args : List Bytes} {o : Opts} {cmd : Command} {p : Nat} {e0 : PledgeEnv} {t : Option Bytes}
    (hp : prepView W args = some ⟨o, cmd, p, confView e0, t⟩)
    (h0 : e0 = { W.rt with
      address := e0.address, keyPath := e0.keyPath, certPath := e0.certPath, createdOn := e0.createdOn, nonce := e0.nonce,
      serial := e0.serial, signCert := e0.signCert, signKey := e0.signKey, additional := e0.additional,
      verifyCerts := e0.verifyCerts, verifyStore := e0.verifyStore }) (io : Io) (h : Heap) :
    ∃ m c, envOf W m c = .ok e0 ∧ strOf m (c (.str .registrar .tlsCert)) = .ok t ∧ main W args mem0 io h = command W o cmd m c p io h := by
  unfold prepView at hp
  unfold main
  cases hq : prepare W.help W.conf W.dup W.ini W.port args mem0 with
  | ub => rw [hq] at hp; cases hp
  | ok x =>
    rw [hq] at hp
    cases x with
    | exit _ _ => cases hp
    | go o' cmd' m c p' =>
      simp only at hp
      cases he : envOf W m c with
      | ub => rw [he] at hp; cases hp
      | ok e =>
        cases ht : strOf m (c (.str .registrar .tlsCert)) with
        | ub => rw [he, ht] at hp; cases hp
        | ok t' =>
          cases hf : freeConfig m c with
          | ub => rw [he, ht, hf] at hp; cases hp
          | ok z =>
            rw [he, ht, hf] at hp
            simp only [Option.some.injEq, Prep.mk.injEq, confView, ConfView.mk.injEq, List.cons.injEq, and_true] at hp
            obtain ⟨rfl, rfl, rfl, ⟨⟨a1, a2, a3, a4, a5, a6⟩, ⟨a7, a8⟩, a9, a10, a11⟩, rfl⟩ := hp
            have hee : e = e0 := by
              rw [envOf_rt he, a1, a2, a3, a4, a5, a6, a7, a8, a9, a10, a11, ← h0]
            subst hee
            refine ⟨m, c, he, ht, ?_⟩
            rw [bind'_ok]
            simp only
            cases hc : command W o' cmd' m c p' io h with
            | ub => rfl
            | ok d => rw [bind'_ok, hf, bind'_ok]

/-- The preparation does not depend on network, standard input, or the files written. -/
theorem prepView_net {O : Ossl} (W : World O) (net : Bytes → Nat → Net) (input : Bytes) (sys : Sys O) (args : List Bytes) :
    prepView { W with net := net, input := input, sys := sys } args = prepView W args := rfl

/-- The prepared runs of the instance. -/
theorem host_preq (crt : Bytes → Bytes → Option (Nat × Bytes)) : prepView (demoHost crt) [str "preq", str "-c", str "ini"] =
    some ⟨⟨false, str "ini", [], [], 0, []⟩, .pledgeRequest, 443, confView demoPledge, some (str "tls")⟩ :=
  (prepView_net (demoHost fun _ _ => none) (demoHost crt).net _ _ _).trans (by decide +kernel)

theorem host_sign (crt : Bytes → Bytes → Option (Nat × Bytes)) : prepView (demoHost crt) [str "sign", str "-c", str "ini", str "-o", str "x"] =
    some ⟨⟨false, str "ini", [], str "x", 0, []⟩, .signCert, 443, confView demoPledge, some (str "tls")⟩ :=
  (prepView_net (demoHost fun _ _ => none) (demoHost crt).net _ _ _).trans (by decide +kernel)

/-- A name of 254 characters. -/
def longName : Bytes := List.replicate 254 120

theorem host_long (crt : Bytes → Bytes → Option (Nat × Bytes)) : prepView (demoHost crt) [str "sign", str "-c", str "ini", str "-o", longName] =
    some ⟨⟨false, str "ini", [], longName, 0, []⟩, .signCert, 443, confView demoPledge, some (str "tls")⟩ :=
  (prepView_net (demoHost fun _ _ => none) (demoHost crt).net _ _ _).trans (by decide +kernel)

theorem host_epvr (crt : Bytes → Bytes → Option (Nat × Bytes)) : prepView (demoHost crt) [str "epvr", str "-c", str "ini", str "-o", str "x"] =
    some ⟨⟨false, str "ini", [], str "x", 0, []⟩, .exportPvr, 443, confView demoPledge, some (str "tls")⟩ :=
  (prepView_net (demoHost fun _ _ => none) (demoHost crt).net _ _ _).trans (by decide +kernel)

theorem host_vmasa (crt : Bytes → Bytes → Option (Nat × Bytes)) : prepView (demoHost crt) [str "vmasa", str "-c", str "ini", str "-i", str "tls"] =
    some ⟨⟨false, str "ini", str "tls", [], 0, []⟩, .verifyMasa, 443, confView demoPledge, some (str "tls")⟩ :=
  (prepView_net (demoHost fun _ _ => none) (demoHost crt).net _ _ _).trans (by decide +kernel)

end Brski.Props
