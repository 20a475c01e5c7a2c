import Verif.Ports
import Verif.PropsCli
import Verif.PropsFraming

/-!
# C95: the ports of servers and clients
-/

namespace Brski.Props

open Cli Config DlList Outcome Ports

/-! ## Specification -/

/-- The text written for the port of a section of the file. -/
def portEntry (f : Ini.IniFile) (sec : String) : Option Bytes := Spec.iniValue (str "port") (Spec.iniEntries (str sec) f)

/-- The text that names the port of the registrar: the option `-p`, or else the entry of the file. -/
def namedPort (l : Line) (f : Ini.IniFile) : Option Bytes :=
  match l.value .port with
  | some t => some t
  | none => portEntry f "registrar"

/-- The text is a port number. -/
def IsPort (t : Option Bytes) (n : Nat) : Prop := ∃ d, t = some d ∧ Denotes d n ∧ 1 ≤ n ∧ n ≤ 65535

/-- The number fits the buffer in which numbers of the file are read (63 characters; there is no need for more than 5). -/
def Fits (t : Option Bytes) : Prop := ∀ d, t = some d → d.length ≤ 63

/-- A run of the program that comes to a command with the port `p` of the registrar. -/
def Comes (l : Line) (files : Bytes → Option Ini.IniFile) (cmd : Command) (p : Nat) : Prop :=
  ∃ help al dup m o m' c, Wf m ∧
    (∀ s k, (al s).list k 0 = false ∨ (al s).list k 1 = false ∨ ∀ i, (al s).list k i = true) ∧
    l.Ok ∧ l.operands.head? = some (str (label cmd)) ∧
    prepare help al dup files (loadedPort files) l.words m = .ok (.go o cmd m' c p)

/-- The file a command line names. -/
def fileOf (l : Line) : Bytes := (l.value .config).getD []

/-- **C95** as stated: the commands `preq`, `sign` and `registrar` run only with a port number on the command line or in the
file, and use this port; `masa` (and the registrar as its client) run only with a port number in the file, and use it. -/
def C95_statement : Prop :=
  ∀ (l : Line) (files : Bytes → Option Ini.IniFile) (cmd : Command) (p : Nat) (f : Ini.IniFile),
    Comes l files cmd p → files (fileOf l) = some f →
      (Overrides cmd → ∃ n, IsPort (namedPort l f) n ∧ service p = BoolTime.natDec n) ∧
      (cmd = .startMasa ∨ cmd = .startRegistrar →
        ∃ n, IsPort (portEntry f "masa") n ∧ service (filePort f .masa) = BoolTime.natDec n)

/-! ## Numbers -/

theorem isDigit_of {c : UInt8} (h : 48 ≤ c.toNat ∧ c.toNat ≤ 57) : isDigit c = true := by
  unfold isDigit
  simpa [UInt8.le_iff_toNat_le] using h

/-- `strtol` of a decimal text. -/
theorem strtol_denotes {d : Bytes} {n : Nat} (h : Denotes d n) : strtol d = min 9223372036854775807 (n : Int) := by
  obtain ⟨h1, h2, h3⟩ := h
  cases d with
  | nil => exact absurd rfl h1
  | cons c r =>
    have hb := h2 c (by simp)
    have hs : isSpace c = false := by
      unfold isSpace
      have e1 : ¬ c = 32 := by rintro rfl; exact absurd hb.1 (by decide)
      have e2 : ¬ c ≤ 13 := by rw [UInt8.le_iff_toNat_le]; intro h; have : (13 : UInt8).toNat = 13 := rfl; omega
      simp [e1, e2]
    have e3 : ¬ c = 45 := by rintro rfl; exact absurd hb.1 (by decide)
    have e4 : ¬ c = 43 := by rintro rfl; exact absurd hb.1 (by decide)
    have htw : (c :: r).takeWhile isDigit = c :: r :=
      takeWhile_isAll _ _ (List.all_eq_true.2 fun x hx => isDigit_of (h2 x hx))
    have hv : digitsVal (c :: r) = n := h3
    unfold strtol
    simp only [List.dropWhile_cons, hs, Bool.false_eq_true, if_false, List.head?_cons]
    have f1 : (some c == some (45 : UInt8)) = false := by simp [e3]
    have f2 : (some c == some (43 : UInt8)) = false := by simp [e4]
    simp only [f1, f2, Bool.or_self, Bool.false_eq_true, if_false, htw, hv]

/-- `ini_getl` of a decimal text that fits the buffer. -/
theorem getl_denotes {f : Ini.IniFile} {sec : Bytes} {d : Bytes} {n : Nat}
    (h : Spec.iniValue (str "port") (Spec.iniEntries sec f) = some d) (hd : Denotes d n) (hl : d.length ≤ 63) :
    getl f sec (str "port") 0 = min 9223372036854775807 (n : Int) := by
  have hg : Ini.gets f sec (str "port") [] getlBuffer = d := by
    rw [gets_eq, h]
    exact List.take_of_length_le hl
  unfold getl
  rw [hg]
  obtain ⟨h1, h2, h3⟩ := id hd
  match d, h1, h2, hd with
  | [], h1, _, _ => exact absurd rfl h1
  | [a], _, _, hd => exact strtol_denotes hd
  | a :: b :: r, _, h2, hd =>
    have hb := h2 b (by simp)
    have e1 : ¬ b = 120 := by rintro rfl; exact absurd hb.2 (by decide)
    have e2 : ¬ b = 88 := by rintro rfl; exact absurd hb.2 (by decide)
    have : (b == 120 || b == 88) = false := by simp [e1, e2]
    simp only [this, Bool.false_eq_true, if_false]
    exact strtol_denotes hd

theorem service_small {n : Nat} (h : n < 2147483648) : service n = BoolTime.natDec n := by
  unfold service intDec toInt
  rw [if_pos h, if_neg (by omega)]
  simp

theorem portOf_denotes {d : Bytes} {n : Nat} (h : Denotes d n) (hn : n < 4294967296) : portOf d = n := by
  unfold portOf
  rw [strtol_denotes h]
  omega

theorem filePort_denotes {f : Ini.IniFile} {s : Sec} {d : Bytes} {n : Nat}
    (h : Spec.iniValue (str "port") (Spec.iniEntries (secName s) f) = some d) (hd : Denotes d n) (hl : d.length ≤ 63)
    (hn : n < 4294967296) : filePort f s = n := by
  unfold filePort
  rw [getl_denotes h hd hl]
  omega

/-- The port of a command. -/
theorem comes_port {l : Line} {files : Bytes → Option Ini.IniFile} {cmd : Command} {p : Nat} (h : Comes l files cmd p)
    (hc : Overrides cmd) {f : Ini.IniFile} (hf : files (fileOf l) = some f) :
    p = if ((l.value .port).map portOf).getD 0 ≠ 0 then ((l.value .port).map portOf).getD 0 else filePort f .registrar := by
  obtain ⟨help, al, dup, m, o, m', c, hw, hal, hl, hop, he⟩ := h
  have hrun : processOptions help l.words = .ok (.run l.opts cmd) := (C50_accepted _ _ _ _).2 ⟨l, hl, rfl, hop, rfl⟩
  have hs : cmd ≠ .getSerial := by rintro rfl; rcases hc with h | h | h <;> cases h
  rcases C50_effective help al dup files (loadedPort files) l.words m l.opts cmd hw hal hrun with
    ⟨m2, e2, -⟩ | ⟨m2, c2, p2, g, e2, -, -, hp, -⟩
  · rw [e2] at he
    cases he
  · rw [e2] at he
    injection he with he
    injection he with _ _ _ _ he
    subst he
    rw [hp, if_neg hs]
    have hload : loadedPort files l.opts.config = filePort f .registrar := by
      unfold loadedPort
      rw [show l.opts.config = fileOf l from rfl, hf]
    rw [hload]
    show _ = if l.opts.port ≠ 0 then l.opts.port else filePort f .registrar
    by_cases h0 : l.opts.port = 0
    · rw [if_neg (fun hh => hh.2 h0), if_neg (fun hh => hh h0)]
    · rw [if_pos ⟨hc, h0⟩, if_pos h0]

/-! ## What holds -/

/-- **C95**, partial: when the option or else the file names a port number, the servers and the clients ask for exactly this
port.  Missing: any other text is accepted too (`C95_violated`, `C95_digits`, `C95_unnamed`). -/
theorem C95_partial {l : Line} {files : Bytes → Option Ini.IniFile} {cmd : Command} {p : Nat} (h : Comes l files cmd p)
    {f : Ini.IniFile} (hf : files (fileOf l) = some f) :
    (Overrides cmd → ∀ n, IsPort (namedPort l f) n → (l.value .port = none → Fits (portEntry f "registrar")) →
      service p = BoolTime.natDec n) ∧
    (∀ n, IsPort (portEntry f "masa") n → Fits (portEntry f "masa") → service (filePort f .masa) = BoolTime.natDec n) := by
  refine ⟨fun hc n hn hfit => ?_, fun n hn hfit => ?_⟩
  · obtain ⟨d, hd, hden, h1, h2⟩ := hn
    have hp := comes_port h hc hf
    unfold namedPort at hd
    cases hv : l.value .port with
    | some t =>
      rw [hv] at hd hp
      injection hd with hd
      subst hd
      simp only [Option.map_some, Option.getD_some] at hp
      rw [portOf_denotes hden (by omega), if_pos (by omega)] at hp
      rw [hp, service_small (by omega)]
    | none =>
      rw [hv] at hd hp
      simp only [Option.map_none, Option.getD_none, ne_eq, not_true_eq_false, if_false] at hp
      rw [hp, filePort_denotes (s := .registrar) hd hden (hfit hv d hd) (by omega), service_small (by omega)]
  · obtain ⟨d, hd, hden, h1, h2⟩ := hn
    rw [filePort_denotes (s := .masa) hd hden (hfit d hd) (by omega), service_small (by omega)]

/-- **C95** (agreement): whatever is written, two runs with the same option and the same content of the file – the registrar's
and the pledge's – use the same port. -/
theorem C95_same {l l' : Line} {files files' : Bytes → Option Ini.IniFile} {cmd cmd' : Command} {p p' : Nat}
    (h : Comes l files cmd p) (h' : Comes l' files' cmd' p') (hc : Overrides cmd) (hc' : Overrides cmd')
    {f : Ini.IniFile} (hf : files (fileOf l) = some f) (hf' : files' (fileOf l') = some f)
    (hv : l.value .port = l'.value .port) : service p = service p' := by
  rw [comes_port h hc hf, comes_port h' hc' hf', hv]

/-- **C95** (numbers out of range): a decimal number `v` in the file is taken modulo 2³² (above 2⁶³ it is 2³² − 1), so that the
port asked for is the port number `n` exactly when `v` leaves the remainder `n`. -/
theorem C95_digits {f : Ini.IniFile} {s : Sec} {d : Bytes} {v : Nat}
    (h : Spec.iniValue (str "port") (Spec.iniEntries (secName s) f) = some d) (hd : Denotes d v) (hl : d.length ≤ 63) :
    filePort f s = (if v < 9223372036854775808 then v % 4294967296 else 4294967295) ∧
    ∀ n, n < 2147483648 → (service (filePort f s) = BoolTime.natDec n ↔
      v < 9223372036854775808 ∧ v % 4294967296 = n) := by
  have he : filePort f s = (if v < 9223372036854775808 then v % 4294967296 else 4294967295) := by
    unfold filePort
    rw [getl_denotes h hd hl]
    split <;> omega
  refine ⟨he, fun n hn => ?_⟩
  rw [he]
  have hinj : ∀ {a b : Nat}, BoolTime.natDec a = BoolTime.natDec b → a = b := by
    intro a b hab
    have h1 := (natDec_denotes a).2.2
    rw [hab, (natDec_denotes b).2.2] at h1
    exact h1.symm
  have hneg : ∀ {p : Nat}, 2147483648 ≤ p → p < 4294967296 → service p ≠ BoolTime.natDec n := by
    intro p h1 h2 hab
    have hm : (45 : UInt8) ∈ BoolTime.natDec n := by
      rw [← hab]
      have ht : toInt p = (p : Int) - 4294967296 := by
        unfold toInt
        rw [if_neg (by omega)]
      unfold service intDec
      rw [ht, if_pos (by omega)]
      simp
    have := (natDec_denotes n).2.1 _ hm
    revert this
    decide
  split
  · rename_i hv
    constructor
    · intro hs
      refine ⟨hv, ?_⟩
      by_cases hsm : v % 4294967296 < 2147483648
      · rw [service_small hsm] at hs
        exact hinj hs
      · exact absurd hs (hneg (by omega) (by omega))
    · rintro ⟨-, rfl⟩
      exact service_small hn
  · rename_i hv
    exact ⟨fun hs => absurd hs (hneg (by omega) (by omega)), fun hh => absurd hh.1 hv⟩

/-- **C95** (nothing written): without an entry, or with an empty one, the port is 0: a server gets any free port. -/
theorem C95_unnamed {f : Ini.IniFile} {s : Sec}
    (h : Spec.iniValue (str "port") (Spec.iniEntries (secName s) f) = none ∨
      Spec.iniValue (str "port") (Spec.iniEntries (secName s) f) = some []) : service (filePort f s) = str "0" := by
  have hg : Ini.gets f (secName s) (str "port") [] getlBuffer = [] := by
    rw [gets_eq]
    rcases h with h | h <;> rw [h] <;> rfl
  have : filePort f s = 0 := by
    unfold filePort getl
    rw [hg]
    rfl
  rw [this]
  decide +kernel

/-- **C95** (options that name no port): an option `-p` whose number is 0 modulo 2³² is as good as no option. -/
theorem C95_option {l : Line} {files : Bytes → Option Ini.IniFile} {cmd : Command} {p : Nat} (h : Comes l files cmd p)
    (hc : Overrides cmd) {f : Ini.IniFile} (hf : files (fileOf l) = some f) {t : Bytes} {v : Nat}
    (hv : l.value .port = some t) (ht : Denotes t v) (hb : v < 9223372036854775808) :
    p = if v % 4294967296 = 0 then filePort f .registrar else v % 4294967296 := by
  have hp := comes_port h hc hf
  have : portOf t = v % 4294967296 := by
    unfold portOf
    rw [strtol_denotes ht]
    omega
  rw [hv] at hp
  simp only [Option.map_some, Option.getD_some, this] at hp
  rw [hp]
  by_cases h0 : v % 4294967296 = 0
  · rw [if_pos h0, if_neg (fun hh => hh h0)]
  · rw [if_neg h0, if_pos h0]

/-- **C95** (requests): the `Host` field of a request names the host and the port, the port left out when it is 443. -/
theorem C95_host (host : Bytes) (n : Nat) (h1 : 1 ≤ n) (h2 : n ≤ 65535) (hh : 58 ∉ host) :
    hostField host n = if n = 443 then host else host ++ str ":" ++ BoolTime.natDec n := by
  unfold hostField
  have ht : toInt n = n := by unfold toInt; rw [if_pos (by omega)]
  rw [ht, service_small (by omega)]
  unfold adjustHost
  rw [if_neg hh]
  by_cases h : n = 443
  · rw [if_pos h, if_pos (by omega)]
  · rw [if_neg h, if_neg (by omega)]
    rfl

/-! ## What does not hold -/

/-- A configuration file with given ports. -/
def portsFile (reg masa : String) : Ini.IniFile :=
  [.section (str "registrar"), .entry (str "port") (str reg), .section (str "masa"), .entry (str "port") (str masa)]

/-- `brski -c f registrar`, with options before. -/
def portsLine (its : List Item) : Line := ⟨its ++ [.separate 0 .config (str "f"), .operand (str "registrar")], none⟩

/-- All memory is there. -/
def allMem : Sec → Alloc := fun _ => ⟨fun _ => true, fun _ _ => true⟩

/-- The port with which the command line comes to its command. -/
def portComing (l : Line) (f : Ini.IniFile) : Option Nat :=
  match prepare .ub allMem true (fun _ => some f) (loadedPort fun _ => some f) l.words mem0 with
  | .ok (.go _ .startRegistrar _ _ p) => some p
  | _ => none

theorem comes_of {l : Line} {f : Ini.IniFile} {p : Nat} (hl : l.Ok) (ho : l.operands.head? = some (str "registrar"))
    (h : portComing l f = some p) : Comes l (fun _ => some f) .startRegistrar p := by
  unfold portComing at h
  split at h
  · rename_i o m' c p' he
    injection h with h
    subst h
    exact ⟨.ub, allMem, true, mem0, o, m', c, wf_mem0, fun _ _ => .inr (.inr fun _ => rfl), hl, ho, he⟩
  · cases h

theorem portsLine_ok (its : List Item) (h : ∀ i ∈ its, i.Ok) : (portsLine its).Ok := by
  intro i hi
  rcases List.mem_append.1 hi with hi | hi
  · exact h i hi
  · cases hi with
    | head => trivial
    | tail _ hi =>
      cases hi with
      | head => intro h; exact absurd h (by decide)
      | tail _ hi => cases hi

/-- **C95** (a word instead of a number): a registrar configured with the port `brski` starts, on any free port. -/
theorem C95_word : Comes (portsLine []) (fun _ => some (portsFile "brski" "443")) .startRegistrar 0 ∧ service 0 = str "0" ∧
    (∀ n, ¬ IsPort (namedPort (portsLine []) (portsFile "brski" "443")) n) := by
  refine ⟨comes_of (portsLine_ok [] nofun) rfl (by decide +kernel), by decide +kernel, ?_⟩
  rintro n ⟨d, hd, hn, -⟩
  have : d = str "brski" := by
    have he : namedPort (portsLine []) (portsFile "brski" "443") = some (str "brski") := by decide
    rw [he] at hd
    injection hd with hd
    exact hd.symm
  subst this
  have := hn.2.1 98 (by decide)
  revert this
  decide

/-- The code violates C95. -/
theorem C95_violated : ¬ C95_statement := by
  intro h
  obtain ⟨h1, -, h3⟩ := C95_word
  obtain ⟨n, hn, -⟩ := (h _ _ _ _ _ h1 rfl).1 (by decide)
  exact h3 n hn

/-- **C95** (more of the same): a number beyond 2³² gives another port, on the command line as in the file; a number with an X
at the second place is hexadecimal, and `1x9` is 1; digits before a word count; a negative number is passed on. -/
theorem C95_other : portComing (portsLine []) (portsFile "4294967739" "443") = some 443 ∧
    portComing (portsLine [.separate 0 .port (str "4294967739")]) (portsFile "8443" "443") = some 443 ∧
    portComing (portsLine [.separate 0 .port (str "https")]) (portsFile "8443" "443") = some 8443 ∧
    portComing (portsLine []) (portsFile "0x1bB" "443") = some 443 ∧
    portComing (portsLine []) (portsFile "1x9" "443") = some 1 ∧
    portComing (portsLine []) (portsFile "443 or so" "443") = some 443 ∧
    portComing (portsLine []) (portsFile "70000" "443") = some 70000 ∧
    (portComing (portsLine []) (portsFile "-1" "443")).map service = some (str "-1") := by decide +kernel

/-- Beyond the buffer: a port number with 63 noughts before it is read as 0. -/
theorem C95_long : ∃ f, IsPort (portEntry f "registrar") 443 ∧ filePort f .registrar = 0 := by
  refine ⟨[.section (str "registrar"), .entry (str "port") (List.replicate 63 48 ++ str "443")],
    ⟨List.replicate 63 48 ++ str "443", by decide +kernel, ⟨by decide +kernel, by decide +kernel, by decide +kernel⟩,
      by decide, by decide⟩, by decide +kernel⟩

/-! ## Non-vacuity -/

example : Comes (portsLine []) (fun _ => some (portsFile "8443" "00443")) .startRegistrar 8443 ∧
    IsPort (namedPort (portsLine []) (portsFile "8443" "00443")) 8443 ∧ Fits (portEntry (portsFile "8443" "00443") "registrar") ∧
    IsPort (portEntry (portsFile "8443" "00443") "masa") 443 ∧ Fits (portEntry (portsFile "8443" "00443") "masa") ∧
    service (filePort (portsFile "8443" "00443") .masa) = str "443" := by
  refine ⟨comes_of (portsLine_ok [] nofun) rfl (by decide +kernel),
    ⟨str "8443", by decide, ⟨by decide, by decide, by decide⟩, by decide, by decide⟩, ?_,
    ⟨str "00443", by decide, ⟨by decide, by decide, by decide⟩, by decide, by decide⟩, ?_, by decide +kernel⟩ <;>
  · intro d hd
    injection (show _ = some d from hd) with hd
    subst hd
    decide

example : Comes (portsLine [.attached 0 .port (str "1")]) (fun _ => some (portsFile "x" "")) .startRegistrar 1 ∧
    Comes (portsLine [.separate 0 .port (str "4294967296")]) (fun _ => some (portsFile "443" "")) .startRegistrar 443 ∧
    Denotes (str "4294967296") 4294967296 ∧ service (filePort (portsFile "x" "") .masa) = str "0" ∧
    hostField (str "localhost") 8443 = str "localhost:8443" ∧ hostField (str "::1") 8443 = str "[::1]:8443" ∧
    hostField (str "::1") 443 = str "::1" := by
  refine ⟨comes_of (portsLine_ok _ ?_) rfl (by decide +kernel), comes_of (portsLine_ok _ ?_) rfl (by decide +kernel),
    ⟨by decide, by decide, by decide +kernel⟩, by decide +kernel, by decide +kernel, by decide +kernel, by decide +kernel⟩
  · intro i hi
    rcases List.mem_singleton.1 hi with rfl
    intro h
    exact absurd h (by decide)
  · intro i hi
    rcases List.mem_singleton.1 hi with rfl
    trivial

end Brski.Props
