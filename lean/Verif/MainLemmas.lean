import Verif.Main
import Verif.PropsCli
import Verif.PropsNetwork

/-!
# From the configuration file to the client functions
-/

namespace Brski.Props
open Outcome DlList Config Cli Crypto Base64 BoolTime Server Pledge Main

/-- The text of a setting: the first value of the key or the default, as far as it fits and up to a NUL; `none` when it is
empty (specification, /repo/src/brski/config.ini.in). -/
def settingOf (f : Ini.IniFile) (sec key dflt : Bytes) (cap : Nat) : Option Bytes :=
  let t := ((Spec.iniValue key (Spec.iniEntries sec f)).getD dflt).take cap
  if t = [] then none else some (t.takeWhile (· ≠ 0))

/-- The file named by a list setting: by the first value of its key (for repeated keys see C44). -/
def listPath (f : Ini.IniFile) (sec key : Bytes) : Option Bytes :=
  (Spec.iniValue key (Spec.iniEntries sec f)).map fun w => (w.take 511).takeWhile (· ≠ 0)

/-- A list setting names nothing: no entry with exactly this name (also in the case of letters) comes before the first entry
without a name, or the first value of the key is empty. -/
def Unlisted (f : Ini.IniFile) (sec key : Bytes) : Prop :=
  (∀ e ∈ (Spec.iniEntries sec f).takeWhile (fun e => decide (e.1 ≠ [])), e.1.take 2047 ≠ key) ∨
    (Spec.iniValue key (Spec.iniEntries sec f)).getD [] = []

/-- A list of certificates was read from files named in the configuration: it is absent because nothing is named, unusable, or
all its members are the certificates in the named file. -/
def FromFiles (certs : Bytes → Option Bytes) (f : Ini.IniFile) (sec key : Bytes) : Server.Loaded → Prop
  | .absent => Unlisted f sec key
  | .noMem | .freed => True
  | .list l => l ≠ [] ∧ ∀ x ∈ l, x.2 = 0 ∧ ∃ p, listPath f sec key = some p ∧ certs p = some x.1

theorem cstr_pad (t : Bytes) (n : Nat) : cstr (t ++ List.replicate n 0) = t.takeWhile (· ≠ 0) := by
  unfold cstr
  induction t with
  | nil => cases n <;> simp [List.replicate_succ]
  | cons c t ih =>
    by_cases h : c = 0
    · simp [h]
    · simp only [List.cons_append, List.takeWhile_cons, ne_eq, h, not_false_eq_true, decide_true, if_true]
      rw [← ih]

theorem strOf_none (m : Mem) : strOf m none = .ok none := rfl

/-- A string member as the client functions see it. -/
theorem strOf_read {m0 m : Mem} {c : Conf} {g : Slot → Option Obj} (ho : Own m0 m g) (hm : Match c g) {s : Sec} {fld : Field}
    {size : Nat} {v : Bytes} (hr : Reads (g (.str s fld)) size v) :
    strOf m (c (.str s fld)) = .ok (if v = [] then none else some (v.takeWhile (· ≠ 0))) := by
  rw [hm.ptr]
  rcases hr with ⟨h1, h2⟩ | ⟨h1, p, h2⟩
  · rw [h2, h1]; rfl
  · rw [h2]
    have hd : m.dat p = some (textBlock size v) := ho.holds _ _ h2
    simp only [Option.map_some, Obj.ptr, strOf, hd, if_neg h1, textBlock, cstr_pad]

theorem strOf_setting {m0 m : Mem} {c : Conf} {g g0 : Slot → Option Obj} (ho : Own m0 m g) (hm : Match c g) {f : Ini.IniFile}
    {s : Sec} (hl : Config.Loaded f s g0) {d : StrSpec} (hd : d ∈ loadStrs s) (hg : g (.str s d.field) = g0 (.str s d.field)) :
    strOf m (c (.str s d.field)) = .ok (settingOf f (secName s) d.key d.dflt (d.size - 1)) := by
  have hr := hl.1 d hd
  rw [← hg] at hr
  rw [strOf_read ho hm hr, gets_eq]
  rfl

theorem wf_own {ι : Type} {m0 m : Mem} {g : ι → Option Obj} (hw : Wf m0) (ho : Own m0 m g) : Wf m := by
  intro p hp
  have hlt := ho.mono
  refine ⟨?_, ?_⟩
  · rw [ho.node p fun i o e hpo => by have := ((ho.young i o e).1 p hpo).2; omega]
    exact (hw p (by omega)).1
  · rw [ho.dat p fun i o e hpo => by have := ((ho.young i o e).2 p hpo).2; omega]
    exact (hw p (by omega)).2

theorem nul_split (v : Bytes) : ∃ rest, v ++ [0] = v.takeWhile (· ≠ 0) ++ 0 :: rest := by
  induction v with
  | nil => exact ⟨[], rfl⟩
  | cons c v ih =>
    by_cases h : c = 0
    · exact ⟨v ++ [0], by simp [h]⟩
    · obtain ⟨rest, hr⟩ := ih
      refine ⟨rest, ?_⟩
      simp only [List.cons_append, List.takeWhile_cons, ne_eq, h, not_false_eq_true, decide_true, if_true, List.cons.injEq,
        true_and]
      exact hr

theorem nul_free (v : Bytes) : (0 : UInt8) ∉ v.takeWhile (· ≠ 0) := by
  induction v with
  | nil => simp
  | cons c v ih =>
    by_cases h : c = 0
    · simp [h]
    · simp only [List.takeWhile_cons, ne_eq, h, not_false_eq_true, decide_true, if_true, List.mem_cons, not_or]
      exact ⟨fun e => h e.symm, ih⟩

/-- The values collected for a list are all the first value of the key (C44). -/
theorem pickedAll_path (f : Ini.IniFile) (sec key : Bytes) :
    ∀ v ∈ pickedAll f sec key, listPath f sec key = some (v.takeWhile (· ≠ 0)) := by
  intro v hv
  rw [pickedAll_eq] at hv
  obtain ⟨e, he, rfl⟩ := List.mem_map.1 hv
  simp only [List.mem_filter, decide_eq_true_eq] at he
  have h2 := he.2.2
  simp only [listText, gets_eq] at h2 ⊢
  unfold listPath
  cases hw : Spec.iniValue key (Spec.iniEntries sec f) with
  | none => rw [hw] at h2; simp at h2
  | some w => rfl

theorem unlisted_of {f : Ini.IniFile} {sec key : Bytes} (h : pickedAll f sec key = []) : Unlisted f sec key := by
  rw [pickedAll_eq, List.map_eq_nil_iff, List.filter_eq_nil_iff] at h
  by_cases hv : (Spec.iniValue key (Spec.iniEntries sec f)).getD [] = []
  · exact .inr hv
  · refine .inl fun e he hk => h e ?_ ?_
    · have : (fun e : Bytes × Bytes => decide (e.1.take 2047 ≠ [])) = fun e => decide (e.1 ≠ []) := by
        funext e
        congr 1
        simp [List.take_eq_nil_iff]
      rwa [this]
    · refine decide_eq_true ⟨hk, ?_⟩
      rw [listText, gets_eq]
      simp only [ne_eq, List.take_eq_nil_iff, hv, or_false]
      decide

/-- A list of the configuration as the client functions see it. -/
theorem listOf_file {m0 m : Mem} {c : Conf} {g g0 : Slot → Option Obj} (hw : Wf m0) (ho : Own m0 m g) (hm : Match c g)
    {f : Ini.IniFile} (hf : f.length < 2 ^ 31 - 1) {s : Sec} (hl : Config.Loaded f s g0) (l : LField)
    (hg : g (.list s l) = g0 (.list s l)) (al0 : Bool) (al : Nat → Oracle) (hal : ∀ k, CopyWorks (al k))
    (files : Bytes → Option Bytes) :
    ∃ L, listOf al0 al files m (c (.list s l)) = .ok L ∧ FromFiles files f (secName s) (listKey l) L := by
  obtain ⟨p, ys, h1, h2⟩ := hl.2 l
  rw [← hg] at h1
  have hrep : Rep m p ys := ho.holds _ _ h1
  have hlen : ys.length = (pickedAll f (secName s) (listKey l)).length := by
    have := congrArg List.length h2
    simpa using this
  have hpl : (pickedAll f (secName s) (listKey l)).length < 2 ^ 31 := by
    rw [pickedAll_eq, List.length_map]
    refine Nat.lt_of_le_of_lt (List.length_filter_le _ _) (Nat.lt_of_le_of_lt (List.takeWhile_sublist _).length_le ?_)
    have := entries_length (secName s) f
    omega
  have hp : HoldsPaths m p ((pickedAll f (secName s) (listKey l)).map fun v => v.takeWhile (· ≠ 0)) := by
    refine ⟨ys, hrep, by omega, by simpa using hlen, fun i x path hx hpath => ?_⟩
    simp only [List.getElem?_map, Option.map_eq_some_iff] at hpath
    obtain ⟨v, hv, rfl⟩ := hpath
    have hxv : itemView x = valueView v := by
      have := congrArg (fun l => l[i]?) h2
      simpa [hx, hv] using this
    have hown : x.own.map (·.2) = [v ++ [0]] := congrArg Prod.fst hxv
    obtain ⟨rest, hr⟩ := nul_split v
    refine ⟨nul_free v, ?_⟩
    match hxo : x.own with
    | [] => rw [hxo] at hown; cases hown
    | (q, b) :: more =>
      rw [hxo] at hown
      simp only [List.map_cons, List.cons.injEq] at hown
      exact ⟨q, rest, more, by rw [← hr, ← hown.1]⟩
  have hc : c (.list s l) = some p := by rw [hm.ptr, h1]; rfl
  obtain ⟨m', out, ok, e, hok, hnil, -, -, -⟩ := C43_partial m p _ (fun _ => files) al0 al (wf_own hw ho) hp hal
  unfold listOf
  rw [hc, e, bind'_ok]
  cases ok with
  | false =>
    cases out with
    | none => exact ⟨_, rfl, trivial⟩
    | some q => exact ⟨_, rfl, trivial⟩
  | true =>
    by_cases hpn : (pickedAll f (secName s) (listKey l)) = []
    · obtain ⟨-, ho'⟩ := hnil (by rw [hpn]; rfl)
      subst ho'
      exact ⟨_, rfl, unlisted_of hpn⟩
    · obtain ⟨o, ders, rfl, hd, hcon⟩ := hok rfl (by simpa using hpn)
      refine ⟨.list (ders.map fun d => (d, 0)), ?_, ?_, fun x hx => ?_⟩
      · simp only [hcon, bind'_ok, List.map_map]
        congr 3
        funext d
        simp [certElement]
      · intro hn
        have : ders = [] := by simpa using hn
        rw [this] at hd
        simp only [List.map_nil, List.mapIdx_eq_nil_iff, List.map_eq_nil_iff] at hd
        exact hpn hd
      · obtain ⟨d, hdm, rfl⟩ := List.mem_map.1 hx
        refine ⟨rfl, ?_⟩
        have hmem : some d ∈ ders.map some := List.mem_map.2 ⟨d, hdm, rfl⟩
        rw [← hd, List.mem_mapIdx] at hmem
        obtain ⟨i, hi, hv⟩ := hmem
        simp only [List.getElem_map] at hv
        exact ⟨_, pickedAll_path f (secName s) (listKey l) _ (List.getElem_mem (by simpa using hi)), hv⟩

/-- What the client functions work with, in terms of the configuration file: every member is the setting of its name in the
section of the pledge, `addr` is the address of the registrar, certificates and keys are those in the files named
(specification, /repo/src/brski/config.ini.in).  Everything else is given by the world. -/
def Configured {O : Ossl} (W : World O) (f : Ini.IniFile) (addr : Option Bytes) (e : PledgeEnv) : Prop :=
  ∃ A V S, e = { W.rt with
      address := addr
      keyPath := settingOf f (str "pledge") (str "idevidKeyPath") [] 2047
      certPath := settingOf f (str "pledge") (str "idevidCertPath") [] 2047
      createdOn := settingOf f (str "pledge") (str "createdOn") [] 21
      nonce := settingOf f (str "pledge") (str "nonce") [] 2047
      serial := settingOf f (str "pledge") (str "serialNumber") [] 2047
      signCert := fileAt W.certs (settingOf f (str "pledge") (str "cmsSignCertPath") [] 2047)
      signKey := fileAt W.keys (settingOf f (str "pledge") (str "cmsSignKeyPath") [] 2047)
      additional := A, verifyCerts := V, verifyStore := S } ∧
    FromFiles W.certs f (str "pledge") (str "cmsAdditionalCertPath") A ∧
    FromFiles W.certs f (str "pledge") (str "cmsVerifyCertPath") V ∧
    FromFiles W.certs f (str "pledge") (str "cmsVerifyStorePath") S

/-- The address of the registrar: the one of the command line if one is given there for a command that uses it, otherwise the
setting. -/
def addressOf (f : Ini.IniFile) (o : Opts) (cmd : Command) : Option Bytes :=
  if Overrides cmd ∧ o.address ≠ [] then some (o.address.takeWhile (· ≠ 0))
  else settingOf f (str "registrar") (str "bindAddress") (str "0.0.0.0") 2047

/-- The port of the registrar: the same for the port. -/
def portFor {O : Ossl} (W : World O) (o : Opts) (cmd : Command) : Nat :=
  if Overrides cmd ∧ o.port ≠ 0 then o.port else W.port o.config

/-- Preconditions on the world: allocations of lists fail in the ways allowed by C24, and the configuration file has fewer than
`2^31 - 1` lines. -/
structure SoundHost {O : Ossl} (W : World O) : Prop where
  conf : ∀ s l, (W.conf s).list l 0 = false ∨ (W.conf s).list l 1 = false ∨ ∀ k, (W.conf s).list l k = true
  lists : ∀ l k, CopyWorks (W.listAl l k)
  lines : ∀ n f, W.ini n = some f → f.length < 2 ^ 31 - 1

theorem envOf_configured {O : Ossl} {W : World O} (hs : SoundHost W) {m0 m : Mem} {c : Conf} {g g0 : Slot → Option Obj} (hw : Wf m0)
    (ho : Own m0 m g) (hm : Match c g) {f : Ini.IniFile} (hf : f.length < 2 ^ 31 - 1) (hl : ∀ s, Config.Loaded f s g0)
    (hg : ∀ t, t ≠ .str .registrar .bindAddress → g t = g0 t) {addr : Option Bytes}
    (ha : strOf m (c (.str .registrar .bindAddress)) = .ok addr) :
    ∃ e, envOf W m c = .ok e ∧ Configured W f addr e := by
  have hstr : ∀ d ∈ loadStrs .pledge, strOf m (c (.str .pledge d.field)) =
      .ok (settingOf f (str "pledge") d.key d.dflt (d.size - 1)) := fun d hd =>
    strOf_setting ho hm (hl .pledge) hd (hg _ (by simp))
  have h1 := hstr ⟨.idevidKey, str "idevidKeyPath", [], maxValue⟩ (by simp [loadStrs])
  have h2 := hstr ⟨.idevidCert, str "idevidCertPath", [], maxValue⟩ (by simp [loadStrs])
  have h3 := hstr ⟨.createdOn, str "createdOn", [], timeSize⟩ (by simp [loadStrs])
  have h4 := hstr ⟨.nonce, str "nonce", [], maxValue⟩ (by simp [loadStrs])
  have h5 := hstr ⟨.serialNumber, str "serialNumber", [], maxValue⟩ (by simp [loadStrs])
  have h6 := hstr ⟨.cmsSignCert, str "cmsSignCertPath", [], maxValue⟩ (by simp [loadStrs])
  have h7 := hstr ⟨.cmsSignKey, str "cmsSignKeyPath", [], maxValue⟩ (by simp [loadStrs])
  simp only at h1 h2 h3 h4 h5 h6 h7
  obtain ⟨A, a1, a2⟩ := listOf_file hw ho hm hf (hl .pledge) .add (hg _ (by simp)) (W.listMem .add) _ (hs.lists .add) W.certs
  obtain ⟨V, v1, v2⟩ := listOf_file hw ho hm hf (hl .pledge) .verifyCerts (hg _ (by simp)) (W.listMem .verifyCerts) _
    (hs.lists .verifyCerts) W.certs
  obtain ⟨S, s1, s2⟩ := listOf_file hw ho hm hf (hl .pledge) .verifyStore (hg _ (by simp)) (W.listMem .verifyStore) _
    (hs.lists .verifyStore) W.certs
  unfold envOf
  rw [ha, h1, h2, h3, h4, h5, h6, h7, a1, v1, s1]
  simp only [bind'_ok]
  exact ⟨_, rfl, A, V, S, rfl, a2, v2, s2⟩

/-- What a command of the pledge runs with. -/
theorem prepare_env {O : Ossl} {W : World O} (hs : SoundHost W) {args : List Bytes} {o : Opts} {cmd : Command}
    (hopt : processOptions W.help args = .ok (.run o cmd)) (hcmd : cmd ≠ .getSerial) {m : Mem} (hw : Wf m) :
    (prepare W.help W.conf W.dup W.ini W.port args m).bind (fun p => .ok (match p with | .exit s _ => some s | _ => none)) =
      .ok (some false) ∨
    ∃ m' c f e, prepare W.help W.conf W.dup W.ini W.port args m = .ok (.go o cmd m' c (portFor W o cmd)) ∧
      W.ini o.config = some f ∧ envOf W m' c = .ok e ∧ Configured W f (addressOf f o cmd) e ∧
      strOf m' (c (.str .registrar .tlsCert)) = .ok (settingOf f (str "registrar") (str "tlsCertPath") [] 2047) ∧
      ∃ z, freeConfig m' c = .ok z := by
  rcases C50_effective W.help W.conf W.dup W.ini W.port args m o cmd hw hs.conf hopt with
    ⟨m', e1, -⟩ | ⟨m', c, p, g, e1, ho, hm, hp, hc, m2, c2, e2, -⟩
  · left
    rw [e1]
    rfl
  · right
    obtain ⟨f, g0, hf, hl, hg, ha1, ha2⟩ := hc hcmd
    have haddr : strOf m' (c (.str .registrar .bindAddress)) = .ok (addressOf f o cmd) := by
      unfold addressOf
      by_cases hov : Overrides cmd ∧ o.address ≠ []
      · obtain ⟨q, hq⟩ := ha1 hov
        rw [if_pos hov, hm.ptr, hq]
        have hd : m'.dat q = some (o.address ++ [0]) := ho.holds _ _ hq
        simp only [Option.map_some, Obj.ptr, strOf, hd]
        rw [show ([0] : Bytes) = List.replicate 1 0 from rfl, cstr_pad]
      · rw [if_neg hov]
        exact strOf_setting ho hm (hl .registrar) (d := ⟨.bindAddress, str "bindAddress", str "0.0.0.0", maxValue⟩)
          (by simp [loadStrs]) (ha2 hov)
    obtain ⟨e, he, hconf⟩ := envOf_configured hs hw ho hm (hs.lines _ _ hf) hl hg haddr
    refine ⟨m', c, f, e, ?_, hf, he, hconf, ?_, _, e2⟩
    · rw [e1, hp]
      congr 2
      unfold portFor
      rw [if_neg hcmd]
    · exact strOf_setting ho hm (hl .registrar) (d := ⟨.tlsCert, str "tlsCertPath", [], maxValue⟩) (by simp [loadStrs]) (hg _ (by simp))
