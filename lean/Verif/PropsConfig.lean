import Verif.ConfigLemmas
import Verif.SpecConfig

/-!
# Properties of configuration and certificate file loading (C43, C44, C45, C58)
-/

namespace Brski.Props

open Brski.DlList Brski.Config Outcome

/-! ## The configuration file -/

theorem findSection_eq (sec : Bytes) : ∀ file : Ini.IniFile, Ini.findSection sec file =
    (match file.dropWhile fun l => !Spec.isHeaderOf sec l with
     | [] => none
     | _ :: r => some r)
  | [] => rfl
  | .section n :: ls => by
    simp only [Ini.findSection, List.dropWhile_cons, Spec.isHeaderOf, Ini.sameName, Spec.SameName]
    by_cases h : n.map BoolTime.tolower = sec.map BoolTime.tolower
    · simp [h]
    · simp only [h, beq_iff_eq, if_false, decide_false, Bool.not_false, if_true]
      exact findSection_eq sec ls
  | .bracket :: ls => findSection_eq sec ls
  | .other :: ls => findSection_eq sec ls
  | .entry _ _ :: ls => findSection_eq sec ls

/-- The entries up to the end of the section. -/
def bodyEntries (ls : Ini.IniFile) : List (Bytes × Bytes) :=
  (ls.takeWhile fun l => !Spec.endsSection l).filterMap Spec.iniEntry

theorem nthKey_eq : ∀ (ls : Ini.IniFile) (n : Nat), Ini.nthKey n ls = ((bodyEntries ls)[n]?).map (·.1)
  | [], n => by simp [Ini.nthKey, bodyEntries]
  | .section _ :: _, n => by simp [Ini.nthKey, bodyEntries, Spec.endsSection]
  | .bracket :: _, n => by simp [Ini.nthKey, bodyEntries, Spec.endsSection]
  | .other :: ls, n => by
    simp only [Ini.nthKey, nthKey_eq ls n]
    rfl
  | .entry k v :: ls, 0 => by simp [Ini.nthKey, bodyEntries, Spec.endsSection, Spec.iniEntry]
  | .entry k v :: ls, n + 1 => by
    simp only [Ini.nthKey, nthKey_eq ls n]
    simp [bodyEntries, Spec.endsSection, Spec.iniEntry]

theorem firstValue_eq (key : Bytes) : ∀ ls : Ini.IniFile, Ini.firstValue key ls = Spec.iniValue key (bodyEntries ls)
  | [] => rfl
  | .section _ :: _ => rfl
  | .bracket :: _ => rfl
  | .other :: ls => by
    simp only [Ini.firstValue, firstValue_eq key ls]
    rfl
  | .entry k v :: ls => by
    simp only [Ini.firstValue, firstValue_eq key ls]
    simp only [bodyEntries, Spec.iniValue, Spec.endsSection, Spec.iniEntry, List.takeWhile_cons, Bool.not_false, if_true,
      List.filterMap_cons, List.find?_cons, Ini.sameName, Spec.SameName]
    by_cases h : k.map BoolTime.tolower = key.map BoolTime.tolower <;> simp [h]

theorem getkey_eq (file : Ini.IniFile) (sec : Bytes) (idx size : Nat) :
    Ini.getkey file sec idx size = ((((Spec.iniEntries sec file)[idx]?).map (·.1)).getD []).take (size - 1) := by
  unfold Ini.getkey Spec.iniEntries
  rw [findSection_eq]
  cases file.dropWhile fun l => !Spec.isHeaderOf sec l with
  | nil => simp
  | cons _ r =>
    simp only [Option.bind_some, nthKey_eq, List.drop_succ_cons, List.drop_zero]
    rfl

theorem gets_eq (file : Ini.IniFile) (sec key dflt : Bytes) (size : Nat) :
    Ini.gets file sec key dflt size = ((Spec.iniValue key (Spec.iniEntries sec file)).getD dflt).take (size - 1) := by
  unfold Ini.gets Spec.iniEntries
  rw [findSection_eq]
  cases file.dropWhile fun l => !Spec.isHeaderOf sec l with
  | nil => simp [Spec.iniValue]
  | cons _ r =>
    simp only [Option.bind_some, firstValue_eq, List.drop_succ_cons, List.drop_zero]
    rfl

/-- The text `ini_gets` gives the list loader for a key. -/
def listText (file : Ini.IniFile) (sec key : Bytes) : Bytes := Ini.gets file sec key [] iniBuffer

theorem picked_eq (file : Ini.IniFile) (sec key : Bytes) : ∀ (fuel idx : Nat),
    (Spec.iniEntries sec file).length ≤ idx + fuel →
    picked file sec key (fuel + 1) idx =
      ((((Spec.iniEntries sec file).drop idx).takeWhile fun e => decide (e.1.take 2047 ≠ [])).filter fun e =>
        decide (e.1.take 2047 = key ∧ listText file sec key ≠ [])).map fun _ => listText file sec key
  | fuel, idx, h => by
    cases he : (Spec.iniEntries sec file)[idx]? with
    | none =>
      have : (Spec.iniEntries sec file).length ≤ idx := List.getElem?_eq_none_iff.1 he
      simp [picked, getkey_eq, he, List.drop_eq_nil_of_le this]
    | some e =>
      obtain ⟨hlt, hge⟩ := List.getElem?_eq_some_iff.1 he
      have hd : (Spec.iniEntries sec file).drop idx = e :: (Spec.iniEntries sec file).drop (idx + 1) := by
        rw [List.drop_eq_getElem_cons hlt, hge]
      cases fuel with
      | zero => omega
      | succ fuel =>
        rw [picked]
        simp only [getkey_eq, he, Option.map_some, Option.getD_some]
        rw [hd, List.takeWhile_cons]
        have hm : maxValue - 1 = 2047 := rfl
        rw [hm]
        by_cases hn : e.1.take 2047 = []
        · simp [hn]
        · rw [if_neg hn, picked_eq file sec key fuel (idx + 1) (by omega)]
          simp only [hn, ne_eq, not_false_eq_true, decide_true, if_true, List.filter_cons]
          by_cases hk : e.1.take 2047 = key
          · rw [hk]
            by_cases hv : listText file sec key = []
            · simp [hv, show Ini.gets file sec key [] iniBuffer = [] from hv]
            · simp only [listText] at hv
              simp [hv, listText]
          · simp [hk]

theorem entries_length (sec : Bytes) (file : Ini.IniFile) : (Spec.iniEntries sec file).length ≤ file.length := by
  unfold Spec.iniEntries
  refine Nat.le_trans (List.length_filterMap_le _ _) ?_
  refine Nat.le_trans (List.takeWhile_prefix _).length_le ?_
  rw [List.length_drop]
  have := (List.dropWhile_suffix (l := file) fun l => !Spec.isHeaderOf sec l).length_le
  omega

theorem pickedAll_eq (file : Ini.IniFile) (sec key : Bytes) :
    pickedAll file sec key =
      (((Spec.iniEntries sec file).takeWhile fun e => decide (e.1.take 2047 ≠ [])).filter fun e =>
        decide (e.1.take 2047 = key ∧ listText file sec key ≠ [])).map fun _ => listText file sec key := by
  unfold pickedAll
  rw [picked_eq file sec key _ 0 (by have := entries_length sec file; omega), List.drop_zero]

theorem takeWhile_of_all {α : Type} {p : α → Bool} : ∀ {l : List α}, (∀ x ∈ l, p x = true) → l.takeWhile p = l
  | [], _ => rfl
  | x :: l, h => by rw [List.takeWhile_cons, h x (by simp), if_pos rfl, takeWhile_of_all fun y hy => h y (by simp [hy])]

/-! ## C44 -/

/-- A list element that holds a C string. -/
def textElement (v : Bytes) : List Bytes × Nat × Int := ([v ++ [0]], v.length + 1, 0)

/-- **C44** (full statement) With enough memory, the loaded list holds all values of the key, in the
order of the file. -/
def C44_statement : Prop :=
  ∀ (m : Mem) (file : Ini.IniFile) (sec key : Bytes), Wf m →
    ∃ m' l, loadValueList (fun _ => true) file sec key m = .ok (m', some l, true) ∧
      contents m' l = .ok ((Spec.iniValues key (Spec.iniEntries sec file)).map textElement)

/-- **C44, what the loader does**: the list holds, for every entry with exactly this name before the
first entry without a name, a copy of the value of the *first* entry with this name (compared without
regard to case and cut to 511 bytes), provided that value is not empty. -/
theorem C44_exact (m : Mem) (file : Ini.IniFile) (sec key : Bytes) (hw : Wf m) :
    ∃ m' l, loadValueList (fun _ => true) file sec key m = .ok (m', some l, true) ∧
      (let es := Spec.iniEntries sec file
       let v := ((Spec.iniValue key es).getD []).take 511
       contents m' l = .ok ((((es.takeWhile fun e => decide (e.1.take 2047 ≠ [])).filter fun e =>
         decide (e.1.take 2047 = key ∧ v ≠ [])).map fun _ => v).map textElement)) := by
  obtain ⟨m', p, ok, e, hok, -, hall, -⟩ := loadValueList_own (al := fun _ => true) (file := file) (sec := sec) (key := key)
    hw (.inr (.inr fun _ => .inr rfl))
  have := hall fun _ => rfl
  subst this
  obtain ⟨l, ys, rfl, ho, hys⟩ := hok rfl
  refine ⟨m', l, e, ?_⟩
  dsimp only
  rw [contents_rep (ho.holds .list _ rfl)]
  have h1 : (ys.map fun x => (x.own.map (·.2), x.length, x.flags)) = ys.map itemView := rfl
  rw [h1, hys, pickedAll_eq]
  simp only [listText, gets_eq]
  rfl

/-- A file with one key twice. -/
def twoStores : Ini.IniFile :=
  [.section (str "masa"), .entry (str "cmsVerifyStorePath") (str "a"), .other,
   .entry (str "cmsVerifyStorePath") (str "b")]

theorem wf_mem0 : Wf mem0 := fun _ _ => ⟨rfl, rfl⟩

/-- **C44 is violated**: of two values only the first is loaded, twice. -/
theorem C44_violated : ¬ C44_statement := by
  intro h
  obtain ⟨m1, l1, e1, h1⟩ := h mem0 twoStores (str "masa") (str "cmsVerifyStorePath") wf_mem0
  obtain ⟨m2, l2, e2, h2⟩ := C44_exact mem0 twoStores (str "masa") (str "cmsVerifyStorePath") wf_mem0
  rw [e1] at e2
  cases e2
  dsimp only at h2
  rw [h1] at h2
  revert h2
  decide

/-- The model run on this file. -/
example : (loadValueList (fun _ => true) twoStores (str "masa") (str "cmsVerifyStorePath") mem0).bind (fun r =>
    match r.2.1 with
    | some l => contents r.1 l
    | none => .ub) = .ok [textElement (str "a"), textElement (str "a")] := by decide +kernel

/-- **C44, proved part**: the list is right when every entry has a name, names and values fit into the
buffers and the entries with this name (whatever the case) carry the same value; in particular
when the key occurs once or not at all. -/
theorem C44_partial (m : Mem) (file : Ini.IniFile) (sec key : Bytes) (hw : Wf m)
    (hn : ∀ e ∈ Spec.iniEntries sec file, e.1 ≠ [] ∧ e.1.length ≤ 2047 ∧ e.2.length ≤ 511)
    (hsame : ∀ e ∈ Spec.iniEntries sec file, ∀ e' ∈ Spec.iniEntries sec file,
      Spec.SameName e.1 key → Spec.SameName e'.1 key → e.2 = e'.2) :
    ∃ m' l, loadValueList (fun _ => true) file sec key m = .ok (m', some l, true) ∧
      contents m' l = .ok ((Spec.iniValues key (Spec.iniEntries sec file)).map textElement) := by
  obtain ⟨m', l, e, h⟩ := C44_exact m file sec key hw
  refine ⟨m', l, e, ?_⟩
  dsimp only at h
  rw [h]
  congr 2
  generalize Spec.iniEntries sec file = es at hn hsame ⊢
  have htw : es.takeWhile (fun e => decide (e.1.take 2047 ≠ [])) = es := by
    have : ∀ e ∈ es, decide (e.1.take 2047 ≠ []) = true := by
      intro e he
      have := hn e he
      rw [List.take_of_length_le this.2.1]
      simp [this.1]
    exact takeWhile_of_all this
  rw [htw, Spec.iniValues]
  have hval : ∀ e ∈ es, e.1 = key → ((Spec.iniValue key es).getD []).take 511 = e.2 := by
    intro e he hk
    have hs : (es.find? fun e => decide (Spec.SameName e.1 key)).isSome := by
      rw [List.find?_isSome]
      exact ⟨e, he, by simp [hk, Spec.SameName]⟩
    obtain ⟨e', he'⟩ := Option.isSome_iff_exists.1 hs
    have hm' := List.mem_of_find?_eq_some he'
    have hp' := List.find?_some he'
    simp only [Spec.iniValue, he', Option.map_some, Option.getD_some]
    rw [List.take_of_length_le (hn e' hm').2.2]
    exact hsame e' hm' e he (by simpa using hp') (by simp [hk, Spec.SameName])
  have hf : es.filter (fun e => decide (e.1.take 2047 = key ∧ ((Spec.iniValue key es).getD []).take 511 ≠ [])) =
      es.filter fun e => decide (e.1 = key ∧ e.2 ≠ []) := by
    apply List.filter_congr
    intro e he
    rw [List.take_of_length_le (hn e he).2.1]
    by_cases hk : e.1 = key
    · rw [hval e he hk]
    · simp [hk]
  rw [hf]
  apply List.map_congr_left
  intro e he
  simp only [List.mem_filter, decide_eq_true_eq] at he
  exact hval e he.1 he.2.1

/-- A file as in the project, for non-vacuity of `C44_partial`. -/
def oneStore : Ini.IniFile :=
  [.section (str "pledge"), .entry (str "cmsVerifyStorePath") (str "x"), .section (str "MASA"),
   .entry (str "port") (str "12345"), .entry (str "cmsVerifyStorePath") (str "ca.crt")]

example : (∀ e ∈ Spec.iniEntries (str "masa") oneStore, e.1 ≠ [] ∧ e.1.length ≤ 2047 ∧ e.2.length ≤ 511) ∧
    (∀ e ∈ Spec.iniEntries (str "masa") oneStore, ∀ e' ∈ Spec.iniEntries (str "masa") oneStore,
      Spec.SameName e.1 (str "cmsVerifyStorePath") → Spec.SameName e'.1 (str "cmsVerifyStorePath") → e.2 = e'.2) ∧
    Spec.iniValues (str "cmsVerifyStorePath") (Spec.iniEntries (str "masa") oneStore) = [str "ca.crt"] := by
  decide +kernel

/-! ## C45 -/

/-- Any number of releases one after the other. -/
def release : Nat → Mem → Conf → Outcome (Mem × Conf)
  | 0, m, c => .ok (m, c)
  | n + 1, m, c => (freeConfig m c).bind fun r => release n r.1 r.2

/-- The pointers of a zeroed `struct brski_config`. -/
def emptyConf : Conf := fun _ => none

/-- **C45** (full statement) Whatever is in the file and whichever allocations fail, loading into a zeroed
configuration is defined, and so is releasing it any number of times afterwards; after a failed load
and after the first release the memory is what it was before loading. -/
def C45_statement : Prop :=
  ∀ (m : Mem) (file : Option Ini.IniFile) (al : Sec → Alloc), Wf m →
    ∃ m1 c1 ok, loadConfig al file m emptyConf = .ok (m1, c1, ok) ∧
      (ok = false → m1.node = m.node ∧ m1.dat = m.dat) ∧
      ∀ n, ∃ m2 c2, release n m1 c1 = .ok (m2, c2) ∧ (n ≠ 0 → m2.node = m.node ∧ m2.dat = m.dat)

/-- The list element of the pledge's first list cannot be allocated. -/
def listFails : Sec → Alloc := fun _ => ⟨fun _ => true, fun _ k => k != 3⟩

/-- A file with one certificate path. -/
def onePath : Ini.IniFile := [.section (str "pledge"), .entry (str "cmsAdditionalCertPath") (str "a")]

/-- **C45 is violated**: when the memory for a list element runs out, the list is released inside
`load_config_value_list` and again by the section's release. -/
theorem C45_violated : ¬ C45_statement := by
  intro h
  obtain ⟨m1, c1, ok, e, -⟩ := h mem0 (some onePath) listFails wf_mem0
  have : ((loadConfig listFails (some onePath) mem0 emptyConf).bind fun r => .ok r.2.2) = .ub := by decide +kernel
  rw [e] at this
  cases this

theorem release_own {m0 : Mem} (hw : Wf m0) : ∀ (n : Nat) {m : Mem} {c : Conf} {g : Slot → Option Obj},
    Own m0 m g → Match c g → (∀ t, (∀ s, t ∉ sectionSlots s) → g t = none) →
    ∃ m2 c2, release n m c = .ok (m2, c2) ∧ (n ≠ 0 → m2.node = m0.node ∧ m2.dat = m0.dat)
  | 0, m, c, g, h, hm, hg => ⟨m, c, rfl, fun h => absurd rfl h⟩
  | n + 1, m, c, g, h, hm, hg => by
    obtain ⟨m1, c1, e1, h1, hm1⟩ := freeConfig_own hw h hm hg
    obtain ⟨m2, c2, e2, h2⟩ := release_own hw n h1 hm1 fun _ _ => rfl
    refine ⟨m2, c2, by simp only [release, e1, bind'_ok, e2], fun _ => ?_⟩
    cases n with
    | zero =>
      simp only [release, Outcome.ok.injEq, Prod.mk.injEq] at e2
      rw [← e2.1]
      exact h1.back fun _ => rfl
    | succ n => exact h2 (by simp)

/-- **C45, proved part**: the statement holds whenever no list load fails after its list was created
(strings, work buffers and the lists themselves may fail at any point). -/
theorem C45_partial (m : Mem) (file : Option Ini.IniFile) (al : Sec → Alloc) (hw : Wf m)
    (hal : ∀ s l, (al s).list l 0 = false ∨ (al s).list l 1 = false ∨ ∀ k, (al s).list l k = true) :
    ∃ m1 c1 ok, loadConfig al file m emptyConf = .ok (m1, c1, ok) ∧
      (ok = false → m1.node = m.node ∧ m1.dat = m.dat) ∧
      ∀ n, ∃ m2 c2, release n m1 c1 = .ok (m2, c2) ∧ (n ≠ 0 → m2.node = m.node ∧ m2.dat = m.dat) := by
  obtain ⟨m1, c1, ok, g, e, h, hm, hout, -, hno, -⟩ := loadConfig_own (file := file) hw hal
  refine ⟨m1, c1, ok, e, fun hk => ?_, fun n => release_own hw n h hm hout⟩
  have := hno hk
  subst this
  exact h.back fun _ => rfl

/-- A load that fails in the MASA section after the pledge and the registrar were loaded; an input of
`C45_partial` with a non-trivial failure. -/
def masaFails : Sec → Alloc
  | .masa => ⟨fun _ => true, fun l k => decide (l ≠ .verifyStore ∨ k ≠ 1)⟩
  | _ => ⟨fun _ => true, fun _ _ => true⟩

example : (∀ s l, (masaFails s).list l 0 = false ∨ (masaFails s).list l 1 = false ∨ ∀ k, (masaFails s).list l k = true) ∧
    ((loadConfig masaFails (some onePath) mem0 emptyConf).bind fun r =>
      (release 3 r.1 r.2.1).bind fun _ => .ok r.2.2) = .ok false := by
  refine ⟨?_, by decide +kernel⟩
  intro s l
  cases s
  · exact .inr (.inr fun _ => rfl)
  · exact .inr (.inr fun _ => rfl)
  · cases l
    · exact .inr (.inr fun _ => by simp [masaFails])
    · exact .inr (.inr fun _ => by simp [masaFails])
    · exact .inr (.inl (by decide))

/-! ## C58 -/

/-- The text a string member must get: the first value of its key, or the default, as far as it fits. -/
def memberText (file : Ini.IniFile) (s : Sec) (d : StrSpec) : Bytes :=
  ((Spec.iniValue d.key (Spec.iniEntries (secName s) file)).getD d.dflt).take (d.size - 1)

/-- **C58** With enough memory a readable file is loaded; every string member is NULL when its text is
empty and otherwise a block of the member's size holding the text followed by zeros; every list member
is a list. -/
theorem C58_members (m : Mem) (file : Ini.IniFile) (hw : Wf m) (al : Sec → Alloc)
    (hal : ∀ s, (∀ k, (al s).str k = true) ∧ ∀ l k, (al s).list l k = true) :
    ∃ m' c, loadConfig al (some file) m emptyConf = .ok (m', c, true) ∧
      (∀ s, ∀ d ∈ loadStrs s,
        (memberText file s d = [] → c (.str s d.field) = none) ∧
        (memberText file s d ≠ [] → ∃ p, c (.str s d.field) = some p ∧
          m'.dat p = some (memberText file s d ++ List.replicate (d.size - (memberText file s d).length) 0))) ∧
      (∀ s l, ∃ p, c (.list s l) = some p ∧ ∃ vs : List Bytes, contents m' p = .ok (vs.map textElement) ∧
        ∀ v ∈ vs, ∃ w, Spec.iniValue (listKey l) (Spec.iniEntries (secName s) file) = some w ∧ v = w.take 511) := by
  obtain ⟨m1, c1, ok, g, e, h, hm, hout, hok, -, hall⟩ := loadConfig_own (al := al) (file := some file) hw
    (fun s l => .inr (.inr ((hal s).2 l)))
  have := hall (fun s => (hal s).1) (fun s => (hal s).2) (by simp)
  subst this
  obtain ⟨f, hf, hl⟩ := hok rfl
  cases hf
  refine ⟨m1, c1, e, fun s d hd => ?_, fun s l => ?_⟩
  · have hr := (hl s).1 d hd
    rw [gets_eq] at hr
    have hc := hm.ptr (.str s d.field)
    refine ⟨fun ht => ?_, fun ht => ?_⟩
    · rcases hr with ⟨-, hr⟩ | ⟨hr, -⟩
      · rw [hr] at hc; exact hc
      · exact absurd ht hr
    · rcases hr with ⟨hr, -⟩ | ⟨-, p, hr⟩
      · exact absurd hr ht
      · refine ⟨p, by rw [hr] at hc; exact hc, ?_⟩
        exact h.holds _ _ hr
  · obtain ⟨p, ys, hg, hys⟩ := (hl s).2 l
    refine ⟨p, by rw [hm.ptr, hg]; rfl, pickedAll file (secName s) (listKey l), ?_, ?_⟩
    · rw [contents_rep (h.holds _ _ hg)]
      have h1 : (ys.map fun x => (x.own.map (·.2), x.length, x.flags)) = ys.map itemView := rfl
      rw [h1, hys]
      rfl
    · intro v hv
      rw [pickedAll_eq] at hv
      obtain ⟨e, he, rfl⟩ := List.mem_map.1 hv
      simp only [List.mem_filter, decide_eq_true_eq] at he
      have h2 := he.2.2
      simp only [listText, gets_eq] at h2 ⊢
      cases hw : Spec.iniValue (listKey l) (Spec.iniEntries (secName s) file) with
      | none => rw [hw] at h2; simp at h2
      | some w => exact ⟨w, rfl, rfl⟩

/-- Non-vacuity of `C58_members`: a cut date, a default and an absent member. -/
example :
    let f : Ini.IniFile := [.section (str "Masa"), .entry (str "EXPIRESON") (str "2023-11-16T05:00:00.123Z")]
    memberText f .masa ⟨.expiresOn, str "expiresOn", [], timeSize⟩ = str "2023-11-16T05:00:00.1" ∧
    memberText f .masa ⟨.bindAddress, str "bindAddress", str "0.0.0.0", maxValue⟩ = str "0.0.0.0" ∧
    memberText f .masa ⟨.tlsKey, str "tlsKeyPath", [], maxValue⟩ = [] := by decide +kernel

/-- The sections of a configuration file (specification: sections and keys as documented in
/repo/src/brski/config.ini.in). -/
def sectionTable : List (Sec × Bytes) :=
  [(.pledge, str "pledge"), (.registrar, str "registrar"), (.masa, str "masa")]

/-- What every string member means: section, its name, member, key, default, longest text (specification; the
defaults and capacities are documented nowhere and are those of /repo/src/brski/config.c:31-32,146,330). -/
def memberTable : List (Sec × Bytes × Field × Bytes × Bytes × Nat) :=
  [(.pledge, str "pledge", .createdOn, str "createdOn", [], 21),
    (.pledge, str "pledge", .serialNumber, str "serialNumber", [], 2047),
    (.pledge, str "pledge", .nonce, str "nonce", [], 2047),
    (.pledge, str "pledge", .idevidKey, str "idevidKeyPath", [], 2047),
    (.pledge, str "pledge", .idevidCert, str "idevidCertPath", [], 2047),
    (.pledge, str "pledge", .idevidCaCert, str "idevidCACertPath", [], 2047),
    (.pledge, str "pledge", .cmsSignCert, str "cmsSignCertPath", [], 2047),
    (.pledge, str "pledge", .cmsSignKey, str "cmsSignKeyPath", [], 2047),
    (.registrar, str "registrar", .bindAddress, str "bindAddress", str "0.0.0.0", 2047),
    (.registrar, str "registrar", .tlsCert, str "tlsCertPath", [], 2047),
    (.registrar, str "registrar", .tlsKey, str "tlsKeyPath", [], 2047),
    (.registrar, str "registrar", .tlsCaKey, str "tlsCAKeyPath", [], 2047),
    (.registrar, str "registrar", .tlsCaCert, str "tlsCACertPath", [], 2047),
    (.registrar, str "registrar", .cmsSignCert, str "cmsSignCertPath", [], 2047),
    (.registrar, str "registrar", .cmsSignKey, str "cmsSignKeyPath", [], 2047),
    (.masa, str "masa", .bindAddress, str "bindAddress", str "0.0.0.0", 2047),
    (.masa, str "masa", .expiresOn, str "expiresOn", [], 21),
    (.masa, str "masa", .ldevidCaCert, str "ldevidCACertPath", [], 2047),
    (.masa, str "masa", .tlsCert, str "tlsCertPath", [], 2047),
    (.masa, str "masa", .tlsKey, str "tlsKeyPath", [], 2047),
    (.masa, str "masa", .tlsCaCert, str "tlsCACertPath", [], 2047),
    (.masa, str "masa", .cmsSignCert, str "cmsSignCertPath", [], 2047),
    (.masa, str "masa", .cmsSignKey, str "cmsSignKeyPath", [], 2047)]

/-- The list members and their keys (specification). -/
def listTable : List (LField × Bytes) :=
  [(.add, str "cmsAdditionalCertPath"), (.verifyCerts, str "cmsVerifyCertPath"), (.verifyStore, str "cmsVerifyStorePath")]

theorem memberTable_spec : ∀ row ∈ memberTable, secName row.1 = row.2.1 ∧
    ∃ d ∈ loadStrs row.1, d.field = row.2.2.1 ∧ d.key = row.2.2.2.1 ∧ d.dflt = row.2.2.2.2.1 ∧ d.size = row.2.2.2.2.2 + 1 := by
  decide +kernel

/-- **C58** with every section, key, default and capacity spelled out: with enough memory a readable file is loaded; a string
member is NULL when its text is empty, otherwise a block with the text followed by at least one zero; a list member is
a list whose texts are values of its key. -/
theorem C58_table (m : Mem) (file : Ini.IniFile) (hw : Wf m) (al : Sec → Alloc)
    (hal : ∀ s, (∀ k, (al s).str k = true) ∧ ∀ l k, (al s).list l k = true) :
    ∃ m' c, loadConfig al (some file) m emptyConf = .ok (m', c, true) ∧
      (∀ s name fld key dflt cap, (s, name, fld, key, dflt, cap) ∈ memberTable →
        ∀ text, text = ((Spec.iniValue key (Spec.iniEntries name file)).getD dflt).take cap →
          (text = [] → c (.str s fld) = none) ∧
          (text ≠ [] → ∃ p n, c (.str s fld) = some p ∧ m'.dat p = some (text ++ List.replicate (n + 1) 0))) ∧
      (∀ s name, (s, name) ∈ sectionTable → ∀ l key, (l, key) ∈ listTable →
        ∃ p, c (.list s l) = some p ∧ ∃ vs : List Bytes, contents m' p = .ok (vs.map textElement) ∧
          ∀ v ∈ vs, ∃ w, Spec.iniValue key (Spec.iniEntries name file) = some w ∧ v = w.take 511) := by
  obtain ⟨m1, c, e, h1, h2⟩ := C58_members m file hw al hal
  refine ⟨m1, c, e, ?_, ?_⟩
  · intro s name fld key dflt cap hr text ht
    obtain ⟨hn, d, hd, rfl, rfl, rfl, hs⟩ := memberTable_spec _ hr
    simp only at hn hd hs
    have hm : memberText file s d = text := by
      unfold memberText
      rw [hn, hs, ht]
      rfl
    have := h1 s d hd
    rw [hm] at this
    refine ⟨this.1, fun hne => ?_⟩
    obtain ⟨p, hp, hdat⟩ := this.2 hne
    have hle : text.length ≤ cap := by rw [ht]; exact List.length_take_le ..
    refine ⟨p, cap - text.length, hp, ?_⟩
    rw [hdat, hs, show cap + 1 - text.length = cap - text.length + 1 by omega]
  · intro s name hs l key hl
    have hn : ∀ q ∈ sectionTable, secName q.1 = q.2 := by decide +kernel
    have hk : ∀ q ∈ listTable, listKey q.1 = q.2 := by decide +kernel
    obtain ⟨p, hp, vs, hv, hw⟩ := h2 s l
    refine ⟨p, hp, vs, hv, ?_⟩
    have a := hn _ hs
    have b := hk _ hl
    simp only at a b
    rw [← a, ← b]
    exact hw

/-- Non-vacuity of `C58_table`: the row of the CA key, and that its key is the one looked up. -/
example : (Sec.registrar, str "registrar", Field.tlsCaKey, str "tlsCAKeyPath", [], 2047) ∈ memberTable ∧
    Spec.iniValue (str "tlsCAKeyPath") (Spec.iniEntries (str "registrar")
      [.section (str "registrar"), .entry (str "tlsKeyPath") (str "a"), .entry (str "tlsCAKeyPath") (str "b")]) =
      some (str "b") := by decide +kernel

/-! ## C43 -/

/-- A path as it is stored in a list of paths: a C string at the start of the element's block. -/
def IsPath (x : Item) (path : Bytes) : Prop :=
  (0 : UInt8) ∉ path ∧ ∃ p rest more, x.own = (p, path ++ 0 :: rest) :: more

/-- The caller's list of paths. -/
def HoldsPaths (m : Mem) (l : Nat) (paths : List Bytes) : Prop :=
  ∃ xs, Rep m l xs ∧ xs.length < 2 ^ 31 ∧ xs.length = paths.length ∧
    ∀ (i : Nat) (x : Item) (path : Bytes), xs[i]? = some x → paths[i]? = some path → IsPath x path

/-- A list element that holds a certificate. -/
def certElement (der : Bytes) : List Bytes × Nat × Int := ([der], der.length, 0)

/-- **C43** (full statement) Whatever the files contain and whichever allocations fail, the call is
defined.  On success the list holds the certificates of all files, in order (NULL when there are no
paths), and the rest of the memory is unchanged; on failure the caller can release what was handed
out, and the memory is then unchanged. -/
def C43_statement : Prop :=
  ∀ (m : Mem) (l : Nat) (paths : List Bytes) (files : Nat → Bytes → Option Bytes) (al0 : Bool) (al : Nat → Oracle),
    Wf m → HoldsPaths m l paths →
    ∃ m' out ok, loadCertFiles al0 al files m (some l) = .ok (m', out, ok) ∧
      (ok = true → paths ≠ [] → ∃ (o : Nat) (ders : List Bytes), out = some o ∧ paths.mapIdx files = ders.map some ∧
        contents m' o = .ok (ders.map certElement)) ∧
      ∃ m2, freeList m' out = .ok m2 ∧ m2.node = m.node ∧ m2.dat = m.dat

theorem readEl_rep {m : Mem} {l : Nat} {xs : List Item} (h : Rep m l xs) {x : Item} (hx : x ∈ xs) :
    readEl m x.addr = .ok (itemView x) := by
  obtain ⟨n, h1, h2, h3, h4, h5⟩ := h.items x hx
  simp only [readEl, get_of h1, bind'_ok, h3]
  rw [readBlocks_eq (h.data x hx), bind'_ok, h4, h5]
  rfl

theorem takeWhile_path {path rest : Bytes} (h : (0 : UInt8) ∉ path) :
    (path ++ 0 :: rest).takeWhile (fun c => decide (c ≠ 0)) = path := by
  induction path with
  | nil => simp
  | cons c p ih =>
    simp only [List.mem_cons, not_or] at h
    rw [List.cons_append, List.takeWhile_cons]
    have : c ≠ 0 := fun e => h.1 e.symm
    rw [if_pos (by simp [this]), ih h.2]

theorem pathOf_eq {x : Item} {path : Bytes} (h : IsPath x path) : pathOf (itemView x).1 = .ok path := by
  obtain ⟨h0, p, rest, more, e⟩ := h
  simp only [itemView, e, List.map_cons, pathOf]
  rw [if_pos (by simp)]
  exact congrArg Outcome.ok (takeWhile_path h0)

/-- Blocks in use while certificates are loaded. -/
def certObj (o : Nat) (ys : List Item) : Bool → Option Obj
  | true => some (.list o ys)
  | false => none

theorem certLoop_own {m0 : Mem} {l : Nat} {xs0 : List Item} (hw : Wf m0) (hr : Rep m0 l xs0)
    {files : Nat → Bytes → Option Bytes} {al : Nat → Oracle} (hal : ∀ k, CopyWorks (al k)) {o : Nat} :
    ∀ (xs : List Item) (paths : List Bytes) (k : Nat) (m : Mem) (ys : List Item),
      (∀ x ∈ xs, x ∈ xs0) → xs.length = paths.length →
      (∀ (i : Nat) (x : Item) (path : Bytes), xs[i]? = some x → paths[i]? = some path → IsPath x path) →
      Own m0 m (certObj o ys) →
      ∃ m' ok, certLoop al files o k (xs.map (·.addr)) m = .ok (m', ok) ∧
        (ok = true → ∃ (zs : List Item) (ders : List Bytes), Own m0 m' (certObj o (ys ++ zs)) ∧
          paths.mapIdx (fun i => files (k + i)) = ders.map some ∧ zs.map itemView = ders.map certElement) ∧
        (ok = false → Own m0 m' (fun _ : Bool => none)) ∧
        ((∀ k i, al k i = true) → (∀ (i : Nat) (p : Bytes), paths[i]? = some p → files (k + i) p ≠ none) → ok = true)
  | [], paths, k, m, ys, _, hlen, _, h => by
    have : paths = [] := by
      cases paths with
      | nil => rfl
      | cons => simp at hlen
    subst this
    exact ⟨m, true, rfl, fun _ => ⟨[], [], by simpa using h, rfl, rfl⟩, nofun, fun _ _ => rfl⟩
  | x :: xs, [], k, m, ys, _, hlen, _, h => by simp at hlen
  | x :: xs, path :: paths, k, m, ys, hsub, hlen, hp, h => by
    have hrm : Rep m l xs0 := by
      refine Rep.frame hr h.mono (fun p hp => h.node p fun i o e hpo => ?_) (fun p hp => h.dat p fun i o e hpo => ?_)
      · have := ((h.young i o e).1 p hpo).1
        have := hr.bound p hp
        omega
      · have := ((h.young i o e).2 p hpo).1
        obtain ⟨y, hy, hq0⟩ := List.mem_flatMap.1 hp
        obtain ⟨q, hq, rfl⟩ := List.mem_map.1 hq0
        have := hr.dbound y hy q hq
        omega
    have leave : ∀ {m : Mem} {ys : List Item}, Own m0 m (certObj o ys) →
        ∃ m', ((freeList m (some o)).bind fun m => .ok (m, false)) = .ok (m', false) ∧ Own m0 m' (fun _ : Bool => none) := by
      intro m ys h
      obtain ⟨m1, e1, -, h1⟩ := h.freeLst hw true (l := o) (xs := ys) rfl
      refine ⟨m1, by rw [e1, bind'_ok], ?_⟩
      have : setObj (certObj o ys) true none = fun _ : Bool => none := by funext t; cases t <;> rfl
      rwa [this] at h1
    simp only [List.map_cons, certLoop, readEl_rep hrm (hsub x (by simp)), bind'_ok, pathOf_eq (hp 0 x path rfl rfl)]
    cases hf : files k path with
    | none =>
      obtain ⟨m1, e1, h1⟩ := leave h
      refine ⟨m1, false, e1, nofun, fun _ => h1, fun _ hc => ?_⟩
      exact absurd hf (hc 0 path rfl)
    | some der =>
      dsimp only
      have h1 := h.new hw false rfl der
      have back : ∀ {m : Mem} {zs : List Item} {q : Nat}, Own m0 m (setObj (certObj o zs) false (some (.str q der))) →
          ∃ m', m.freeData q = .ok m' ∧ Own m0 m' (certObj o zs) := by
        intro m zs q ho
        obtain ⟨m1, e1, -, h1⟩ := ho.freeStr hw false (p := q) (b := der) rfl
        refine ⟨m1, e1, ?_⟩
        have : setObj (setObj (certObj o zs) false (some (.str q der))) false none = certObj o zs := by
          funext t; cases t <;> rfl
        rwa [this] at h1
      cases h0 : al k 0 with
      | false =>
        have ep : pushArray (al k) (m.newData der).1 (some o) (some der) der.length 0 = .ok ((m.newData der).1, false) := by
          simp only [pushArray, h0]
          rw [if_neg (by simp)]
        obtain ⟨m2, e2, h2⟩ := back h1
        obtain ⟨m3, e3, h3⟩ := leave h2
        refine ⟨m3, false, ?_, nofun, fun _ => h3, fun ha _ => ?_⟩
        · have : (m.newData der).2 = m.fresh := rfl
          simp only [ep, bind'_ok, this, e2]
          rw [if_neg (by simp)]
          exact e3
        · rw [ha] at h0; cases h0
      | true =>
        obtain ⟨ha1, -⟩ := (hal k).resolve_left (by simp [h0])
        obtain ⟨m2, e2, hpu⟩ := pushArray_rep (h1.holds true (.list o ys) rfl) (al k) h0 ha1 der der.length 0 (Nat.le_refl _)
        have h2 := h1.push hw true (l := o) (xs := ys) rfl hpu
        rw [List.take_length] at h2
        generalize hy : Item.mk _ _ _ _ = y at h2
        have hyv : itemView y = certElement der := by subst hy; rfl
        have : setObj (setObj (certObj o ys) false (some (.str m.fresh der))) true (some (.list o (ys ++ [y]))) =
            setObj (certObj o (ys ++ [y])) false (some (.str m.fresh der)) := by funext t; cases t <;> rfl
        rw [this] at h2
        obtain ⟨m3, e3, h3⟩ := back h2
        obtain ⟨m4, ok, e4, hok, hno, hall⟩ := certLoop_own hw hr hal xs paths (k + 1) m3 (ys ++ [y])
          (fun z hz => hsub z (by simp [hz])) (by simpa using hlen)
          (fun i z q h1 h2 => hp (i + 1) z q (by simpa using h1) (by simpa using h2)) h3
        have hidx : ∀ i, k + 1 + i = k + (i + 1) := fun i => by omega
        refine ⟨m4, ok, ?_, ?_, hno, fun ha hc => hall ha fun i p hi => by
          rw [hidx]; exact hc (i + 1) p (by simpa using hi)⟩
        · have : (m.newData der).2 = m.fresh := rfl
          simp only [e2, bind'_ok, this, e3, if_true]
          exact e4
        · intro h
          obtain ⟨zs, ders, ho, hm, hz⟩ := hok h
          refine ⟨y :: zs, der :: ders, by simpa using ho, ?_, by rw [List.map_cons, hyv, hz]; rfl⟩
          rw [List.mapIdx_cons, Nat.add_zero, hf, List.map_cons, ← hm]
          simp only [hidx]

/-- **C43, proved part**: unless memory runs out between a list element and its copy, the call is defined;
success gives all certificates in order in a list whose release restores the memory, and the call
succeeds when no file and no allocation fails; failure leaves the memory itself as it was (the handed out
pointer is NULL only when the list could not be created). -/
theorem C43_partial (m : Mem) (l : Nat) (paths : List Bytes) (files : Nat → Bytes → Option Bytes) (al0 : Bool)
    (al : Nat → Oracle) (hw : Wf m) (hp : HoldsPaths m l paths) (hal : ∀ k, CopyWorks (al k)) :
    ∃ m' out ok, loadCertFiles al0 al files m (some l) = .ok (m', out, ok) ∧
      (ok = true → paths ≠ [] → ∃ (o : Nat) (ders : List Bytes), out = some o ∧ paths.mapIdx files = ders.map some ∧
        contents m' o = .ok (ders.map certElement)) ∧
      (paths = [] → ok = true ∧ out = none) ∧
      (ok = true → ∃ m2, freeList m' out = .ok m2 ∧ m2.node = m.node ∧ m2.dat = m.dat) ∧
      (ok = false → m'.node = m.node ∧ m'.dat = m.dat) ∧
      (al0 = true → (∀ k i, al k i = true) → (∀ (i : Nat) (p : Bytes), paths[i]? = some p → files i p ≠ none) → ok = true) := by
  obtain ⟨xs, hr, hlt, hlen, hpath⟩ := hp
  unfold loadCertFiles
  simp only [len_rep hr hlt, bind'_ok]
  by_cases h0 : xs.length = 0
  · have hpn : paths = [] := by
      cases paths with
      | nil => rfl
      | cons => rw [hlen] at h0; simp at h0
    rw [if_pos h0]
    exact ⟨m, none, true, rfl, fun _ h => absurd hpn h, fun _ => ⟨rfl, rfl⟩, fun _ => ⟨m, rfl, rfl, rfl⟩, nofun, fun _ _ _ => rfl⟩
  · rw [if_neg h0]
    have hpn : paths ≠ [] := by
      intro e
      rw [hlen, e] at h0
      exact h0 rfl
    cases al0 with
    | false =>
      exact ⟨m, none, false, rfl, nofun, fun h => absurd h hpn, nofun, fun _ => ⟨rfl, rfl⟩, nofun⟩
    | true =>
      obtain ⟨m1, e1, h1⟩ := (own_nil (ι := Bool) m).newList hw true rfl
      have : setObj (fun _ : Bool => none) true (some (.list m.fresh [])) = certObj m.fresh [] := by
        funext t; cases t <;> rfl
      rw [this] at h1
      have hr1 : Rep m1 l xs := by
        refine Rep.frame hr h1.mono (fun p hp => h1.node p fun i o e hpo => ?_) (fun p hp => h1.dat p fun i o e hpo => ?_)
        · have := ((h1.young i o e).1 p hpo).1
          have := hr.bound p hp
          omega
        · have := ((h1.young i o e).2 p hpo).1
          obtain ⟨y, hy, hq0⟩ := List.mem_flatMap.1 hp
          obtain ⟨q, hq, rfl⟩ := List.mem_map.1 hq0
          have := hr.dbound y hy q hq
          omega
      obtain ⟨m2, ok, e2, hok, hno, hall⟩ := certLoop_own (files := files) hw hr hal xs paths 0 m1 [] (fun _ h => h) hlen hpath h1
      simp only [Nat.zero_add, List.nil_append] at hok hall
      refine ⟨m2, some m.fresh, ok, ?_, ?_, fun h => absurd h hpn, ?_, fun h => (hno h).back fun _ => rfl, fun _ => hall⟩
      · simp only [e1, bind'_ok, each_rep hr1, e2]
      · intro h _
        obtain ⟨zs, ders, ho, hm, hz⟩ := hok h
        refine ⟨m.fresh, ders, rfl, hm, ?_⟩
        rw [contents_rep (ho.holds true _ rfl)]
        exact congrArg Outcome.ok hz
      · intro h
        obtain ⟨zs, ders, ho, -, -⟩ := hok h
        obtain ⟨m3, e3, -, h3⟩ := ho.freeLst hw true (l := m.fresh) (xs := zs) rfl
        refine ⟨m3, e3, h3.back fun t => ?_⟩
        cases t <;> rfl

/-- Without a list of paths there is nothing to load. -/
theorem C43_no_list (m : Mem) (files : Nat → Bytes → Option Bytes) (al0 : Bool) (al : Nat → Oracle) :
    loadCertFiles al0 al files m none = .ok (m, none, true) := rfl

/-- A memory with a list of the two paths "a" and "b". -/
def twoPaths : Outcome (Mem × List Bool) :=
  (initList (fun _ => true) mem0).bind fun r =>
    runPushes r.1 r.2 [(.array (some [97, 0]) 2 0, fun _ => true), (.array (some [98, 0]) 2 0, fun _ => true)]

/-- Files of which the second is missing. -/
def secondMissing : Nat → Bytes → Option Bytes := fun _ p => if p = str "a" then some [1, 2, 3] else none

theorem twoPaths_holds : ∃ m rs, twoPaths = .ok (m, rs) ∧ Wf m ∧ HoldsPaths m 0 [str "a", str "b"] := by
  obtain ⟨m1, e, hs⟩ := since_init mem0
  obtain ⟨m2, e2, hp2⟩ := pushArray_rep hs.rep (fun _ => true) rfl rfl [97, 0] 2 0 (by decide)
  obtain ⟨m3, e3, hp3⟩ := pushArray_rep hp2.rep (fun _ => true) rfl rfl [98, 0] 2 0 (by decide)
  have hs3 := since_push (since_push hs hp2) hp3
  have e4 : twoPaths = .ok (m3, [true, true]) := by
    simp only [twoPaths, e, bind'_ok, runPushes, Push.call]
    rw [e2]
    simp only [bind'_ok]
    rw [e3]
    rfl
  refine ⟨m3, _, e4, ?_, _, hs3.rep, by simp, by simp, ?_⟩
  · intro p hp
    refine ⟨?_, ?_⟩
    · rw [hs3.node p fun hm => by have := hs3.rep.bound p hm; omega]; rfl
    · rw [hs3.dat p fun hm => ?_]
      · rfl
      · obtain ⟨x, hx, hm⟩ := List.mem_flatMap.1 hm
        obtain ⟨q, hq, rfl⟩ := List.mem_map.1 hm
        have := hs3.rep.dbound x hx q hq
        omega
  · intro i x path hx hpath
    match i with
    | 0 => cases hx; cases hpath; exact ⟨by decide, _, [], [], rfl⟩
    | 1 => cases hx; cases hpath; exact ⟨by decide, _, [], [], rfl⟩
    | _ + 2 => cases hx

/-- **C43 is violated**: after the second file failed, the caller holds a pointer to the released list. -/
theorem C43_violated : ¬ C43_statement := by
  intro h
  obtain ⟨m, rs, e, hw, hp⟩ := twoPaths_holds
  obtain ⟨m', out, ok, e1, -, m2, e2, -⟩ := h m 0 _ secondMissing true (fun _ _ => true) hw hp
  have : (twoPaths.bind fun r => (loadCertFiles true (fun _ _ => true) secondMissing r.1 (some 0)).bind fun q =>
      (freeList q.1 q.2.1).bind fun _ => .ok q.2.2) = .ub := by decide +kernel
  rw [e, bind'_ok] at this
  simp only [e1, bind'_ok, e2] at this
  cases this

/-- Non-vacuity of `C43_partial`: both files there, and the second missing. -/
example :
    ((twoPaths.bind fun r => (loadCertFiles true (fun _ _ => true) (fun _ p => some (p ++ p)) r.1 (some 0)).bind fun q =>
      match q.2.1 with
      | some o => (contents q.1 o).bind fun c => .ok (q.2.2, c)
      | none => .ub) = .ok (true, [certElement [97, 97], certElement [98, 98]])) ∧
    ((twoPaths.bind fun r => (loadCertFiles true (fun _ _ => true) secondMissing r.1 (some 0)).bind fun q =>
      .ok q.2.2) = .ok false) := by decide +kernel

end Brski.Props
