import Verif.Names
import Verif.ConfigLemmas

/-!
# C51: names and serial numbers of certificates
-/

namespace Brski.Props

open Names DlList Config Outcome

/-! ## Specification -/

/-- The known kinds of name parts, in the order of the list. -/
def knownNames : List (Nat × String) :=
  [(14, "C"), (16, "ST"), (15, "L"), (17, "O"), (18, "OU"), (13, "CN"), (48, "emailAddress"), (105, "serialNumber"),
   (100, "SN"), (99, "GN")]

/-- The first entry of a kind. -/
def firstEntry (name : List Entry) (nid : Nat) : Option Entry := name.find? fun e => e.nid = nid

/-- The text of the first entry of a kind. -/
def firstText (name : List Entry) (nid : Nat) : Option Bytes := (firstEntry name nid).bind Entry.text

/-- All first entries of the kinds given can be converted to UTF-8. -/
def ReadableFor (ks : List (Nat × Bytes)) (name : List Entry) : Prop :=
  ∀ k ∈ ks, ∀ e, firstEntry name k.1 = some e → e.text ≠ none

/-- All entries of a name that matter can be converted to UTF-8. -/
def Readable (name : List Entry) : Prop := ∀ k ∈ knownNames, ∀ e, firstEntry name k.1 = some e → e.text ≠ none

theorem readable_all (name : List Entry) : Readable name ↔
    ∀ k ∈ knownNames, (firstEntry name k.1).all (fun e => e.text.isSome) = true := by
  unfold Readable
  constructor
  · intro h k hk
    cases hf : firstEntry name k.1 with
    | none => rfl
    | some e => simpa [Option.isSome_iff_ne_none] using h k hk e hf
  · intro h k hk e he
    have := h k hk
    rw [he] at this
    simpa [Option.isSome_iff_ne_none] using this

instance (name : List Entry) : Decidable (Readable name) := decidable_of_iff _ (readable_all name).symm

/-- The beginning of a text up to a NUL. -/
def upToNul (t : Bytes) : Bytes := t.takeWhile (· ≠ 0)

/-- Keys and values expected for the kinds given. -/
def listedFor (ks : List (Nat × Bytes)) (name : List Entry) : List (Bytes × Bytes) :=
  ks.filterMap fun k => (firstText name k.1).map fun t => (k.2, upToNul t)

/-- Keys and values expected for a name. -/
def listed (name : List Entry) : List (Bytes × Bytes) :=
  knownNames.filterMap fun k => (firstText name k.1).map fun t => (str k.2, upToNul t)

/-- Allocations after which nothing has to be undone by unlinking an element that is not in a list (C24). -/
def CleanKv (al : Oracle) : Prop := al 0 = false ∨ (al 0 = true ∧ al 1 = true ∧ al 2 = true)

/-- Keys and values of list elements. -/
def pairs (xs : List Item) : List (List Bytes) := xs.map fun x => x.own.map (·.2)

/-! ## One entry -/

theorem indexFrom_eq (nid : Nat) : ∀ (es : List Entry) (i : Nat),
    indexFrom nid i es = (es.findIdx? fun e => e.nid = nid).map (· + i)
  | [], i => rfl
  | e :: es, i => by
    rw [indexFrom, List.findIdx?_cons]
    by_cases h : e.nid = nid
    · simp [h]
    · simp only [h, if_false, decide_false, Bool.false_eq_true, indexFrom_eq nid es (i + 1), Option.map_map]
      congr 1
      funext k
      simp only [Function.comp]
      omega

theorem entryLoop_eq (name : List Entry) (nid : Nat) :
    entryLoop name nid (name.length + 1) 0 = .ok (firstEntry name nid) := by
  rw [entryLoop, indexByNid, indexFrom_eq, List.drop_zero]
  unfold firstEntry
  cases h : name.findIdx? fun e => e.nid = nid with
  | none =>
    have : name.find? (fun e => decide (e.nid = nid)) = none := by
      rw [List.find?_eq_none]
      rw [List.findIdx?_eq_none_iff] at h
      intro x hx
      simpa using h x hx
    simp [this]
  | some p =>
    obtain ⟨hp, h1, h2⟩ := List.findIdx?_eq_some_iff_getElem.1 h
    have hf : name.find? (fun e => decide (e.nid = nid)) = some name[p] := by
      rw [List.find?_eq_some_iff_getElem]
      refine ⟨h1, p, hp, rfl, fun j hj => ?_⟩
      have := h2 j hj
      simpa using this
    simp [hf, hp]

theorem getEntry_eq (al : Bool) (m : Mem) (name : List Entry) (nid : Nat) : getEntry al m name nid =
    match firstEntry name nid with
    | none => .ok (m, some none)
    | some e =>
      match e.text with
      | none => .ok (m, none)
      | some b => if al then .ok ((m.newData (b ++ [0])).1, some (some m.fresh)) else .ok (m, none) := by
  rw [getEntry, entryLoop_eq, bind'_ok]
  rfl

theorem cstr_nul (b : Bytes) : BoolTime.cstr (b ++ [0]) = upToNul b := by
  unfold BoolTime.cstr upToNul
  induction b with
  | nil => rfl
  | cons c b ih =>
    rw [List.cons_append, List.takeWhile_cons, List.takeWhile_cons, ih]

/-! ## The list of a name -/

/-- The blocks in use: two lists and a text. -/
inductive Part where
  | issuer | subject | text
deriving DecidableEq

theorem setObj_twice {ι : Type} [DecidableEq ι] (g : ι → Option Obj) (i : ι) (a b : Option Obj) :
    setObj (setObj g i a) i b = setObj g i b := by
  funext j
  unfold setObj
  split <;> rfl

theorem setObj_same {ι : Type} [DecidableEq ι] (g : ι → Option Obj) (i : ι) : setObj g i (g i) = g := by
  funext j
  unfold setObj
  split
  · rename_i h; rw [h]
  · rfl

theorem setObj_comm {ι : Type} [DecidableEq ι] (g : ι → Option Obj) (i j : ι) (a b : Option Obj) (h : i ≠ j) :
    setObj (setObj g i a) j b = setObj (setObj g j b) i a := by
  funext k
  unfold setObj
  by_cases h1 : k = i
  · subst h1; simp [h]
  · simp [h1]

theorem pushKv_none {al : Oracle} (h : al 0 = false) (m : Mem) (l : Nat) (k v : Bytes) :
    pushKv al m (some l) (some k) (some v) = .ok (m, false) := by
  simp [pushKv, h]

theorem keyvalueLoop_own {m0 : Mem} (hw : Wf m0) (al : Nat → Oracle) (name : List Entry) (t : Part) (ht : t ≠ .text)
    (l : Nat) (hal : ∀ i, CleanKv (al i)) : ∀ (ks : List (Nat × Bytes)) (i : Nat) (m : Mem) (g : Part → Option Obj)
    (xs : List Item), Own m0 m g → g t = some (.list l xs) → g .text = none →
    ∃ m' ok ys, keyvalueLoop al name (some l) i ks m = .ok (m', ok) ∧
      Own m0 m' (setObj g t (some (.list l (xs ++ ys)))) ∧
      (ok = true → ReadableFor ks name ∧ pairs ys = (listedFor ks name).map fun p => [p.1, p.2]) ∧
      ((∀ i j, al i j = true) → ReadableFor ks name → ok = true)
  | [], i, m, g, xs, h, hg, _ => by
    refine ⟨m, true, [], rfl, ?_, fun _ => ⟨(fun k hk => by cases hk), rfl⟩, fun _ _ => rfl⟩
    rw [List.append_nil, ← hg, setObj_same]
    exact h
  | k :: ks, i, m, g, xs, h, hg, hx => by
    have stop : ∀ m', Own m0 m' g → Own m0 m' (setObj g t (some (.list l (xs ++ [])))) := by
      intro m' h
      rw [List.append_nil, ← hg, setObj_same]
      exact h
    rw [keyvalueLoop, getEntry_eq]
    cases hf : firstEntry name k.1 with
    | none =>
      obtain ⟨m', ok, ys, e1, e2, e3, e4⟩ := keyvalueLoop_own hw al name t ht l hal ks (i + 1) m g xs h hg hx
      refine ⟨m', ok, ys, by simpa using e1, e2, fun hk => ?_, fun ha hr => e4 ha fun k' hk' => hr k' (.tail _ hk')⟩
      obtain ⟨r1, r2⟩ := e3 hk
      refine ⟨fun k' hk' => ?_, ?_⟩
      · rcases List.mem_cons.1 hk' with rfl | hk'
        · intro e he; rw [hf] at he; cases he
        · exact r1 k' hk'
      · rw [r2, listedFor, listedFor, List.filterMap_cons]
        simp [firstText, hf]
    | some e =>
      cases het : e.text with
      | none =>
        refine ⟨m, false, [], by simp [het], stop m h, nofun, fun _ hr => ?_⟩
        exact absurd het (hr k (.head _) e hf)
      | some b =>
        simp only [het]
        cases hat : al i 3 with
        | false => exact ⟨m, false, [], by simp, stop m h, nofun, fun ha _ => absurd (ha i 3) (by simp [hat])⟩
        | true =>
          simp only [if_true, bind'_ok]
          have h1 := h.new hw .text hx (b ++ [0])
          have hd : (m.newData (b ++ [0])).1.dat m.fresh = some (b ++ [0]) := by simp [Mem.newData]
          simp only [hd, cstr_nul]
          have hgt : setObj g .text (some (.str m.fresh (b ++ [0]))) t = some (.list l xs) := by
            simp [setObj, ht, hg]
          rcases hal i with h0 | ⟨h0, ha1, ha2⟩
          · rw [pushKv_none h0, bind'_ok]
            obtain ⟨m2, f1, f2, f3⟩ := h1.freeStr hw .text (p := m.fresh) (b := b ++ [0]) (by simp [setObj])
            rw [setObj_twice, ← hx, setObj_same] at f3
            exact ⟨m2, false, [], by simp [f1], stop m2 f3, nofun, fun ha _ => absurd (ha i 0) (by simp [h0])⟩
          · obtain ⟨m2, p1, p2⟩ := pushKv_rep (h1.holds t _ hgt : Rep _ l xs) (al i) h0 ha1 ha2 k.2 (upToNul b)
            rw [p1, bind'_ok]
            simp only
            have h2 := h1.push hw t hgt p2
            obtain ⟨m3, f1, f2, f3⟩ := h2.freeStr hw .text (p := m.fresh) (b := b ++ [0])
              (by simp [setObj, Ne.symm ht])
            rw [f1, bind'_ok]
            simp only [if_true]
            rw [setObj_comm _ _ _ _ _ ht, setObj_twice, ← hx, setObj_same] at f3
            obtain ⟨m', ok, ys, e1, e2, e3, e4⟩ := keyvalueLoop_own hw al name t ht l hal ks (i + 1) m3 _
              (xs ++ [⟨(m.newData (b ++ [0])).1.fresh, [((m.newData (b ++ [0])).1.fresh + 1, k.2),
                ((m.newData (b ++ [0])).1.fresh + 2, upToNul b)], 0, 0⟩]) f3
              (by simp [setObj]) (by simp [setObj, Ne.symm ht, hx])
            rw [setObj_twice, List.append_assoc] at e2
            refine ⟨m', ok, [⟨(m.newData (b ++ [0])).1.fresh, [((m.newData (b ++ [0])).1.fresh + 1, k.2),
                ((m.newData (b ++ [0])).1.fresh + 2, upToNul b)], 0, 0⟩] ++ ys, e1, e2, fun hk => ?_,
              fun ha hr => e4 ha fun k' hk' => hr k' (.tail _ hk')⟩
            obtain ⟨r1, r2⟩ := e3 hk
            refine ⟨fun k' hk' => ?_, ?_⟩
            · rcases List.mem_cons.1 hk' with rfl | hk'
              · intro e' he'
                rw [hf] at he'
                cases he'
                rw [het]
                simp
              · exact r1 k' hk'
            · have : firstText name k.1 = some b := by simp [firstText, hf, het]
              rw [pairs, List.map_append, ← pairs, ← pairs, r2, listedFor, listedFor, List.filterMap_cons, this]
              rfl

theorem nnames_eq : nnames = knownNames.map fun k => (k.1, str k.2) := rfl

theorem listed_eq (name : List Entry) : listedFor nnames name = listed name := by
  rw [nnames_eq, listedFor, listed, List.filterMap_map]
  rfl

theorem readable_iff (name : List Entry) : ReadableFor nnames name ↔ Readable name := by
  rw [nnames_eq]
  unfold ReadableFor Readable
  constructor
  · intro h k hk
    exact h _ (List.mem_map.2 ⟨k, hk, rfl⟩)
  · intro h k hk
    obtain ⟨k', hk', rfl⟩ := List.mem_map.1 hk
    exact h k' hk'

/-! ## The serial number -/

theorem serialLoop_rep {m : Mem} : ∀ (xs : List Item) (ps : List (Bytes × Bytes)),
    (∀ x ∈ xs, ∃ n, m.node x.addr = some n ∧ n.own = x.own.map (·.1)) → (∀ x ∈ xs, ∀ p ∈ x.own, m.dat p.1 = some p.2) →
    pairs xs = ps.map (fun p => [p.1, p.2]) →
    ∃ r, serialLoop m (xs.map (·.addr)) = .ok r ∧
      readString m r = .ok ((ps.find? fun p => p.1 = str "serialNumber").map (·.2))
  | [], ps, _, _, h => by
    cases ps with
    | nil => exact ⟨none, rfl, rfl⟩
    | cons p ps => cases h
  | x :: xs, ps, hn, hd, h => by
    cases ps with
    | nil => cases h
    | cons p ps =>
      rw [pairs, List.map_cons, List.map_cons, ← pairs] at h
      obtain ⟨h1, h2⟩ := List.cons.inj h
      obtain ⟨r, r1, r2⟩ := serialLoop_rep xs ps (fun y hy => hn y (.tail _ hy)) (fun y hy => hd y (.tail _ hy)) h2
      obtain ⟨n, n1, n2⟩ := hn x (.head _)
      have hx := hd x (.head _)
      obtain ⟨a, b, hab, ha, hb⟩ : ∃ a b, x.own = [a, b] ∧ a.2 = p.1 ∧ b.2 = p.2 := by
        cases hown : x.own with
        | nil => rw [hown] at h1; cases h1
        | cons a r =>
          cases r with
          | nil => rw [hown] at h1; simp at h1
          | cons b r =>
            cases r with
            | nil => rw [hown] at h1; simp at h1; exact ⟨a, b, rfl, h1.1, h1.2⟩
            | cons c r => rw [hown] at h1; simp at h1
      rw [hab] at hx n2
      have d1 := hx a (.head _)
      have d2 := hx b (.tail _ (.head _))
      rw [List.map_cons, serialLoop, get_of n1, bind'_ok, n2]
      simp only [List.map_cons, List.map_nil, d1, ha]
      by_cases hk : p.1 = str "serialNumber"
      · refine ⟨some b.1, by simp [hk], ?_⟩
        rw [List.find?_cons_of_pos (by simp [hk])]
        simp [readString, d2, hb]
      · refine ⟨r, by simp [hk, r1], ?_⟩
        rw [List.find?_cons_of_neg (by simp [hk]), r2]

theorem find_listedFor (name : List Entry) (nid : Nat) (key : Bytes) : ∀ ks : List (Nat × Bytes),
    (∀ k ∈ ks, k.2 = key → k.1 = nid) →
    (listedFor ks name).find? (fun p => p.1 = key) =
      if key ∈ ks.map (·.2) then (firstText name nid).map fun t => (key, upToNul t) else none
  | [], _ => rfl
  | k :: ks, h => by
    have ih := find_listedFor name nid key ks fun k' hk' => h k' (.tail _ hk')
    unfold listedFor at ih ⊢
    rw [List.filterMap_cons]
    by_cases hk : k.2 = key
    · have hn := h k (.head _) hk
      cases ht : firstText name nid with
      | none =>
        rw [hn, ht]
        simp only [Option.map_none]
        rw [ih, ht]
        simp
      | some t =>
        rw [hn, ht]
        simp [hk]
    · have hk' : ¬ key = k.2 := fun e => hk e.symm
      cases ht : firstText name k.1 with
      | none => simp only [Option.map_none, ih, List.map_cons, List.mem_cons, hk', false_or]
      | some t =>
        simp only [Option.map_some]
        rw [List.find?_cons_of_neg (by simp [hk]), ih]
        simp only [List.map_cons, List.mem_cons, hk', false_or]

theorem find_listed (name : List Entry) : ((listed name).find? fun p => p.1 = str "serialNumber").map (·.2) =
    (firstText name 105).map upToNul := by
  rw [← listed_eq, find_listedFor name 105 _ nnames (by decide), if_pos (by decide), Option.map_map]
  rfl

/-- The metadata of a certificate that can be read. -/
theorem getMeta_own {m0 m : Mem} {g : Part → Option Obj} (hw : Wf m0) (alI alS : Nat → Oracle) (hI : ∀ i, CleanKv (alI i))
    (hS : ∀ i, CleanKv (alS i)) (cert : Option Cert) (li ls : Nat) (h : Own m0 m g) (hi : g .issuer = some (.list li []))
    (hs : g .subject = some (.list ls [])) (hx : g .text = none) :
    ∃ m' n ok xs ys, ∃ g' : Part → Option Obj, getMeta alI alS m cert (some li) (some ls) = .ok (m', n, ok) ∧ Own m0 m' g' ∧
      g' .issuer = some (.list li xs) ∧ g' .subject = some (.list ls ys) ∧ g' .text = none ∧
      (ok = true → ∃ c i s, cert = some c ∧ c.issuer = some i ∧ c.subject = some s ∧ Readable i ∧ Readable s ∧
        pairs xs = (listed i).map (fun p => [p.1, p.2]) ∧ pairs ys = (listed s).map fun p => [p.1, p.2]) ∧
      (∀ c i s, cert = some c → c.issuer = some i → c.subject = some s → Readable i → Readable s →
        (∀ i j, alI i j = true) → (∀ i j, alS i j = true) → ok = true) := by
  unfold getMeta
  cases cert with
  | none => exact ⟨m, 0, false, [], [], g, rfl, h, hi, hs, hx, nofun, nofun⟩
  | some c =>
    cases hci : c.issuer with
    | none =>
      refine ⟨m, number64 c.number, false, [], [], g, by simp only [hci], h, hi, hs, hx, nofun, ?_⟩
      rintro c' i s ⟨⟩ e
      rw [hci] at e; cases e
    | some i =>
      simp only [hci]
      unfold getKeyvalue
      obtain ⟨m1, ok1, xs, e1, o1, r1, a1⟩ := keyvalueLoop_own hw alI i .issuer (by decide) li hI nnames 0 m g [] h hi hx
      rw [e1, bind'_ok]
      simp only
      have hs1 : setObj g Part.issuer (some (.list li ([] ++ xs))) .subject = some (.list ls []) := by simp [setObj, hs]
      have hx1 : setObj g Part.issuer (some (.list li ([] ++ xs))) .text = none := by simp [setObj, hx]
      have hi1 : setObj g Part.issuer (some (.list li ([] ++ xs))) .issuer = some (.list li xs) := by simp [setObj]
      cases ok1 with
      | false =>
        refine ⟨m1, number64 c.number, false, xs, [], _, by simp, o1, hi1, hs1, hx1, nofun, ?_⟩
        rintro c' i' s ⟨⟩ e - hr - ha -
        rw [hci] at e; cases e
        exact a1 ha ((readable_iff _).2 hr)
      | true =>
        obtain ⟨q1, q2⟩ := r1 rfl
        rw [if_pos rfl]
        cases hcs : c.subject with
        | none =>
          refine ⟨m1, number64 c.number, false, xs, [], _, rfl, o1, hi1, hs1, hx1, nofun, ?_⟩
          rintro c' i' s ⟨⟩ - e
          rw [hcs] at e; cases e
        | some s =>
          simp only
          obtain ⟨m2, ok2, ys, e2, o2, r2, a2⟩ :=
            keyvalueLoop_own hw alS s .subject (by decide) ls hS nnames 0 m1 _ [] o1 hs1 hx1
          rw [e2, bind'_ok]
          refine ⟨m2, _, ok2, xs, ys, _, rfl, o2, ?_, ?_, ?_, fun hk => ?_, ?_⟩
          · simp [setObj]
          · simp [setObj]
          · simp [setObj, hx]
          · obtain ⟨q3, q4⟩ := r2 hk
            exact ⟨c, i, s, rfl, hci, hcs, (readable_iff _).1 q1, (readable_iff _).1 q3, by rw [q2, listed_eq],
              by rw [q4, listed_eq]⟩
          · rintro c' i' s' ⟨⟩ - e - hr - ha
            rw [hcs] at e; cases e
            exact a2 ha ((readable_iff _).2 hr)

/-- **C51** (serial number): whatever the certificate, and also when memory runs out (but see C24), the search for the serial
number is defined and leaves no memory behind; it finds the first `serialNumber` of the subject up to a NUL, or fails. -/
theorem C51_partial (m : Mem) (hw : Wf m) (alI alS : Nat → Oracle) (hI : ∀ i, CleanKv (alI i)) (hS : ∀ i, CleanKv (alS i))
    (cert : Option Cert) :
    ∃ m' r, peerSerial alI alS m cert = .ok (m', r) ∧ m'.node = m.node ∧ m'.dat = m.dat ∧
      (∀ b, r = some b → ∃ c i s, cert = some c ∧ c.issuer = some i ∧ c.subject = some s ∧
        (firstText s 105).map upToNul = some b) ∧
      (∀ c i s, cert = some c → c.issuer = some i → c.subject = some s → Readable i → Readable s →
        (∀ i j, alI i j = true) → (∀ i j, alS i j = true) → r = (firstText s 105).map upToNul) := by
  obtain ⟨m1, e1, o1⟩ := (own_nil (ι := Part) m).newList hw .issuer rfl
  obtain ⟨m2, e2, o2⟩ := o1.newList hw .subject (by simp [setObj])
  obtain ⟨m3, n, ok, xs, ys, g, e3, o3, g1, g2, g3, hok, hall⟩ := getMeta_own hw alI alS hI hS cert m.fresh m1.fresh o2
    (by simp [setObj]) (by simp [setObj]) (by simp [setObj])
  obtain ⟨m4, e4, -, o4⟩ := o3.freeLst hw .issuer g1
  obtain ⟨m5, e5, -, o5⟩ := o4.freeLst hw .subject (by simpa [setObj] using g2)
  have hback := o5.back (by intro t; cases t <;> simp [setObj, g3])
  unfold peerSerial
  rw [e1, bind'_ok]
  simp only
  rw [e2, bind'_ok]
  simp only
  rw [e3, bind'_ok]
  simp only
  cases ok with
  | false =>
    refine ⟨m5, none, by simp [e4, e5], hback.1, hback.2, nofun, ?_⟩
    intro c i s h1 h2 h3 h4 h5 h6 h7
    exact absurd (hall c i s h1 h2 h3 h4 h5 h6 h7) (by simp)
  | true =>
    obtain ⟨c, i, s, h1, h2, h3, -, -, -, hp⟩ := hok rfl
    have hrep : Rep m3 m1.fresh ys := o3.holds .subject _ g2
    obtain ⟨r, r1, r2⟩ := serialLoop_rep ys (listed s)
      (fun x hx => by obtain ⟨n, n1, -, n2, -⟩ := hrep.items x hx; exact ⟨n, n1, n2⟩) hrep.data hp
    rw [find_listed] at r2
    refine ⟨m5, (firstText s 105).map upToNul, ?_, hback.1, hback.2, fun b hb => ⟨c, i, s, h1, h2, h3, hb⟩, ?_⟩
    · rw [if_pos rfl, getSerial]
      simp only [eachSafe_rep hrep, bind'_ok, r1, r2, e4, e5]
    · rintro c' i' s' h1' - h3' - - - -
      rw [h1] at h1'; cases h1'
      rw [h3] at h3'; cases h3'
      rfl

/-- All allocations succeed. -/
def plenty : Nat → Oracle := fun _ _ => true

theorem plenty_clean (i : Nat) : CleanKv (plenty i) := .inr ⟨rfl, rfl, rfl⟩

/-- **C51** as stated: for every certificate with readable names the serial number of the pledge is the value of the first
`serialNumber` entry of the subject. -/
def C51_statement : Prop :=
  ∀ (m : Mem) (number : Option Int) (i s : List Entry), Wf m → Readable i → Readable s →
    ∃ m', peerSerial plenty plenty m (some ⟨number, some i, some s⟩) = .ok (m', firstText s 105)

theorem peerSerial_plenty (m : Mem) (hw : Wf m) (number : Option Int) (i s : List Entry) (hi : Readable i) (hs : Readable s) :
    ∃ m', peerSerial plenty plenty m (some ⟨number, some i, some s⟩) = .ok (m', (firstText s 105).map upToNul) := by
  obtain ⟨m', r, h1, -, -, -, h2⟩ := C51_partial m hw plenty plenty plenty_clean plenty_clean (some ⟨number, some i, some s⟩)
  have := h2 _ i s rfl rfl rfl hi hs (fun _ _ => rfl) (fun _ _ => rfl)
  exact ⟨m', by rw [h1, this]⟩

/-- A memory without blocks. -/
def noMem : Mem := ⟨0, fun _ => none, fun _ => none⟩

theorem wf_noMem : Wf noMem := fun _ _ => ⟨rfl, rfl⟩

theorem upToNul_iff (t : Bytes) : upToNul t = t ↔ 0 ∉ t := by
  unfold upToNul
  induction t with
  | nil => simp
  | cons c t ih =>
    rw [List.takeWhile_cons]
    by_cases h : c = 0
    · simp [h]
    · have : ¬ 0 = c := fun e => h e.symm
      simp only [ne_eq, h, not_false_eq_true, decide_true, if_true, List.cons.injEq, true_and, List.mem_cons, this, false_or]
      exact ih

/-- **C51** (when the serial number is exact): exactly when the value contains no NUL. -/
theorem C51_partial_exact (m : Mem) (hw : Wf m) (number : Option Int) (i s : List Entry) (hi : Readable i) (hs : Readable s)
    (t : Bytes) (ht : firstText s 105 = some t) :
    (∃ m', peerSerial plenty plenty m (some ⟨number, some i, some s⟩) = .ok (m', some t)) ↔ 0 ∉ t := by
  obtain ⟨m', e⟩ := peerSerial_plenty m hw number i s hi hs
  rw [e, ht, ← upToNul_iff]
  constructor
  · rintro ⟨m'', h⟩
    simp only [Option.map_some, Outcome.ok.injEq, Prod.mk.injEq, Option.some.injEq] at h
    exact h.2
  · intro h
    exact ⟨m', by rw [Option.map_some, h]⟩

/-- The code violates C51: a NUL ends the serial number. -/
theorem C51_violated : ¬ C51_statement := by
  intro h
  obtain ⟨m', e⟩ := h noMem none [] [⟨105, some [65, 0, 66]⟩] wf_noMem (by decide) (by decide)
  obtain ⟨m'', e'⟩ := peerSerial_plenty noMem wf_noMem none [] [⟨105, some [65, 0, 66]⟩] (by decide) (by decide)
  rw [e'] at e
  simp only [Outcome.ok.injEq, Prod.mk.injEq] at e
  exact absurd e.2 (by decide)

/-- Consequence: for every serial number there are certificates with another one that pass for it. -/
theorem C51_violated_confusion (m : Mem) (hw : Wf m) (number : Option Int) (t u : Bytes) (ht : 0 ∉ t) :
    ∃ m', peerSerial plenty plenty m (some ⟨number, some [], some [⟨105, some (t ++ 0 :: u)⟩]⟩) = .ok (m', some t) := by
  obtain ⟨m', e⟩ := peerSerial_plenty m hw number [] [⟨105, some (t ++ 0 :: u)⟩] (by decide) (by
    intro k _ e he
    have : e ∈ [(⟨105, some (t ++ 0 :: u)⟩ : Entry)] := List.mem_of_find?_eq_some he
    rw [List.mem_singleton.1 this]
    simp)
  refine ⟨m', ?_⟩
  rw [e]
  have : upToNul (t ++ 0 :: u) = t := by
    clear e
    unfold upToNul
    induction t with
    | nil => rfl
    | cons c t ih =>
      have h1 : ¬ c = 0 := fun e => ht (by rw [e]; exact .head _)
      rw [List.cons_append, List.takeWhile_cons, ih fun h => ht (.tail _ h)]
      simp [h1]
  simp [firstText, firstEntry, this]

/-- **C51** (list of a name): the list made for a name holds the known parts, in the fixed order, each with its first value
up to a NUL, provided memory suffices and the values can be converted. -/
theorem C51_list (m : Mem) (hw : Wf m) (number : Option Int) (i s : List Entry) (hi : Readable i) (hs : Readable s) :
    ∃ m1 l1 m2 l2 m3 n c1 c2, initList (fun _ => true) m = .ok (m1, some l1) ∧
      initList (fun _ => true) m1 = .ok (m2, some l2) ∧
      getMeta plenty plenty m2 (some ⟨number, some i, some s⟩) (some l1) (some l2) = .ok (m3, n, true) ∧
      contents m3 l1 = .ok c1 ∧ c1.map (·.1) = (listed i).map (fun p => [p.1, p.2]) ∧
      contents m3 l2 = .ok c2 ∧ c2.map (·.1) = (listed s).map fun p => [p.1, p.2] := by
  obtain ⟨m1, e1, o1⟩ := (own_nil (ι := Part) m).newList hw .issuer rfl
  obtain ⟨m2, e2, o2⟩ := o1.newList hw .subject (by simp [setObj])
  obtain ⟨m3, n, ok, xs, ys, g, e3, o3, g1, g2, g3, hok, hall⟩ := getMeta_own hw plenty plenty plenty_clean plenty_clean
    (some ⟨number, some i, some s⟩) m.fresh m1.fresh o2 (by simp [setObj]) (by simp [setObj]) (by simp [setObj])
  have hk := hall _ i s rfl rfl rfl hi hs (fun _ _ => rfl) (fun _ _ => rfl)
  subst hk
  obtain ⟨c, i', s', h1, h2, h3, -, -, p1, p2⟩ := hok rfl
  cases h1; cases h2; cases h3
  refine ⟨m1, _, m2, _, m3, n, _, _, e1, e2, e3, contents_rep (o3.holds .issuer _ g1 : Rep _ _ xs), ?_,
    contents_rep (o3.holds .subject _ g2 : Rep _ _ ys), ?_⟩
  · rw [List.map_map, ← p1]; rfl
  · rw [List.map_map, ← p2]; rfl

/-- **C51** (order of the list): at most one entry for each known part, in the order of the table. -/
theorem C51_order (name : List Entry) :
    ((listed name).map (·.1)).Sublist (knownNames.map fun k => str k.2) ∧ ((listed name).map (·.1)).Nodup := by
  have h : ∀ ks : List (Nat × String), ((ks.filterMap fun k => (firstText name k.1).map fun t => (str k.2, upToNul t)).map
      (·.1)).Sublist (ks.map fun k => str k.2) := by
    intro ks
    induction ks with
    | nil => exact List.Sublist.refl _
    | cons k ks ih =>
      rw [List.filterMap_cons, List.map_cons]
      cases firstText name k.1 with
      | none => exact ih.cons _
      | some t => exact ih.cons_cons _
  exact ⟨h knownNames, (h knownNames).nodup (by decide)⟩

/-- **C51** (number): the number in the metadata is the certificate's serial number when that is an unsigned 64 bit number, and
0 otherwise. -/
theorem C51_number (n : Int) : number64 (some n) = n.toNat ∧ (0 ≤ n ∧ n < 2 ^ 64) ∨ number64 (some n) = 0 ∧ (n < 0 ∨ 2 ^ 64 ≤ n) := by
  simp only [number64]
  by_cases h : 0 ≤ n ∧ n < 18446744073709551616
  · rw [if_pos h]; exact .inl ⟨rfl, h⟩
  · rw [if_neg h]
    refine .inr ⟨rfl, ?_⟩
    have : (2 : Int) ^ 64 = 18446744073709551616 := by decide
    omega

/-- A name with repeated parts in another order. -/
def sampleName : List Entry :=
  [⟨105, some (str "P1")⟩, ⟨13, some (str "x")⟩, ⟨105, some (str "P2")⟩, ⟨14, some (str "UK")⟩, ⟨7, none⟩]

/-- The serial number found, or `none` when the search is undefined. -/
def found (r : Outcome (Mem × Option Bytes)) : Option (Option Bytes) :=
  match r with
  | .ok r => some r.2
  | .ub => none

/-- Non-vacuity: the first of two serial numbers is found, the list is ordered, a part that cannot be converted and a failing
allocation make it fail; running out of memory inside an element is undefined (C24). -/
example : Readable sampleName ∧ listed sampleName = [(str "C", str "UK"), (str "CN", str "x"), (str "serialNumber", str "P1")] ∧
    found (peerSerial plenty plenty noMem (some ⟨some 5, some [], some sampleName⟩)) = some (some (str "P1")) ∧
    found (peerSerial plenty plenty noMem (some ⟨some 5, some [⟨14, none⟩], some sampleName⟩)) = some none ∧
    found (peerSerial (fun i j => i != 0 || j != 0) plenty noMem (some ⟨some 5, some sampleName, some sampleName⟩)) = some none ∧
    found (peerSerial plenty (fun _ j => j != 2) noMem (some ⟨some 5, some [], some sampleName⟩)) = none := by
  refine ⟨by decide, by decide, ?_, ?_, ?_, ?_⟩ <;> decide +kernel

end Brski.Props
