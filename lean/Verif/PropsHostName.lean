import Verif.HostName
import Verif.PropsScan

/-!
# C134: a certificate is taken for a host only if it names it
-/

namespace Brski.Props
open Outcome Routes HostName

/-! ## Specification (RFC 2818, section 3.1) -/

/-- A component of a name with `*` for any fragment. -/
inductive Glob : Bytes → Bytes → Prop where
  | nil : Glob [] []
  | char (c : UInt8) {p h : Bytes} : Glob p h → Glob (c :: p) (c :: h)
  | star {p : Bytes} (x : Bytes) {h : Bytes} : Glob p h → Glob (42 :: p) (x ++ h)

/-- The components of two names, one by one. -/
inductive Globs : List Bytes → List Bytes → Prop where
  | nil : Globs [] []
  | cons {p h : Bytes} {ps hs : List Bytes} : Glob p h → Globs ps hs → Globs (p :: ps) (h :: hs)

/-- The name `pat` of a certificate stands for the host `host`. -/
def StandsFor (pat host : Bytes) : Prop :=
  ∃ ps hs : List Bytes, ps ≠ [] ∧ hs ≠ [] ∧ (∀ x ∈ ps, (46 : UInt8) ∉ x) ∧ (∀ x ∈ hs, (46 : UInt8) ∉ x) ∧
    pat = delimited 46 ps ∧ host = delimited 46 hs ∧ Globs ps hs

/-- The certificate is one for the host: for an address, it has that address; for a name, it has a host name that stands for it or,
if it has no host name at all, its common name does. -/
def Identifies (p : Pton) (host : Bytes) (c : Cert) : Prop :=
  match p.v6 host, p.v4 host with
  | some a, _ => Name.ip a ∈ c.names
  | none, some a => Name.ip a ∈ c.names
  | none, none =>
    (∃ s, Name.dns s ∈ c.names ∧ StandsFor s host) ∨
      ((∀ s, Name.dns s ∉ c.names) ∧ ∃ s, c.common = some s ∧ StandsFor s host)

/-- Addresses have 16 and 4 bytes. -/
def PtonSane (p : Pton) : Prop := (∀ s a, p.v6 s = some a → a.length = 16) ∧ ∀ s a, p.v4 s = some a → a.length = 4

/-- Sizes that occur. -/
def HostSized (host : Bytes) (c : Cert) : Prop :=
  host.length < 2 ^ 63 ∧ (∀ s, Name.dns s ∈ c.names → s.length < 2 ^ 63) ∧ ∀ s, c.common = some s → s.length < 2 ^ 63

/-- **C134**, full statement: the check is defined for every host and certificate, and what it accepts is for that host. -/
def C134_statement : Prop :=
  ∀ (p : Pton) (host : Bytes) (c : Cert), PtonSane p → HostSized host c → (0 : UInt8) ∉ host →
    ∃ r, verifyHost p host c = .ok r ∧ (r = true → Identifies p host c)

/-! ## What is accepted -/

/-- Specification of what the code compares: the same text, or the same number of components that are not blank, each equal, `*` or
the one of the host with `*` behind it. -/
def Accepts (pat host : Bytes) : Prop :=
  (host = pat ∧ (0 : UInt8) ∉ host) ∨
    ∃ ps hs : List Bytes, ((pieces 46 pat).map trim).filter (· ≠ []) = ps ∧
      ((pieces 46 host).map trim).filter (· ≠ []) = hs ∧ ps.length = hs.length ∧
      ∀ ph ∈ ps.zip hs, ph.1 = ph.2 ∨ ph.1 = [42] ∨ ph.1 = ph.2 ++ [42]

theorem component_iff (p h : Bytes) : component p h = true ↔ p = h ∨ p = [42] ∨ p = h ++ [42] := by
  have hs : str "*" = [42] := by decide
  have hl : (p.getLast? = some 42 ∧ p.dropLast = h) ↔ p = h ++ [42] := by
    constructor
    · rintro ⟨h1, h2⟩
      have hne : p ≠ [] := fun e => by rw [e] at h1; cases h1
      have := List.dropLast_concat_getLast hne
      rw [List.getLast?_eq_some_getLast hne] at h1
      rw [← this, h2, Option.some.inj h1]
    · intro e; subst e; simp
  rw [← hl]
  simp [component, hs, or_assoc]

theorem components_iff : ∀ ps hs : List Bytes, components ps hs = true ↔
    ps.length = hs.length ∧ ∀ ph ∈ ps.zip hs, ph.1 = ph.2 ∨ ph.1 = [42] ∨ ph.1 = ph.2 ++ [42]
  | [], [] => by simp [components]
  | [], h :: hs => by simp [components]
  | p :: ps, [] => by simp [components]
  | p :: ps, h :: hs => by
    rw [components, Bool.and_eq_true, component_iff, components_iff ps hs]
    simp only [List.length_cons, List.zip_cons_cons, List.mem_cons, forall_eq_or_imp, Nat.add_right_cancel_iff]
    constructor
    · rintro ⟨h1, h2, h3⟩; exact ⟨h2, h1, h3⟩
    · rintro ⟨h2, h1, h3⟩; exact ⟨h1, h2, h3⟩

theorem cstr_eq {s t : Bytes} (hl : s.length = t.length) : s = BoolTime.cstr t ↔ s = t ∧ (0 : UInt8) ∉ s := by
  have hle : ∀ t : Bytes, (BoolTime.cstr t).length = t.length → (0 : UInt8) ∉ t ∧ BoolTime.cstr t = t := by
    intro t
    induction t with
    | nil => intro _; exact ⟨by simp, rfl⟩
    | cons c t ih =>
      intro h
      by_cases hc : c = 0
      · subst hc; simp [BoolTime.cstr] at h
      · have e : BoolTime.cstr (c :: t) = c :: BoolTime.cstr t := by simp [BoolTime.cstr, hc]
        rw [e] at h ⊢
        have := ih (by simpa using h)
        exact ⟨fun hm => by rcases List.mem_cons.mp hm with e | e; exact hc e.symm; exact this.1 e, by rw [this.2]⟩
  constructor
  · intro h
    have := hle t (by rw [← h, hl])
    rw [h, this.2]
    exact ⟨rfl, this.1⟩
  · rintro ⟨rfl, h0⟩
    induction s with
    | nil => rfl
    | cons c s ih =>
      have hc : c ≠ 0 := fun e => h0 (e ▸ List.mem_cons_self)
      have := ih fun hm => h0 (List.mem_cons_of_mem _ hm)
      rw [BoolTime.cstr, List.takeWhile_cons, if_pos (by simpa using hc)]
      congr 1
      exact this rfl

theorem checkName_iff {host pat : Bytes} (hh : host.length < 2 ^ 63) (hp : pat.length < 2 ^ 63) :
    ∃ r, checkName host pat = .ok r ∧ (r = true ↔ Accepts pat host) := by
  rw [checkName, splitAll_scan 46 (by omega), splitAll_scan 46 (by omega), bind'_ok, bind'_ok]
  by_cases h : host.length = pat.length ∧ host = BoolTime.cstr pat
  · rw [if_pos h]
    exact ⟨true, rfl, fun _ => .inl ((cstr_eq h.1).mp h.2), fun _ => rfl⟩
  · rw [if_neg h]
    refine ⟨_, rfl, ?_⟩
    rw [components_iff]
    constructor
    · rintro ⟨h1, h2⟩
      exact .inr ⟨_, _, rfl, rfl, h1, h2⟩
    · rintro (⟨e, h0⟩ | ⟨ps, hs, e1, e2, h1, h2⟩)
      · exact absurd ⟨by rw [e], (cstr_eq (by rw [e])).mpr ⟨e, h0⟩⟩ h
      · subst e1; subst e2
        exact ⟨h1, h2⟩

theorem altLoop_name {host : Bytes} (hh : host.length < 2 ^ 63) : ∀ (ns : List Name), (∀ s, Name.dns s ∈ ns → s.length < 2 ^ 63) →
    ∃ r, altLoop host .name ns false = .ok r ∧ (r = true ↔ ∃ s, Name.dns s ∈ ns ∧ Accepts s host)
  | [], _ => ⟨false, rfl, by simp⟩
  | n :: ns, h => by
    obtain ⟨r, e, hr⟩ := altLoop_name hh ns fun s hs => h s (List.mem_cons_of_mem _ hs)
    cases n with
    | dns s =>
      obtain ⟨q, eq, hq⟩ := checkName_iff hh (h s (List.mem_cons_self ..))
      rw [altLoop, eq, bind'_ok]
      cases q with
      | true => exact ⟨true, rfl, fun _ => ⟨s, List.mem_cons_self .., hq.mp rfl⟩, fun _ => rfl⟩
      | false =>
        refine ⟨r, e, hr.trans ⟨fun ⟨t, ht, ha⟩ => ⟨t, List.mem_cons_of_mem _ ht, ha⟩, fun ⟨t, ht, ha⟩ => ?_⟩⟩
        rcases List.mem_cons.mp ht with e' | e'
        · cases e'
          exact absurd (hq.mpr ha) (by simp)
        · exact ⟨t, e', ha⟩
    | ip s => exact ⟨r, e, hr.trans ⟨fun ⟨t, ht, ha⟩ => ⟨t, List.mem_cons_of_mem _ ht, ha⟩, fun ⟨t, ht, ha⟩ => ⟨t, (List.mem_cons.mp ht).resolve_left (fun e => by cases e), ha⟩⟩⟩
    | other => exact ⟨r, e, hr.trans ⟨fun ⟨t, ht, ha⟩ => ⟨t, List.mem_cons_of_mem _ ht, ha⟩, fun ⟨t, ht, ha⟩ => ⟨t, (List.mem_cons.mp ht).resolve_left (fun e => by cases e), ha⟩⟩⟩

theorem common_part {host : Bytes} (hh : host.length < 2 ^ 63) (c : Cert) (hc : ∀ s, c.common = some s → s.length < 2 ^ 63) (r : Bool) (P : Prop)
    (hr : r = true ↔ P) : ∃ q, (if r then Outcome.ok true else match c.common with | none => .ok false | some s => checkName host s) = .ok q ∧
      (q = true ↔ P ∨ ∃ s, c.common = some s ∧ Accepts s host) := by
  cases r with
  | true => exact ⟨true, rfl, fun _ => .inl (hr.mp rfl), fun _ => rfl⟩
  | false =>
    have hP : ¬ P := fun h => by have := hr.mpr h; cases this
    cases hcn : c.common with
    | none => exact ⟨false, rfl, (fun h => by cases h), fun h => by
        rcases h with h | ⟨s, e, _⟩
        · exact absurd h hP
        · cases e⟩
    | some s =>
      obtain ⟨q, e, hq⟩ := checkName_iff hh (hc s hcn)
      exact ⟨q, e, hq.trans ⟨fun h => .inr ⟨s, rfl, h⟩, fun h => by
        rcases h with h | ⟨t, et, h⟩
        · exact absurd h hP
        · cases et; exact h⟩⟩

/-- Host names: the check is defined and accepts exactly the certificates one of whose host names, or whose common name, is
accepted. -/
theorem C134_partial_name (p : Pton) (host : Bytes) (c : Cert) (hs : HostSized host c) (h0 : (0 : UInt8) ∉ host) (h6 : p.v6 host = none) (h4 : p.v4 host = none) :
    ∃ r, verifyHost p host c = .ok r ∧
      (r = true ↔ (∃ s, Name.dns s ∈ c.names ∧ Accepts s host) ∨ ∃ s, c.common = some s ∧ Accepts s host) := by
  have hc : BoolTime.cstr host = host := ((cstr_eq rfl).mpr ⟨rfl, h0⟩).symm
  obtain ⟨r, e, hr⟩ := altLoop_name hs.1 c.names hs.2.1
  rw [verifyHost, want, hc, h6, h4]
  simp only []
  rw [e, bind'_ok]
  exact common_part hs.1 c hs.2.2 r _ hr

theorem altLoop_v4 {host a : Bytes} (ha : a.length = 4) : ∀ (ns : List Name) (b : Bool), (∀ s, Name.ip s ∈ ns → 4 ≤ s.length) →
    ∃ r, altLoop host (.addr (List.replicate 16 0) a 4) ns b = .ok r ∧
      (r = true ↔ b = true ∨ ∃ s, Name.ip s ∈ ns ∧ (s.take 4 = a ∨ s.take 4 = [0, 0, 0, 0]))
  | [], b, _ => ⟨b, rfl, by simp⟩
  | n :: ns, b, h => by
    have hn := fun s hs => h s (List.mem_cons_of_mem _ hs)
    cases n with
    | ip s =>
      have hl := h s (List.mem_cons_self ..)
      have ha4 : a.take 4 = a := List.take_of_length_le (by omega)
      rw [altLoop, same, if_pos ⟨by simp, hl⟩, bind'_ok]
      by_cases hz : s.take 4 = [0, 0, 0, 0]
      · rw [if_pos (by simp [hz])]
        obtain ⟨r, e, hr⟩ := altLoop_v4 (host := host) ha ns true hn
        exact ⟨r, e, hr.trans ⟨fun _ => .inr ⟨s, List.mem_cons_self .., .inr hz⟩, fun _ => .inl rfl⟩⟩
      · have hz' : ¬ (List.replicate 16 (0 : UInt8)).take 4 == s.take 4 := by
          intro e
          have : (List.replicate 16 (0 : UInt8)).take 4 = s.take 4 := by simpa using e
          exact hz (by rw [← this]; rfl)
        rw [if_neg hz', same, if_pos ⟨by omega, hl⟩, bind'_ok]
        obtain ⟨r, e, hr⟩ := altLoop_v4 (host := host) ha ns (b || (a.take 4 == s.take 4)) hn
        refine ⟨r, e, hr.trans ?_⟩
        rw [ha4]
        constructor
        · rintro (h | ⟨t, ht, h⟩)
          · rcases (Bool.or_eq_true _ _).mp h with h | h
            · exact .inl h
            · exact .inr ⟨s, List.mem_cons_self .., .inl (by simpa using (show a = s.take 4 by simpa using h).symm)⟩
          · exact .inr ⟨t, List.mem_cons_of_mem _ ht, h⟩
        · rintro (h | ⟨t, ht, h⟩)
          · exact .inl (by simp [h])
          · rcases List.mem_cons.mp ht with e' | e'
            · cases e'
              rcases h with h | h
              · exact .inl (by simp [h])
              · exact absurd h hz
            · exact .inr ⟨t, e', h⟩
    | dns s =>
      obtain ⟨r, e, hr⟩ := altLoop_v4 (host := host) ha ns b hn
      exact ⟨r, e, hr.trans (or_congr Iff.rfl ⟨fun ⟨t, ht, h⟩ => ⟨t, List.mem_cons_of_mem _ ht, h⟩, fun ⟨t, ht, h⟩ => ⟨t, (List.mem_cons.mp ht).resolve_left (fun e => by cases e), h⟩⟩)⟩
    | other =>
      obtain ⟨r, e, hr⟩ := altLoop_v4 (host := host) ha ns b hn
      exact ⟨r, e, hr.trans (or_congr Iff.rfl ⟨fun ⟨t, ht, h⟩ => ⟨t, List.mem_cons_of_mem _ ht, h⟩, fun ⟨t, ht, h⟩ => ⟨t, (List.mem_cons.mp ht).resolve_left (fun e => by cases e), h⟩⟩)⟩

/-- IPv4 addresses: if no address in the certificate is shorter than four bytes, the check is defined and accepts exactly the
certificates with an address that begins with the four bytes of the host or with four zeros, and those whose common name is accepted. -/
theorem C134_partial_v4 (p : Pton) (host a : Bytes) (c : Cert) (hp : PtonSane p) (hs : HostSized host c) (h0 : (0 : UInt8) ∉ host)
    (h6 : p.v6 host = none) (h4 : p.v4 host = some a) (hl : ∀ s, Name.ip s ∈ c.names → 4 ≤ s.length) :
    ∃ r, verifyHost p host c = .ok r ∧
      (r = true ↔ (∃ s, Name.ip s ∈ c.names ∧ (s.take 4 = a ∨ s.take 4 = [0, 0, 0, 0])) ∨ ∃ s, c.common = some s ∧ Accepts s host) := by
  have hc : BoolTime.cstr host = host := ((cstr_eq rfl).mpr ⟨rfl, h0⟩).symm
  obtain ⟨r, e, hr⟩ := altLoop_v4 (host := host) (hp.2 _ _ h4) c.names false hl
  rw [verifyHost, want, hc, h6, h4]
  simp only []
  rw [e, bind'_ok]
  exact common_part hs.1 c hs.2.2 r _ (hr.trans (by simp))

theorem altLoop_v6 {host a : Bytes} (ha : a.length = 16) : ∀ (ns : List Name) (b : Bool),
    ((∀ s, Name.ip s ∈ ns → s.take 16 = a) → altLoop host (.addr a (List.replicate 4 0) 16) ns b = .ok (b || ns.any fun n => match n with | .ip _ => true | _ => false)) ∧
    ((∃ s, Name.ip s ∈ ns ∧ s.take 16 ≠ a) → altLoop host (.addr a (List.replicate 4 0) 16) ns b = .ub)
  | [], b => ⟨fun _ => by simp [altLoop], fun ⟨s, h, _⟩ => by cases h⟩
  | n :: ns, b => by
    have ha16 : a.take 16 = a := List.take_of_length_le (by omega)
    cases n with
    | ip s =>
      constructor
      · intro h
        have hs := h s (List.mem_cons_self ..)
        have hl : 16 ≤ s.length := by
          have := congrArg List.length hs
          rw [List.length_take, ha] at this
          omega
        rw [altLoop, same, if_pos ⟨by omega, hl⟩, bind'_ok, if_pos (by simp [ha16, hs]),
          (altLoop_v6 (host := host) ha ns true).1 fun t ht => h t (List.mem_cons_of_mem _ ht)]
        simp
      · rintro ⟨t, ht, hne⟩
        rw [altLoop, same]
        by_cases hl : 16 ≤ a.length ∧ 16 ≤ s.length
        · rw [if_pos hl, bind'_ok]
          by_cases hs : s.take 16 = a
          · rw [if_pos (by simp [ha16, hs])]
            refine (altLoop_v6 (host := host) ha ns true).2 ⟨t, ?_, hne⟩
            rcases List.mem_cons.mp ht with e | e
            · cases e; exact absurd hs hne
            · exact e
          · rw [if_neg (fun e => hs (by have : a.take 16 = s.take 16 := by simpa using e
                                        rw [← this, ha16])), same, if_neg (by simp)]
            rfl
        · rw [if_neg hl]; rfl
    | dns s =>
      refine ⟨fun h => ?_, fun ⟨t, ht, hne⟩ => ?_⟩
      · show altLoop host (.addr a (List.replicate 4 0) 16) ns b = _
        rw [(altLoop_v6 (host := host) ha ns b).1 fun t ht => h t (List.mem_cons_of_mem _ ht)]
        simp
      · exact (altLoop_v6 (host := host) ha ns b).2 ⟨t, (List.mem_cons.mp ht).resolve_left (fun e => by cases e), hne⟩
    | other =>
      refine ⟨fun h => ?_, fun ⟨t, ht, hne⟩ => ?_⟩
      · show altLoop host (.addr a (List.replicate 4 0) 16) ns b = _
        rw [(altLoop_v6 (host := host) ha ns b).1 fun t ht => h t (List.mem_cons_of_mem _ ht)]
        simp
      · exact (altLoop_v6 (host := host) ha ns b).2 ⟨t, (List.mem_cons.mp ht).resolve_left (fun e => by cases e), hne⟩

/-- IPv6 addresses: the check reads past its variables as soon as the certificate has an address that does not begin with that of the
host; otherwise it is defined, and accepts the certificate if it has an address at all or its common name is accepted. -/
theorem C134_partial_v6 (p : Pton) (host a : Bytes) (c : Cert) (hp : PtonSane p) (hs : HostSized host c) (h0 : (0 : UInt8) ∉ host)
    (h6 : p.v6 host = some a) :
    ((∃ s, Name.ip s ∈ c.names ∧ s.take 16 ≠ a) → verifyHost p host c = .ub) ∧
    ((∀ s, Name.ip s ∈ c.names → s.take 16 = a) → ∃ r, verifyHost p host c = .ok r ∧
      (r = true ↔ (∃ s, Name.ip s ∈ c.names) ∨ ∃ s, c.common = some s ∧ Accepts s host)) := by
  have hc : BoolTime.cstr host = host := ((cstr_eq rfl).mpr ⟨rfl, h0⟩).symm
  have hl := altLoop_v6 (host := host) (hp.1 _ _ h6) c.names false
  rw [verifyHost, want, hc, h6]
  simp only []
  refine ⟨fun h => by rw [hl.2 h]; rfl, fun h => ?_⟩
  rw [hl.1 h, bind'_ok]
  refine common_part hs.1 c hs.2.2 _ _ ?_
  rw [Bool.false_or, List.any_eq_true]
  constructor
  · rintro ⟨n, hn, h⟩
    cases n with
    | ip s => exact ⟨s, hn⟩
    | dns s => cases h
    | other => cases h
  · rintro ⟨s, hs⟩
    exact ⟨.ip s, hs, rfl⟩

/-! ## Names without blanks -/

theorem glob_refl : ∀ h : Bytes, Glob h h
  | [] => .nil
  | c :: h => .char c (glob_refl h)

theorem glob_star (h : Bytes) : Glob [42] h := by
  have := Glob.star h Glob.nil
  rwa [List.append_nil] at this

theorem glob_tail : ∀ h : Bytes, Glob (h ++ [42]) h
  | [] => glob_star []
  | c :: h => .char c (glob_tail h)

theorem globs_zip : ∀ ps hs : List Bytes, ps.length = hs.length →
    (∀ ph ∈ ps.zip hs, ph.1 = ph.2 ∨ ph.1 = [42] ∨ ph.1 = ph.2 ++ [42]) → Globs ps hs
  | [], [], _, _ => .nil
  | [], _ :: _, h, _ => by simp at h
  | _ :: _, [], h, _ => by simp at h
  | p :: ps, h :: hs, hl, hz => by
    refine .cons ?_ (globs_zip ps hs (by simpa using hl) fun ph hm => hz ph (by rw [List.zip_cons_cons]; exact List.mem_cons_of_mem _ hm))
    rcases hz (p, h) (by rw [List.zip_cons_cons]; exact List.mem_cons_self ..) with e | e | e
    · simp only at e; rw [e]; exact glob_refl h
    · simp only at e; rw [e]; exact glob_star h
    · simp only at e; rw [e]; exact glob_tail h

/-- Names as they are written: no blanks or tabs, no empty component. -/
def ProperName (s : Bytes) : Prop := (∀ c ∈ s, c ≠ 32 ∧ c ≠ 9) ∧ ∀ x ∈ pieces 46 s, x ≠ []

theorem pieces_mem (d : UInt8) : ∀ (s x : Bytes), x ∈ pieces d s → ∀ c ∈ x, c ∈ s
  | [], x, h, c, hc => by simp [pieces] at h; subst h; cases hc
  | a :: s, x, h, c, hc => by
    rw [pieces] at h
    split at h
    · rcases List.mem_cons.mp h with e | e
      · subst e; cases hc
      · exact List.mem_cons_of_mem _ (pieces_mem d s x e c hc)
    · cases hp : pieces d s with
      | nil =>
        rw [hp] at h
        simp at h; subst h
        simp at hc; subst hc; exact List.mem_cons_self ..
      | cons p ps =>
        rw [hp] at h
        rcases List.mem_cons.mp h with e | e
        · subst e
          rcases List.mem_cons.mp hc with e | e
          · subst e; exact List.mem_cons_self ..
          · exact List.mem_cons_of_mem _ (pieces_mem d s p (by rw [hp]; exact List.mem_cons_self ..) c e)
        · exact List.mem_cons_of_mem _ (pieces_mem d s x (by rw [hp]; exact List.mem_cons_of_mem _ e) c hc)

theorem proper_pieces {s : Bytes} (h : ProperName s) : ((pieces 46 s).map trim).filter (· ≠ []) = pieces 46 s := by
  have e1 : (pieces 46 s).map trim = pieces 46 s := by
    have : (pieces 46 s).map trim = (pieces 46 s).map id := List.map_congr_left fun x hx => by
      apply trim_id
      intro c hc
      exact (isBlank_not c).mpr (h.1 c (pieces_mem 46 s x hx c hc))
    rw [this, List.map_id]
  rw [e1, List.filter_eq_self]
  intro x hx
  simpa using h.2 x hx

/-- What is accepted among proper names stands for the host. -/
theorem accepts_sound {pat host : Bytes} (hp : ProperName pat) (hh : ProperName host) (h : Accepts pat host) : StandsFor pat host := by
  obtain ⟨a1, a2, a3⟩ := delimited_pieces 46 pat
  obtain ⟨b1, b2, b3⟩ := delimited_pieces 46 host
  rcases h with ⟨e, _⟩ | ⟨ps, hs, e1, e2, hl, hz⟩
  · subst e
    refine ⟨_, _, a2, a2, a3, a3, a1.symm, a1.symm, ?_⟩
    refine globs_zip _ _ rfl fun ph hm => .inl ?_
    have : ∀ (l : List Bytes), ∀ ph ∈ l.zip l, ph.1 = ph.2 := by
      intro l
      induction l with
      | nil => intro ph h; simp at h
      | cons x l ih =>
        intro ph h
        rw [List.zip_cons_cons] at h
        rcases List.mem_cons.mp h with e | e
        · subst e; rfl
        · exact ih ph e
    exact this _ ph hm
  · have e1 : pieces 46 pat = ps := by rw [← proper_pieces hp]; exact e1
    have e2 : pieces 46 host = hs := by rw [← proper_pieces hh]; exact e2
    subst e1; subst e2
    exact ⟨_, _, a2, b2, a3, b3, a1.symm, b1.symm, globs_zip _ _ hl hz⟩

/-- **C134**, the part that holds: for host names, if all names are proper and the certificate has no common name beside its host
names, what is accepted is for the host. -/
theorem C134_partial (p : Pton) (host : Bytes) (c : Cert) (hs : HostSized host c) (h0 : (0 : UInt8) ∉ host) (h6 : p.v6 host = none) (h4 : p.v4 host = none)
    (hh : ProperName host) (hd : ∀ s, Name.dns s ∈ c.names → ProperName s) (hc : ∀ s, c.common = some s → ProperName s ∧ ∀ t, Name.dns t ∉ c.names) :
    ∃ r, verifyHost p host c = .ok r ∧ (r = true → Identifies p host c) := by
  obtain ⟨r, e, hr⟩ := C134_partial_name p host c hs h0 h6 h4
  refine ⟨r, e, fun ht => ?_⟩
  unfold Identifies
  rw [h6, h4]
  rcases hr.mp ht with ⟨s, hm, ha⟩ | ⟨s, hm, ha⟩
  · exact .inl ⟨s, hm, accepts_sound (hd s hm) hh ha⟩
  · exact .inr ⟨(hc s hm).2, s, hm, accepts_sound (hc s hm).1 hh ha⟩

/-! ## Violations -/

/-- Readings of the texts used below. -/
def demoPton : Pton where
  v6 s := if s = str "::1" then some (List.replicate 15 0 ++ [1]) else none
  v4 s := if s = str "10.0.0.1" then some [10, 0, 0, 1] else none

theorem demoPton_sane : PtonSane demoPton := by
  refine ⟨fun s a h => ?_, fun s a h => ?_⟩ <;> (simp only [demoPton] at h; split at h <;> cases h; rfl)

/-- A certificate for the address `::1` is accepted for the host 10.0.0.1: the address is compared with the zeros of the one that is not
set, and four bytes only are compared (/repo/src/brski/http/httplib.h:9356-9360). -/
theorem C134_violated : ¬ C134_statement := by
  intro h
  obtain ⟨r, e, hr⟩ := h demoPton (str "10.0.0.1") ⟨[.ip (List.replicate 15 0 ++ [1])], none⟩ demoPton_sane
    ⟨by decide, by simp, by simp⟩ (by decide)
  have : verifyHost demoPton (str "10.0.0.1") ⟨[.ip (List.replicate 15 0 ++ [1])], none⟩ = .ok true := by decide +kernel
  rw [this] at e
  cases e
  have := hr rfl
  have e6 : demoPton.v6 (str "10.0.0.1") = none := by decide +kernel
  have e4 : demoPton.v4 (str "10.0.0.1") = some [10, 0, 0, 1] := by decide +kernel
  unfold Identifies at this
  rw [e6, e4] at this
  revert this
  decide +kernel

/-- The host `::1` and a certificate for 10.0.0.1: sixteen bytes are read from a variable of four
(/repo/src/brski/http/httplib.h:9357-9358). -/
theorem C134_violated_undefined : verifyHost demoPton (str "::1") ⟨[.ip [10, 0, 0, 1]], none⟩ = .ub := by decide +kernel

/-- The common name counts although the certificate has host names (/repo/src/brski/http/httplib.h:9313-9315). -/
theorem C134_violated_common :
    verifyHost demoPton (str "b.com") ⟨[.dns (str "a.com")], some (str "b.com")⟩ = .ok true ∧
      ¬ Identifies demoPton (str "b.com") ⟨[.dns (str "a.com")], some (str "b.com")⟩ := by
  refine ⟨by decide +kernel, ?_⟩
  have e6 : demoPton.v6 (str "b.com") = none := by decide +kernel
  have e4 : demoPton.v4 (str "b.com") = none := by decide +kernel
  unfold Identifies
  rw [e6, e4]
  rintro (⟨s, hs, h⟩ | ⟨h, _⟩)
  · have : s = str "a.com" := by simpa using hs
    subst this
    obtain ⟨ps, hs', hp, hh, dp, dh, e1, e2, hg⟩ := h
    have f1 : ps = [str "a", str "com"] := by
      have := pieces_delimited 46 ps hp dp
      rw [← e1] at this
      rw [← this]; decide +kernel
    have f2 : hs' = [str "b", str "com"] := by
      have := pieces_delimited 46 hs' hh dh
      rw [← e2] at this
      rw [← this]; decide +kernel
    subst f1; subst f2
    cases hg with
    | cons g _ =>
      have ha : str "a" = [97] := by decide
      have hb : str "b" = [98] := by decide
      rw [ha, hb] at g
      cases g
  · exact h (str "a.com") (by simp)

/-- Fragments: `f*.com` is not accepted for `foo.com` (/repo/src/brski/http/httplib.h:9416-9417), whereas RFC 2818 gives it as an example. -/
theorem C134_fragment : verifyHost demoPton (str "foo.com") ⟨[.dns (str "f*.com")], none⟩ = .ok false ∧ StandsFor (str "f*.com") (str "foo.com") := by
  refine ⟨by decide +kernel, [str "f*", str "com"], [str "foo", str "com"], (fun h => nomatch h), (fun h => nomatch h), by decide, by decide, by decide +kernel,
    by decide +kernel, .cons ?_ (.cons (glob_refl _) .nil)⟩
  have e1 : str "f*" = [102, 42] := by decide
  have e2 : str "foo" = 102 :: ([111, 111] ++ []) := by decide
  rw [e1, e2]
  exact .char 102 (.star _ .nil)

/-! ### Examples -/

example : verifyHost demoPton (str "foo.a.com") ⟨[.other, .dns (str "*.a.com")], none⟩ = .ok true := by decide +kernel
example : ProperName (str "foo.a.com") ∧ ProperName (str "*.a.com") ∧ demoPton.v6 (str "foo.a.com") = none ∧ demoPton.v4 (str "foo.a.com") = none ∧ (0 : UInt8) ∉ str "foo.a.com" := by
  unfold ProperName; decide +kernel
example : verifyHost demoPton (str "bar.foo.a.com") ⟨[.dns (str "*.a.com")], none⟩ = .ok false := by decide +kernel
example : verifyHost demoPton (str "10.0.0.1") ⟨[.ip [10, 0, 0, 1]], none⟩ = .ok true := by decide +kernel
example : verifyHost demoPton (str "::1") ⟨[.ip (List.replicate 15 0 ++ [1])], none⟩ = .ok true := by decide +kernel

end Brski.Props
