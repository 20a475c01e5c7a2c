import Verif.RequestLemmas

/-!
# Reading a voucher does not depend on memory; values read are not empty

If reading a text succeeds with some behaviour of the allocator, it succeeds with the same voucher
whenever memory is available.  Byte strings read from a text are not empty and not longer than the
text.
-/

namespace Brski.VoucherJson
open Outcome Brski.Voucher Base64 Spec

/-- Every byte string attribute is absent or has between 1 and `n` bytes. -/
def Full (n : Nat) (v : Voucher) : Prop :=
  ∀ a x, getArray v a = some x → x ≠ ⟨some [], 0⟩ ∧ (Props.content x).length ≤ n

theorem decBlocks_size : ∀ {s bs : Bytes}, decBlocks s = some bs →
    (4 ≤ s.length → bs ≠ []) ∧ bs.length ≤ s.length := by
  intro s
  fun_induction decBlocks s with
  | case1 a b c d r pad bs' h0 =>
    intro bs h
    obtain ⟨x, hx, rfl⟩ := Option.map_eq_some_iff.1 h
    rename_i ih
    have := ih hx
    refine ⟨fun _ => by simp [bs'], ?_⟩
    simp only [bs', List.length_append, List.length_cons, List.length_nil]
    omega
  | case2 a b c d r pad bs' h0 => intro bs h; cases h; simp [bs']
  | case3 a b c d r pad bs' h0 h1 => intro bs h; cases h; simp [bs']
  | case4 => intro bs h; cases h
  | case5 s hs =>
    intro bs h
    cases h
    refine ⟨fun h4 => ?_, by simp⟩
    match s, h4 with
    | a :: b :: c :: d :: r, _ => exact absurd rfl (hs a b c d r)

theorem implied_mul (n : Nat) : (n + implied n) % 4 = 0 ∧ implied n ≤ 3 := by
  unfold implied
  omega

/-- A successful decode, for any memory, is the decode with memory. -/
theorem b64_mono (al al' : Allocator) (hal' : Props.NoOom al') (blk blk' s : Bytes) (hblk : blk.length = 4)
    (hblk' : blk'.length = 4) (hs : s.length < 2 ^ 63) (n : Nat) (p : OutPtr)
    (h : base64str2array al blk s = .ok (some n, p)) :
    base64str2array al' blk' s = .ok (some n, p) ∧
      ∃ b, p = .owned b ∧ n = b.length ∧ b ≠ [] ∧ b.length ≤ s.length + 3 := by
  unfold base64str2array at h ⊢
  rw [genDecode_spec al blk s hblk hs] at h
  rw [genDecode_spec al' blk' s hblk' hs]
  split at h
  · cases h
  · rename_i hne
    rw [if_neg hne]
    split at h
    · cases h
    · split
      · rename_i hm; exact absurd hm (hal' _)
      · split at h
        · cases h
        · rename_i bs hd
          cases h
          obtain ⟨h1, h2⟩ := decBlocks_size hd
          refine ⟨rfl, bs, rfl, rfl, h1 ?_, ?_⟩
          · have := implied_mul (s.filter isB64Char).length
            have : (s.filter isB64Char).length ≠ 0 := fun h => hne (List.eq_nil_of_length_eq_zero h)
            simp only [List.length_append, List.length_replicate]
            omega
          · have := implied_mul (s.filter isB64Char).length
            have := List.length_filter_le isB64Char s
            simp only [List.length_append, List.length_replicate] at h2
            omega

theorem copy_mono (al al' : Allocator) (hal' : Props.NoOom al') (x r : BinArr)
    (h : copyBinaryArray al x = .ok (r, true)) : copyBinaryArray al' x = .ok (r, true) := by
  unfold copyBinaryArray memdup at h ⊢
  cases hx : x.array with
  | none => simp only [hx, bind'_ok] at h; cases h
  | some b =>
    simp only [hx] at h ⊢
    cases hm : al.malloc x.length with
    | none => simp only [hm, bind'_ok] at h; cases h
    | some c =>
      cases hm' : al'.malloc x.length with
      | none => exact absurd hm' (hal' _)
      | some c' => simp only [hm] at h ⊢; exact h

theorem copy_content (al : Allocator) (b : Bytes) (r : BinArr)
    (h : copyBinaryArray al ⟨some b, b.length⟩ = .ok (r, true)) : r = ⟨some b, b.length⟩ := by
  unfold copyBinaryArray memdup at h
  cases hm : al.malloc b.length with
  | none => simp only [hm, bind'_ok] at h; cases h
  | some c => simp only [hm, Nat.le_refl, if_true, bind'_ok, List.take_length] at h; cases h; rfl

/-- Storing the copy of an array. -/
theorem store_mono (al al' : Allocator) (hal' : Props.NoOom al') (x : BinArr) (f : BinArr → Voucher) (v' : Voucher)
    (h : ((copyBinaryArray al x).bind fun r => Outcome.ok (f r.1, r.2)) = .ok (v', true)) :
    ((copyBinaryArray al' x).bind fun r => Outcome.ok (f r.1, r.2)) = .ok (v', true) ∧
      ∃ r, copyBinaryArray al x = .ok (r, true) ∧ v' = f r := by
  cases hc : copyBinaryArray al x with
  | ub => rw [hc] at h; cases h
  | ok r =>
    obtain ⟨r, b⟩ := r
    rw [hc] at h
    cases h
    exact ⟨by rw [copy_mono al al' hal' x r hc]; rfl, r, rfl, rfl⟩

theorem setArray_mono (al al' : Allocator) (hal' : Props.NoOom al') (v v' : Voucher) (a : Attr) (x : Option BinArr)
    (h : setArray al v a x = .ok (v', true)) : setArray al' v a x = .ok (v', true) := by
  unfold setArray at h ⊢
  cases x with
  | none => exact h
  | some x =>
    simp only at h ⊢
    split at h
    · rename_i hn
      rw [if_pos hn]
      cases a <;> simp only at h ⊢
      case idevidIssuer => exact (store_mono al al' hal' x (fun r => { v with idevidIssuer := r }) v' h).1
      case pinnedDomainCert => exact (store_mono al al' hal' x (fun r => { v with pinned := r }) v' h).1
      case nonce => exact (store_mono al al' hal' x (fun r => { v with nonce := r }) v' h).1
      case priorSigned => exact (store_mono al al' hal' x (fun r => { v with prior := r }) v' h).1
      case proximityCert => exact (store_mono al al' hal' x (fun r => { v with proximity := r }) v' h).1
      all_goals exact h
    · cases h

theorem setArray_full (al : Allocator) (n : Nat) (v v' : Voucher) (a : Attr) (b : Bytes) (hf : Full n v)
    (hb : b ≠ []) (hl : b.length ≤ n) (h : setArray al v a (some ⟨some b, b.length⟩) = .ok (v', true)) : Full n v' := by
  have key : ∀ (f : BinArr → Voucher), ((copyBinaryArray al ⟨some b, b.length⟩).bind fun r =>
      Outcome.ok (f r.1, r.2)) = .ok (v', true) → v' = f ⟨some b, b.length⟩ := by
    intro f hf
    obtain ⟨-, r, hr, rfl⟩ := store_mono al zeroAllocator Props.noOom_zero _ f v' hf
    rw [copy_content al b r hr]
  have hx : (⟨some b, b.length⟩ : BinArr) ≠ ⟨some [], 0⟩ ∧ (Props.content ⟨some b, b.length⟩).length ≤ n :=
    ⟨(fun h => hb (by simpa using congrArg BinArr.array h)), by simpa [Props.content] using hl⟩
  unfold setArray at h
  simp only at h
  split at h
  · cases a <;> simp only at h
    case idevidIssuer => 
      have h := key (fun r => { v with idevidIssuer := r }) h
      subst h
      intro a' y hy
      cases a' <;> simp only [getArray, reduceCtorEq, Option.some.injEq] at hy <;> subst hy <;>
        first | exact hx | exact hf .idevidIssuer _ rfl | exact hf .pinnedDomainCert _ rfl |
          exact hf .nonce _ rfl | exact hf .priorSigned _ rfl | exact hf .proximityCert _ rfl
    case pinnedDomainCert => 
      have h := key (fun r => { v with pinned := r }) h
      subst h
      intro a' y hy
      cases a' <;> simp only [getArray, reduceCtorEq, Option.some.injEq] at hy <;> subst hy <;>
        first | exact hx | exact hf .idevidIssuer _ rfl | exact hf .pinnedDomainCert _ rfl |
          exact hf .nonce _ rfl | exact hf .priorSigned _ rfl | exact hf .proximityCert _ rfl
    case nonce => 
      have h := key (fun r => { v with nonce := r }) h
      subst h
      intro a' y hy
      cases a' <;> simp only [getArray, reduceCtorEq, Option.some.injEq] at hy <;> subst hy <;>
        first | exact hx | exact hf .idevidIssuer _ rfl | exact hf .pinnedDomainCert _ rfl |
          exact hf .nonce _ rfl | exact hf .priorSigned _ rfl | exact hf .proximityCert _ rfl
    case priorSigned => 
      have h := key (fun r => { v with prior := r }) h
      subst h
      intro a' y hy
      cases a' <;> simp only [getArray, reduceCtorEq, Option.some.injEq] at hy <;> subst hy <;>
        first | exact hx | exact hf .idevidIssuer _ rfl | exact hf .pinnedDomainCert _ rfl |
          exact hf .nonce _ rfl | exact hf .priorSigned _ rfl | exact hf .proximityCert _ rfl
    case proximityCert => 
      have h := key (fun r => { v with proximity := r }) h
      subst h
      intro a' y hy
      cases a' <;> simp only [getArray, reduceCtorEq, Option.some.injEq] at hy <;> subst hy <;>
        first | exact hx | exact hf .idevidIssuer _ rfl | exact hf .pinnedDomainCert _ rfl |
          exact hf .nonce _ rfl | exact hf .priorSigned _ rfl | exact hf .proximityCert _ rfl
    all_goals cases h
  · cases h

theorem full_congr {n : Nat} {v v' : Voucher} (hf : Full n v) (h : ∀ a, getArray v' a = getArray v a) : Full n v' :=
  fun a x hx => hf a x (by rw [← h a]; exact hx)

theorem runPtr_inv {v : Voucher} {c : Call} {w : Option Voucher} {b : Bool}
    (h : Call.runPtr (some v) c = .ok (w, b)) : ∃ v', w = some v' ∧ c.run v = .ok (v', b) := by
  unfold Call.runPtr at h
  simp only at h
  cases hr : c.run v with
  | ub => rw [hr] at h; cases h
  | ok r => rw [hr] at h; cases h; exact ⟨_, rfl, rfl⟩

/-- What one successful member does. -/
def StepMono (env' : Env) (k n : Nat) (v : Voucher) (w : Option Voucher)
    (f : Env → Nat → Outcome (Option Voucher × Bool)) : Prop :=
  f env' k = .ok (w, true) ∧ ∃ v', w = some v' ∧ (Full n v → Full n v')

theorem setTime_arrays {v v' : Voucher} {a : Attr} {t : Option BoolTime.Tm} {b : Bool}
    (h : setTime v a t = .ok (v', b)) : ∀ a', getArray v' a' = getArray v a' := by
  intro a'
  unfold setTime at h
  cases t <;> cases a <;> cases h <;> cases a' <;> rfl

theorem setStrtime_mono (env env' : Env) (hlib : env.lib = env'.lib) (k n : Nat) (v : Voucher) (a : Attr)
    (value : Bytes) (w : Option Voucher) (h : setStrtime env (some v) a value = .ok (w, true)) :
    StepMono env' k n v w (fun e _ => setStrtime e (some v) a value) := by
  refine ⟨by unfold setStrtime at h ⊢; simp only [← hlib]; exact h, ?_⟩
  unfold setStrtime at h
  split at h
  · cases h
  · obtain ⟨v', rfl, hr⟩ := runPtr_inv h
    exact ⟨v', rfl, fun hf => full_congr hf (setTime_arrays hr)⟩

theorem setStrenum_mono (k n : Nat) (env' : Env) (v : Voucher) (a : Attr) (value : Bytes) (w : Option Voucher)
    (h : setStrenum (some v) a value = .ok (w, true)) :
    StepMono env' k n v w (fun _ _ => setStrenum (some v) a value) := by
  refine ⟨h, ?_⟩
  have key : ∀ m, Call.runPtr (some v) (.enum a m) = .ok (w, true) → ∃ v', w = some v' ∧ (Full n v → Full n v') := by
    intro m hm
    obtain ⟨v', rfl, hr⟩ := runPtr_inv hm
    refine ⟨v', rfl, fun hf => full_congr hf fun a' => ?_⟩
    simp only [Call.run, setEnum] at hr
    cases a <;> simp only at hr <;> (try split at hr) <;> cases hr <;> cases a' <;> rfl
  simp only [setStrenum, checkSizeStrEqual_eq, bind'_ok] at h
  split at h
  · exact key _ h
  · split at h
    · exact key _ h
    · split at h
      · exact key _ h
      · cases h

theorem setStrbool_mono (k n : Nat) (env' : Env) (v : Voucher) (a : Attr) (value : Bytes) (w : Option Voucher)
    (h : setStrbool (some v) a value = .ok (w, true)) :
    StepMono env' k n v w (fun _ _ => setStrbool (some v) a value) := by
  refine ⟨h, ?_⟩
  unfold setStrbool at h
  split at h
  · cases h
  · obtain ⟨v', rfl, hr⟩ := runPtr_inv h
    refine ⟨v', rfl, fun hf => full_congr hf fun a' => ?_⟩
    simp only [Call.run, setBool] at hr
    cases a <;> cases hr <;> cases a' <;> rfl

theorem setNstr_mono (env env' : Env) (hal' : env'.NoOom) (k n : Nat) (v : Voucher) (value : Bytes) (w : Option Voucher)
    (h : setNstrPtr (env.mem k) (some v) value = .ok (w, true)) :
    StepMono env' k n v w (fun e k => setNstrPtr (e.mem k) (some v) value) := by
  unfold setNstrPtr at h
  simp only [setNstr] at h
  split at h
  · rename_i hl
    cases hd : strndup (env.mem k) value value.length with
    | none => rw [hd] at h; cases h
    | some d =>
      rw [hd] at h
      cases h
      refine ⟨?_, _, rfl, fun hf => full_congr hf fun a' => by cases a' <;> rfl⟩
      have hd' : strndup (env'.mem k) value value.length = some d := by
        unfold strndup at hd ⊢
        split at hd
        · cases hd
        · split
          · rename_i hm; exact absurd hm (hal' k _)
          · exact hd
      simp only [setNstrPtr, setNstr, if_pos hl, hd']
  · cases h

theorem setBase64_mono (env env' : Env) (hal' : env'.NoOom) (k n : Nat) (v : Voucher) (a : Attr) (value : Bytes)
    (hl : value.length < 2 ^ 63) (hn : value.length + 3 ≤ n) (w : Option Voucher)
    (h : setBase64 env k (some v) a value = .ok (w, true)) :
    StepMono env' k n v w (fun e k => setBase64 e k (some v) a value) := by
  unfold setBase64 at h
  cases hb : base64str2array (env.mem k) env.blk value with
  | ub => rw [hb] at h; cases h
  | ok r =>
    obtain ⟨m, p⟩ := r
    rw [hb, bind'_ok] at h
    cases m with
    | none => cases h
    | some m =>
      obtain ⟨e, b, rfl, rfl, hne, hbl⟩ := b64_mono (env.mem k) (env'.mem k) (hal' k) env.blk env'.blk value
        env.blk_len env'.blk_len hl m p hb
      simp only at h
      obtain ⟨v', rfl, hr⟩ := runPtr_inv h
      refine ⟨?_, v', rfl, fun hf => setArray_full _ n v v' a b hf hne (by omega) hr⟩
      simp only [setBase64, e, bind'_ok]
      exact runPtr_ok (c := .array a (some ⟨some b, b.length⟩) (env'.mem (k + 1)))
        (setArray_mono (env.mem (k + 1)) (env'.mem (k + 1)) (hal' _) v v' a (some ⟨some b, b.length⟩) hr)

theorem setKeyvalue_mono (env env' : Env) (hal' : env'.NoOom) (hlib : env.lib = env'.lib) (k n : Nat) (v : Voucher)
    (key value : Bytes) (hl : value.length < 2 ^ 63) (hn : value.length + 3 ≤ n) (w : Option Voucher)
    (h : setKeyvalue env k (some v) key value = .ok (w, true)) :
    setKeyvalue env' k (some v) key value = .ok (w, true) ∧ ∃ v', w = some v' ∧ (Full n v → Full n v') := by
  simp only [setKeyvalue, findKey_eq, bind'_ok] at h ⊢
  split at h
  · exact setStrtime_mono env env' hlib k n v _ _ w h
  · exact setStrtime_mono env env' hlib k n v _ _ w h
  · exact setStrtime_mono env env' hlib k n v _ _ w h
  · exact setStrenum_mono k n env' v _ _ w h
  · exact setNstr_mono env env' hal' k n v _ w h
  · exact setStrbool_mono k n env' v _ _ w h
  · exact setBase64_mono env env' hal' k n v _ _ hl hn w h
  · exact setBase64_mono env env' hal' k n v _ _ hl hn w h
  · exact setBase64_mono env env' hal' k n v _ _ hl hn w h
  · exact setBase64_mono env env' hal' k n v _ _ hl hn w h
  · exact setBase64_mono env env' hal' k n v _ _ hl hn w h
  · cases h
  · cases h

theorem memberLoop_mono (env env' : Env) (hal' : env'.NoOom) (hlib : env.lib = env'.lib) (js : Bytes)
    (hl : js.length < 2 ^ 63) (toks : List Jsmn.Tok) (idx : Nat) :
    ∀ n j v w, memberLoop env js toks idx n j (some v) = .ok (some w) →
      memberLoop env' js toks idx n j (some v) = .ok (some w) ∧
      ∃ v', w = some v' ∧ (Full (js.length + 3) v → Full (js.length + 3) v') := by
  intro n
  induction n with
  | zero => intro j v w h; cases h; exact ⟨rfl, v, rfl, id⟩
  | succ n ih =>
    intro j v w h
    simp only [memberLoop] at h ⊢
    split at h
    · rename_i hb
      rw [if_pos hb]
      rw [List.getElem?_eq_getElem hb.1, List.getElem?_eq_getElem hb.2] at h ⊢
      simp only at h ⊢
      cases e1 : tokBytes js toks[idx + j * 2 + 1] with
      | ub => rw [e1] at h; cases h
      | ok key =>
        cases e2 : tokBytes js toks[idx + (j * 2 + 1) + 1] with
        | ub => rw [e1, bind'_ok, e2] at h; cases h
        | ok value =>
          have hvl := tokBytes_le e2
          rw [e1, bind'_ok, e2, bind'_ok] at h
          cases e3 : setKeyvalue env (2 * j + 1) (some v) key value with
          | ub => rw [e3] at h; cases h
          | ok r =>
            obtain ⟨w', b⟩ := r
            rw [e3, bind'_ok] at h
            cases b with
            | false => cases h
            | true =>
              obtain ⟨e3', v', rfl, hf⟩ := setKeyvalue_mono env env' hal' hlib (2 * j + 1) (js.length + 3) v key value
                (by omega) (by omega) w' e3
              simp only [bind'_ok, e3', if_true] at h ⊢
              obtain ⟨h1, v'', h2, h3⟩ := ih (j + 1) v' w h
              exact ⟨h1, v'', h2, fun hv => h3 (hf hv)⟩
    · cases h

theorem rootLoop_mono (env env' : Env) (hal' : env'.NoOom) (hlib : env.lib = env'.lib) (js : Bytes)
    (hl : js.length < 2 ^ 63) (toks : List Jsmn.Tok) (v : Voucher) :
    ∀ ts idx w, rootLoop env js toks (some v) ts idx = .ok (some w) →
      rootLoop env' js toks (some v) ts idx = .ok (some w) ∧
      ∃ v', w = some v' ∧ (Full (js.length + 3) v → Full (js.length + 3) v') := by
  intro ts
  induction ts with
  | nil => intro idx w h; cases h
  | cons t rest ih =>
    intro idx w h
    simp only [rootLoop] at h ⊢
    cases e1 : span t with
    | ub => rw [e1] at h; cases h
    | ok p =>
      rw [e1, bind'_ok] at h
      rw [bind'_ok]
      cases e2 : suffix js p.1 with
      | ub => rw [e2] at h; cases h
      | ok sfx =>
        rw [e2, bind'_ok] at h
        rw [bind'_ok]
        cases e3 : strncmpEq rootName sfx p.2 with
        | ub => rw [e3] at h; cases h
        | ok q =>
          rw [e3, bind'_ok] at h
          rw [bind'_ok]
          cases q with
          | false => exact ih _ _ h
          | true =>
            simp only [if_true] at h ⊢
            cases rest with
            | nil => cases h
            | cons obj rest =>
              simp only at h ⊢
              split at h
              · rename_i ho
                rw [if_pos ho]
                exact memberLoop_mono env env' hal' hlib js hl toks _ _ _ _ _ h
              · cases h

theorem init_full (n : Nat) : Full n Voucher.init := by
  intro a x hx
  cases a <;> cases hx <;> exact ⟨by decide, Nat.zero_le _⟩

/-- Reading with any behaviour of memory: on success the result is the one with memory. -/
theorem deserialize_mono (env env' : Env) (hal' : env'.NoOom) (hlib : env.lib = env'.lib) (js : Bytes)
    (hl : js.length < 2 ^ 63) (v : Voucher) (h : deserialize env js = .ok (some v)) :
    deserialize env' js = .ok (some v) ∧ Full (js.length + 3) v := by
  unfold deserialize at h ⊢
  cases hp : Jsmn.parse 32 js with
  | ub => rw [hp] at h; cases h
  | ok r =>
    rw [hp, bind'_ok] at h
    rw [bind'_ok]
    cases r with
    | error e => cases h
    | ok toks =>
      cases toks with
      | nil => cases h
      | cons t rest =>
        simp only at h ⊢
        split at h
        · cases h
        · rename_i ho
          rw [if_neg ho]
          cases hm' : (env'.mem 0).malloc 240 with
          | none => exact absurd hm' (hal' 0 _)
          | some b' =>
            cases hm : (env.mem 0).malloc 240 with
            | none =>
              exfalso
              rw [hm] at h
              cases hr : rootLoop env js (t :: rest) none rest 1 with
              | ub => simp only [Option.map_none, hr] at h; cases h
              | ok w =>
                cases w with
                | none => simp only [Option.map_none, hr] at h; cases h
                | some w =>
                  have := Request.rootLoop_null env js _ _ _ _ hr
                  subst this
                  simp only [Option.map_none, hr] at h
                  cases h
            | some b =>
              simp only [hm, Option.map_some] at h ⊢
              cases hr : rootLoop env js (t :: rest) (some Voucher.init) rest 1 with
              | ub => rw [hr] at h; cases h
              | ok w =>
                rw [hr, bind'_ok] at h
                cases w with
                | none => cases h
                | some w =>
                  obtain ⟨e, v', rfl, hf⟩ := rootLoop_mono env env' hal' hlib js hl _ Voucher.init _ _ _ hr
                  cases h
                  exact ⟨by rw [e]; rfl, hf (init_full _)⟩

end Brski.VoucherJson
