import Verif.MainOwns
import Verif.MainRuns
import Verif.PledgeRuns2

/-!
# C83: what the files hold
-/

namespace Brski.Props
open Outcome Brski.Voucher DlList Config Cli Crypto Base64 BoolTime Request Server Pledge Main Brski.Spec

/-- **C83** as stated: when `sign` was asked for files and succeeds, the files `<name>.crt` and `<name>.key` hold the certificate
that was issued and the private key; when it fails, the files are as before. -/
def C83_statement : Prop :=
  ∀ (O : Ossl) (W : World O) (args : List Bytes) (o : Opts) (m : Mem) (io : Io) (h : Heap) (r : Ended), Small O → SoundHost W → Machine W →
    Wf m → processOptions W.help args = .ok (.run o .signCert) → o.outFile ≠ [] → 0 ∉ o.outFile →
    main W args m io h = .ok (.ran .signCert r) →
    (r.ok = true → ∃ key crt body c k, W.gen.key = some key ∧ (∃ a p ca t s, (W.net a p).enrol ca t = some (s, body)) ∧
      BodyDecodes W.gen.al W.gen.blk body crt ∧ pemOf O.d2iX509 W.sys.pemCert crt = some c ∧
      pemOf O.d2iKey W.sys.pemKey key = some k ∧ r.io.files (o.outFile ++ str ".crt") = some c ∧
      r.io.files (o.outFile ++ str ".key") = some k) ∧
    (r.ok = false → r.io.files = io.files)

theorem storedAs_short {o ext : Bytes} (h0 : 0 ∉ o) (hl : o.length + ext.length ≤ 254) : storedAs o ext = o ++ ext := by
  unfold storedAs
  rw [takeWhile_of_all fun x hx => by
    simp only [ne_eq, decide_not, Bool.not_eq_eq_eq_not, Bool.not_true, decide_eq_false_iff_not]
    intro h; exact h0 (h ▸ hx)]
  exact List.take_of_length_le (by simpa using hl)

theorem storedAs_long {o ext : Bytes} (h0 : 0 ∉ o) (hl : 254 ≤ o.length) : storedAs o ext = o.take 254 := by
  unfold storedAs
  rw [takeWhile_of_all fun x hx => by
    simp only [ne_eq, decide_not, Bool.not_eq_eq_eq_not, Bool.not_true, decide_eq_false_iff_not]
    intro h; exact h0 (h ▸ hx)]
  exact List.take_append_of_le_length hl

/-- **C83**, the part that holds: for names of at most 250 characters and a disc that keeps what is written.  Missing: longer
names (`C83_long_name`), a full disc (`C83_full_disk`), and that a failure leaves the two files alone (`C83_failed_file`). -/
theorem C83_partial {O : Ossl} (hsm : Small O) {W : World O} (hs : SoundHost W) (hM : Machine W) {args : List Bytes} {o : Opts}
    (hopt : processOptions W.help args = .ok (.run o .signCert)) {m : Mem} (hw : Wf m) {io : Io} {h : Heap} {r : Ended}
    (he : main W args m io h = .ok (.ran .signCert r)) (hne : o.outFile ≠ []) (h0 : 0 ∉ o.outFile) (hlen : o.outFile.length ≤ 250)
    (hdisk : ∀ n t, W.sys.keeps n t = t) :
    (r.ok = true → ∃ key crt body c k, W.gen.key = some key ∧ (∃ a p ca t s, (W.net a p).enrol ca t = some (s, body)) ∧
      BodyDecodes W.gen.al W.gen.blk body crt ∧ pemOf O.d2iX509 W.sys.pemCert crt = some c ∧
      pemOf O.d2iKey W.sys.pemKey key = some k ∧ r.io.files (o.outFile ++ str ".crt") = some c ∧
      r.io.files (o.outFile ++ str ".key") = some k) ∧
    r.io.out = io.out ∧
    ∀ n, n ≠ o.outFile ++ str ".crt" → n ≠ o.outFile ++ str ".key" → r.io.files n = io.files n := by
  have e1 : storedAs o.outFile (str ".crt") = o.outFile ++ str ".crt" := storedAs_short h0 (by
    have : (str ".crt").length = 4 := by decide
    omega)
  have e2 : storedAs o.outFile (str ".key") = o.outFile ++ str ".key" := storedAs_short h0 (by
    have : (str ".key").length = 4 := by decide
    omega)
  have hdiff : o.outFile ++ str ".crt" ≠ o.outFile ++ str ".key" := fun h => absurd (List.append_cancel_left h) (by decide)
  rcases C83_sign hsm hs hM hopt hw he with (hq | ⟨cmd, r', hd, hf, hio⟩) | ⟨r', f, e, a1, r1, cms, a2, r2, pin, key, own, s, body, crt, hd, -, -, hx⟩
  · cases hq
  · cases hd
    rw [hio, hf]
    exact ⟨nofun, rfl, fun _ _ _ => rfl⟩
  · cases hd
    obtain ⟨-, -, -, -, -, hkey, -, -, henr, -, hdec, -, s2, -, s4, -⟩ := hx
    cases hok : r.ok with
    | false =>
      obtain ⟨q1, q2⟩ := s4 hok hne
      exact ⟨nofun, q1, fun n h1 h2 => q2 n (by rw [e1]; exact h1) (by rw [e2]; exact h2)⟩
    | true =>
      obtain ⟨q1, c, k, q2, q3, q4⟩ := s2 hok hne
      rw [e1, e2] at q4
      refine ⟨fun _ => ⟨key, crt, body, c, k, hkey, ⟨_, _, _, _, _, henr⟩, hdec, q2, q3, ?_, ?_⟩, q1, fun n h1 h2 => ?_⟩
      · rw [q4, if_neg hdiff, if_pos rfl, hdisk]
      · rw [q4, if_pos rfl, hdisk]
      · rw [q4, if_neg h2, if_neg h1]

/-- Names of 254 and more characters: certificate and key go to the same file, the key overwrites the certificate, and `sign`
reports success. -/
theorem C83_long_name {O : Ossl} (hsm : Small O) {W : World O} (hs : SoundHost W) (hM : Machine W) {args : List Bytes} {o : Opts}
    (hopt : processOptions W.help args = .ok (.run o .signCert)) {m : Mem} (hw : Wf m) {io : Io} {h : Heap} {r : Ended}
    (he : main W args m io h = .ok (.ran .signCert r)) (h0 : 0 ∉ o.outFile) (hlen : 254 ≤ o.outFile.length) (hok : r.ok = true) :
    ∃ key k, W.gen.key = some key ∧ pemOf O.d2iKey W.sys.pemKey key = some k ∧
      ∀ n, r.io.files n = if n = o.outFile.take 254 then some (W.sys.keeps n k) else io.files n := by
  have hne : o.outFile ≠ [] := fun h => by rw [h] at hlen; exact absurd hlen (by decide)
  rcases C83_sign hsm hs hM hopt hw he with (hq | ⟨cmd, r', hd, hf, hio⟩) | ⟨r', f, e, a1, r1, cms, a2, r2, pin, key, own, s, body, crt, hd, -, -, hx⟩
  · cases hq
  · cases hd
    rw [hok] at hf
    cases hf
  · cases hd
    obtain ⟨-, -, -, -, -, hkey, -, -, -, -, -, -, s2, -⟩ := hx
    obtain ⟨q1, c, k, q2, q3, q4⟩ := s2 hok hne
    rw [storedAs_long h0 hlen, storedAs_long h0 hlen] at q4
    refine ⟨key, k, hkey, q3, fun n => ?_⟩
    rw [q4]
    split
    · rfl
    · rfl

/-- The world with another disc. -/
def onDisk {O : Ossl} (W : World O) (keeps : Bytes → Bytes → Bytes) : World O := { W with sys := { W.sys with keeps := keeps } }

theorem certToFile_disk {O : Ossl} (S : Sys O) (keeps : Bytes → Bytes → Bytes) (der name : Bytes) (io io' : Io) :
    (certToFile { S with keeps := keeps } der name io').2 = (certToFile S der name io).2 := by
  unfold certToFile
  simp only
  split
  · cases O.d2iX509 der <;> rfl
  · rfl

theorem keyToFile_disk {O : Ossl} (S : Sys O) (keeps : Bytes → Bytes → Bytes) (der name : Bytes) (io io' : Io) :
    (keyToFile { S with keeps := keeps } der name io').2 = (keyToFile S der name io).2 := by
  unfold keyToFile
  simp only
  split
  · cases O.d2iKey der <;> rfl
  · rfl

theorem sign_disk {O : Ossl} (S : Sys O) (keeps : Bytes → Bytes → Bytes) (e : PledgeEnv) (g : Gen) (net : Net) (alC alK : Allocator)
    (o : Bytes) (io : Io) (h : Heap) :
    (sign { S with keeps := keeps } e g net alC alK o io h).bind (fun r => .ok (r.ok, r.io.out, r.sent, r.heap)) =
      (sign S e g net alC alK o io h).bind (fun r => .ok (r.ok, r.io.out, r.sent, r.heap)) := by
  unfold sign
  cases postSignCert O e g net h with
  | ub => rfl
  | ok x =>
    simp only [bind'_ok]
    cases x.out with
    | none => rfl
    | some ck =>
      obtain ⟨c, k⟩ := ck
      simp only
      cases x.heap.read c with
      | ub => rfl
      | ok cert =>
        cases x.heap.read k with
        | ub => rfl
        | ok key =>
          simp only [bind'_ok]
          split
          · rfl
          · rw [certToFile_disk S keeps cert _ io io]
            have c1 := certToFile_out S cert (outName o (str ".crt")) io
            have c2 := certToFile_out { S with keeps := keeps } cert (outName o (str ".crt")) io
            generalize certToFile S cert (outName o (str ".crt")) io = X at c1
            generalize certToFile { S with keeps := keeps } cert (outName o (str ".crt")) io = X' at c2
            split
            · rw [keyToFile_disk S keeps key _ X.1 X'.1]
              have k1 := (keyToFile_inv S key (outName o (str ".key")) X.1).1.1
              have k2 := (keyToFile_inv { S with keeps := keeps } key (outName o (str ".key")) X'.1).1.1
              generalize keyToFile S key (outName o (str ".key")) X.1 = Y at k1
              generalize keyToFile { S with keeps := keeps } key (outName o (str ".key")) X'.1 = Y' at k2
              split
              · cases freeAll x.heap [some c, some k] with
                | ub => rfl
                | ok h' => simp only [bind'_ok, k1, k2, c1, c2]
              · simp only [bind'_ok, k1, k2, c1, c2]
            · simp only [bind'_ok, c1, c2]

/-- A full disc: whatever becomes of the bytes written, `sign` ends in the same way. -/
theorem C83_full_disk {O : Ossl} (W : World O) (keeps : Bytes → Bytes → Bytes) (args : List Bytes) (o : Opts)
    (hopt : processOptions W.help args = .ok (.run o .signCert)) (m : Mem) (io : Io) (h : Heap) (r : Ended)
    (he : main W args m io h = .ok (.ran .signCert r)) :
    ∃ r', main (onDisk W keeps) args m io h = .ok (.ran .signCert r') ∧ r'.ok = r.ok ∧ r'.io.out = r.io.out ∧ r'.sent = r.sent := by
  unfold main at he ⊢
  have hprep : prepare (onDisk W keeps).help (onDisk W keeps).conf (onDisk W keeps).dup (onDisk W keeps).ini (onDisk W keeps).port args m =
    prepare W.help W.conf W.dup W.ini W.port args m := rfl
  rw [hprep]
  cases hp : prepare W.help W.conf W.dup W.ini W.port args m with
  | ub => rw [hp] at he; cases he
  | ok p =>
    rw [hp, bind'_ok] at he
    rw [bind'_ok]
    cases p with
    | exit s _ => cases he
    | go o' cmd m' c port =>
      simp only at he ⊢
      have hcmd : o' = o ∧ cmd = .signCert := by
        unfold prepare at hp
        rw [hopt, bind'_ok] at hp
        simp only [reduceCtorEq, if_false] at hp
        cases hl : loadConfig W.conf (W.ini o.config) m fun _ => none with
        | ub => rw [hl] at hp; cases hp
        | ok q =>
          rw [hl, bind'_ok] at hp
          split at hp
          · cases ha : applyOverrides W.dup o .signCert q.1 q.2.1 (W.port o.config) with
            | ub => rw [ha] at hp; cases hp
            | ok z =>
              rw [ha, bind'_ok] at hp
              split at hp
              · cases hp; exact ⟨rfl, rfl⟩
              · cases hf : freeConfig z.1 z.2.1 with
                | ub => rw [hf] at hp; cases hp
                | ok y => rw [hf] at hp; cases hp
          · cases hf : freeConfig q.1 q.2.1 with
            | ub => rw [hf] at hp; cases hp
            | ok y => rw [hf] at hp; cases hp
      obtain ⟨rfl, rfl⟩ := hcmd
      simp only [command] at he ⊢
      rw [show envOf (onDisk W keeps) m' c = envOf W m' c from rfl]
      cases hev : envOf W m' c with
      | ub => rw [hev] at he; cases he
      | ok e =>
        rw [hev, bind'_ok] at he
        rw [bind'_ok]
        have hd := sign_disk W.sys keeps e W.gen (W.net (e.address.getD []) port) (W.outAl 0) (W.outAl 1) o'.outFile io h
        change ∃ r', ((sign { W.sys with keeps := keeps } e W.gen (W.net (e.address.getD []) port) (W.outAl 0) (W.outAl 1) o'.outFile io h).bind
          fun r => Outcome.ok (Done.ran .signCert r)).bind _ = _ ∧ _
        cases hs : sign W.sys e W.gen (W.net (e.address.getD []) port) (W.outAl 0) (W.outAl 1) o'.outFile io h with
        | ub => rw [hs] at he; cases he
        | ok x =>
          rw [hs, bind'_ok] at he hd
          cases hs' : sign { W.sys with keeps := keeps } e W.gen (W.net (e.address.getD []) port) (W.outAl 0) (W.outAl 1) o'.outFile io h with
          | ub => rw [hs'] at hd; cases hd
          | ok x' =>
            rw [hs', bind'_ok] at hd
            rw [bind'_ok] at he ⊢
            cases hf : freeConfig m' c with
            | ub => rw [hf] at he; cases he
            | ok z =>
              rw [hf, bind'_ok] at he
              cases he
              simp only [Outcome.ok.injEq, Prod.mk.injEq] at hd
              exact ⟨x', by rw [bind'_ok, bind'_ok], hd.1, hd.2.1, hd.2.2.1⟩

/-- A registrar that sends something else than a certificate, or a certificate that cannot be written: `sign` fails and the old
content of the file is gone. -/
theorem C83_failed_file {O : Ossl} (hsm : Small O) {W : World O} (hs : SoundHost W) (hM : Machine W) {args : List Bytes} {o : Opts}
    (hopt : processOptions W.help args = .ok (.run o .signCert)) {m : Mem} (hw : Wf m) {io : Io} {h : Heap} {d : Done}
    (he : main W args m io h = .ok d) (hne : o.outFile ≠ []) (hop : ∀ n, W.sys.opens n = true)
    (hbad : ∀ a p ca t s b crt, (W.net a p).enrol ca t = some (s, b) → BodyDecodes W.gen.al W.gen.blk b crt →
      pemOf O.d2iX509 W.sys.pemCert crt = none) :
    Quiet io d ∨ ∃ r crt, d = .ran .signCert r ∧ r.ok = false ∧ r.io.files (storedAs o.outFile (str ".crt")) =
      some (W.sys.keeps (storedAs o.outFile (str ".crt")) (begun O.d2iX509 W.sys.pemCert crt)) := by
  rcases C83_sign hsm hs hM hopt hw he with hq | ⟨r, f, e, a1, r1, cms, a2, r2, pin, key, own, s, body, crt, hd, -, -, hx⟩
  · exact .inl hq
  · obtain ⟨-, -, -, -, -, -, -, -, henr, -, hdec, -, -, -, -, s5⟩ := hx
    exact .inr ⟨r, crt, hd, s5 hne (hop _) (hbad _ _ _ _ _ _ _ henr hdec)⟩

/-! ### Instances -/

theorem demoNet_second {c1 c2 body crt t : Bytes} {a : Answer} (h : (demoNet c1 c2 body crt).second t = some a) : a.body = body := by
  simp only [demoNet, Option.some.injEq] at h
  subst h
  rfl

/-- A world with another system. -/
def withSys {O : Ossl} (W : World O) (S : Sys O) : World O := { W with sys := S }

theorem onDisk_withSys {O : Ossl} (W : World O) (S : Sys O) (keeps : Bytes → Bytes → Bytes) :
    onDisk (withSys W S) keeps = withSys W { S with keeps := keeps } := rfl

/-- The instance on another system. -/
def hostOn (crt : Bytes → Bytes → Option (Nat × Bytes)) (S : Sys toy) : World toy := withSys (demoHost crt) S

theorem onDisk_hostOn (crt : Bytes → Bytes → Option (Nat × Bytes)) (S : Sys toy) (keeps : Bytes → Bytes → Bytes) :
    onDisk (hostOn crt S) keeps = hostOn crt { S with keeps := keeps } := onDisk_withSys _ _ _

theorem host_sane (crt : Bytes → Bytes → Option (Nat × Bytes)) (S : Sys toy) : SoundHost (hostOn crt S) where
  conf := fun _ _ => .inr (.inr fun _ => rfl)
  lists := fun _ _ => .inr ⟨rfl, rfl⟩
  lines := fun n f hf => by
    simp only [hostOn, withSys, demoHost] at hf
    split at hf
    · cases hf; decide
    · cases hf

theorem host_machine (crt : Bytes → Bytes → Option (Nat × Bytes)) (S : Sys toy)
    (hc : ∀ ca t s b, crt ca t = some (s, b) → (cstr b).length < 2 ^ 63) : Machine (hostOn crt S) where
  blk := rfl
  genBlk := rfl
  inbuf := List.length_replicate
  second := fun a p t ans h => by
    simp only [hostOn, withSys, demoHost] at h
    split at h
    · rw [demoNet_second (c1 := [7]) (c2 := [7]) (crt := []) (t := t) h]
      exact demoVoucher_length
    · cases h
  enrol := fun a p ca t s b h => by
    simp only [hostOn, withSys, demoHost] at h
    split at h
    · exact hc _ _ _ _ h
    · cases h

theorem host_main {crt : Bytes → Bytes → Option (Nat × Bytes)} (S : Sys toy) {args : List Bytes} {o : Opts} {cmd : Command}
    {t : Option Bytes} (hp : prepView (demoHost crt) args = some ⟨o, cmd, 443, confView demoPledge, t⟩) (io : Io) (h : Heap) :
    ∃ m c, envOf (hostOn crt S) m c = .ok demoPledge ∧ strOf m (c (.str .registrar .tlsCert)) = .ok t ∧
      main (hostOn crt S) args mem0 io h = command (hostOn crt S) o cmd m c 443 io h :=
  main_prep (W := hostOn crt S) hp rfl io h

/-- `sign` after a successful onboarding. -/
theorem sign_of {O : Ossl} {S : Sys O} {e : PledgeEnv} {g : Gen} {net : Net} {alC alK : Allocator} {o : Bytes} {io : Io} {h h' : Heap}
    {x : Enrolled} {c k : Nat} {cert key : Bytes} (hx : postSignCert O e g net h = .ok x) (hout : x.out = some (c, k))
    (hc : x.heap.blk c = some cert) (hk : x.heap.blk k = some key) (ho : o ≠ []) (hf : freeAll x.heap [some c, some k] = .ok h') :
    ∃ r, sign S e g net alC alK o io h = .ok r ∧
      let a := certToFile S cert (outName o (str ".crt")) io
      let b := keyToFile S key (outName o (str ".key")) a.1
      r.ok = (a.2 && b.2) ∧ r.io = if a.2 then b.1 else a.1 := by
  unfold sign
  rw [hx, bind'_ok, hout]
  simp only [Heap.read, hc, hk, bind'_ok, if_neg ho]
  split
  · rename_i h1
    split
    · rename_i h2
      rw [hf, bind'_ok]
      exact ⟨_, rfl, by rw [h1, h2]; rfl, rfl⟩
    · rename_i h2
      exact ⟨_, rfl, by simp [h2], rfl⟩
  · rename_i h1
    exact ⟨_, rfl, by simp [h1], rfl⟩

theorem command_sign {O : Ossl} {W : World O} {o : Opts} {m : Mem} {c : Conf} {p : Nat} {io : Io} {h : Heap} {e : PledgeEnv} {r : Ended}
    (he : envOf W m c = .ok e)
    (hs : sign W.sys e W.gen (W.net (e.address.getD []) p) (W.outAl 0) (W.outAl 1) o.outFile io h = .ok r) :
    command W o .signCert m c p io h = .ok (.ran .signCert r) := by
  simp only [command, he, bind'_ok]
  rw [hs, bind'_ok]

theorem demo_padding : ¬ BadPadding (padded (cstr demoVoucherText)) := by
  rw [← decBlocks_none_iff]
  decide +kernel

/-- The registrar of the instance issues the certificate 09. -/
def issues : Bytes → Bytes → Option (Nat × Bytes) := fun _ _ => some (200, str "CQ==")

theorem issues_sized : ∀ ca t s b, issues ca t = some (s, b) → Sized demoGen.blk b ∧ ¬ BadPadding (padded (cstr b)) := fun ca t s b h => by
  cases h
  refine ⟨⟨rfl, by decide +kernel⟩, ?_⟩
  rw [← decBlocks_none_iff]
  decide +kernel

/-- The network of the instance. -/
theorem host_net (S : Sys toy) : (hostOn issues S).net (demoPledge.address.getD []) 443 = demoNet [7] [7] demoVoucherText (str "CQ==") := rfl

/-- The network of the instance satisfies what `C66_partial` and the theorems on memory ask for. -/
theorem issues_net : NetSized demoPledge demoGen (demoNet [7] [7] demoVoucherText (str "CQ==")) ∧
    ∀ t a, (demoNet [7] [7] demoVoucherText (str "CQ==")).second t = some a → ¬ BadPadding (padded (cstr a.body)) :=
  ⟨⟨(demoNet_sized [7] [7] demoVoucherText (str "CQ==") demoVoucher_length).2, fun ca t s b hb => (issues_sized ca t s b hb).1⟩,
    fun t a ha => by rw [demoNet_second ha]; exact demo_padding⟩

/-- A run of `sign` on the instance. -/
theorem host_run (S : Sys toy) {args : List Bytes} {o : Opts} {t : Option Bytes}
    (hp : prepView (demoHost issues) args = some ⟨o, .signCert, 443, confView demoPledge, t⟩) (ho : o.outFile ≠ []) (io : Io) :
    ∃ r, main (hostOn issues S) args mem0 io Heap.empty = .ok (.ran .signCert r) ∧
      let a := certToFile S [9] (outName o.outFile (str ".crt")) io
      let b := keyToFile S [5] (outName o.outFile (str ".key")) a.1
      r.ok = (a.2 && b.2) ∧ r.io = if a.2 then b.1 else a.1 := by
  obtain ⟨x, c, k, hx, hout, hc, hk⟩ := enrolView_some demo_onboarding
  obtain ⟨x', hx', hown⟩ := C66_partial toy demoPledge demoGen (demoNet [7] [7] demoVoucherText (str "CQ==")) Heap.empty
    toy_small demo_ready issues_net.1 Heap.wf_empty issues_net.2 (fun ca t s b hb => (issues_sized ca t s b hb).2)
  rw [hx] at hx'
  cases hx'
  rw [hout] at hown
  obtain ⟨h', hf, -⟩ := owns_release Heap.wf_empty [some c, some k] [] hown
  obtain ⟨m, cf, e1, e2, e3⟩ := host_main S hp io Heap.empty
  obtain ⟨r, hs, hr⟩ := sign_of (S := (hostOn issues S).sys) (alC := (hostOn issues S).outAl 0) (alK := (hostOn issues S).outAl 1)
    (g := (hostOn issues S).gen) (net := (hostOn issues S).net (demoPledge.address.getD []) 443)
    (io := io) (by rw [host_net]; exact hx) hout hc hk ho hf
  exact ⟨r, e3.trans (command_sign e1 hs), hr⟩

/-- Every file can be opened but those with the given name. -/
def lockedBut (n : Bytes) : Sys toy := { (demoHost issues).sys with opens := fun m => !decide (m = n) }

/-- Files before the run: `x.crt` has the content 01. -/
def oldIo : Io := ⟨[], fun n => if n = str "x.crt" then some [1] else none⟩

theorem host_options_sign : processOptions (hostOn issues (demoHost issues).sys).help [str "sign", str "-c", str "ini", str "-o", str "x"] =
    .ok (.run ⟨false, str "ini", [], str "x", 0, []⟩ .signCert) := by decide +kernel

theorem host_options_long : processOptions (hostOn issues (demoHost issues).sys).help [str "sign", str "-c", str "ini", str "-o", longName] =
    .ok (.run ⟨false, str "ini", [], longName, 0, []⟩ .signCert) := by decide +kernel

/-- The name is too long: success is reported, but there is no certificate under the name that was asked for. -/
theorem C83_violated : ¬ C83_statement := by
  intro h
  obtain ⟨r, hr, hok, hio⟩ := host_run (demoHost issues).sys (host_long issues) (by decide) emptyIo
  have ht : r.ok = true := by rw [hok]; decide +kernel
  obtain ⟨key, crt, body, c, k, -, -, -, -, -, hc, -⟩ := (h toy (hostOn issues (demoHost issues).sys) _ _ mem0 emptyIo Heap.empty r toy_small (host_sane _ _)
    (host_machine _ _ fun ca t s b hb => (issues_sized ca t s b hb).1.2) wf_mem0 host_options_long (by decide) (by decide) hr).1 ht
  rw [hio] at hc
  exact absurd hc (by
    have : (if (certToFile (demoHost issues).sys [9] (outName longName (str ".crt")) emptyIo).2 = true then
        (keyToFile (demoHost issues).sys [5] (outName longName (str ".key"))
          (certToFile (demoHost issues).sys [9] (outName longName (str ".crt")) emptyIo).1).1
      else (certToFile (demoHost issues).sys [9] (outName longName (str ".crt")) emptyIo).1).files (longName ++ str ".crt") = none := by decide +kernel
    intro hc
    cases this.symm.trans hc)

/-- The key file cannot be opened: `sign` fails, but the old certificate has been overwritten. -/
theorem C83_violated_failure : ¬ C83_statement := by
  intro h
  obtain ⟨r, hr, hok, hio⟩ := host_run (lockedBut (str "x.key")) (host_sign issues) (by decide) oldIo
  have ht : r.ok = false := by rw [hok]; decide +kernel
  have := (h toy (hostOn issues (lockedBut (str "x.key"))) _ _ mem0 oldIo Heap.empty r toy_small (host_sane _ _)
    (host_machine _ _ fun ca t s b hb => (issues_sized ca t s b hb).1.2) wf_mem0 host_options_sign (by decide) (by decide) hr).2 ht
  have := congrFun this (str "x.crt")
  rw [hio] at this
  revert this
  decide +kernel

/-- Non-vacuity of C83_partial and C83_sign: the files `x.crt` and `x.key` get certificate 09 and key 05. -/
example : ∃ r, main (hostOn issues (demoHost issues).sys) [str "sign", str "-c", str "ini", str "-o", str "x"] mem0 oldIo Heap.empty =
    .ok (.ran .signCert r) ∧ r.ok = true ∧ r.io.files (str "x.crt") = some [80, 9] ∧ r.io.files (str "x.key") = some [75, 5] ∧
    Small toy ∧ SoundHost (hostOn issues (demoHost issues).sys) ∧ Machine (hostOn issues (demoHost issues).sys) ∧ Wf mem0 := by
  obtain ⟨r, hr, hok, hio⟩ := host_run (demoHost issues).sys (host_sign issues) (by decide) oldIo
  refine ⟨r, hr, ?_, ?_, ?_, toy_small, host_sane _ _, host_machine _ _ fun ca t s b hb => (issues_sized ca t s b hb).1.2, wf_mem0⟩
  · rw [hok]; decide +kernel
  · rw [hio]; decide +kernel
  · rw [hio]; decide +kernel

/-- Non-vacuity of C83_long_name: the key 05 is all there is in the only file. -/
example : ∃ r, main (hostOn issues (demoHost issues).sys) [str "sign", str "-c", str "ini", str "-o", longName] mem0 emptyIo Heap.empty =
    .ok (.ran .signCert r) ∧ r.ok = true ∧ r.io.files longName = some [75, 5] ∧ r.io.files (longName ++ str ".crt") = none := by
  obtain ⟨r, hr, hok, hio⟩ := host_run (demoHost issues).sys (host_long issues) (by decide) emptyIo
  refine ⟨r, hr, ?_, ?_, ?_⟩
  · rw [hok]; decide +kernel
  · rw [hio]; decide +kernel
  · rw [hio]; decide +kernel

/-- Non-vacuity of C83_full_disk: on a disc that keeps nothing `sign` succeeds and the files are empty. -/
example : ∃ r, main (onDisk (hostOn issues (demoHost issues).sys) fun _ _ => []) [str "sign", str "-c", str "ini", str "-o", str "x"] mem0 oldIo
    Heap.empty = .ok (.ran .signCert r) ∧ r.ok = true ∧ r.io.files (str "x.crt") = some [] ∧ r.io.files (str "x.key") = some [] := by
  rw [onDisk_hostOn]
  obtain ⟨r, hr, hok, hio⟩ := host_run { (demoHost issues).sys with keeps := fun _ _ => [] } (host_sign issues) (by decide) oldIo
  refine ⟨r, hr, ?_, ?_, ?_⟩
  · rw [hok]; decide +kernel
  · rw [hio]; decide +kernel
  · rw [hio]; decide +kernel

/-- Non-vacuity of C83_failed_file: OpenSSL cannot write the certificate; the old content of `x.crt` is gone. -/
example : ∃ r, main (hostOn issues { (demoHost issues).sys with pemCert := fun _ => ([80], false) })
    [str "sign", str "-c", str "ini", str "-o", str "x"] mem0 oldIo Heap.empty = .ok (.ran .signCert r) ∧ ¬ Quiet oldIo (.ran .signCert r) ∧
    r.ok = false ∧ r.io.files (str "x.crt") = some [80] := by
  obtain ⟨r, hr, hok, hio⟩ := host_run { (demoHost issues).sys with pemCert := fun _ => ([80], false) } (host_sign issues) (by decide) oldIo
  have hf : r.io.files (str "x.crt") = some [80] := by rw [hio]; decide +kernel
  refine ⟨r, hr, ?_, by rw [hok]; decide +kernel, hf⟩
  rintro (h | ⟨cmd, r', h, -, h2⟩)
  · cases h
  · cases h
    rw [h2] at hf
    exact absurd hf (by decide)

end Brski.Props
