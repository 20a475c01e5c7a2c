import Verif.PropsMain2

/-!
# C83: runs of the other commands
-/

namespace Brski.Props
open Outcome Brski.Voucher DlList Config Cli Crypto Base64 BoolTime Request Server Pledge Main Brski.Spec

theorem endView_done (files : List Bytes) (x : Outcome Ended) (cmd : Command) :
    doneView files (x.bind fun r => .ok (.ran cmd r)) = endView files x := by
  cases x <;> rfl

theorem postVoucher_enrol (O : Ossl) (e : PledgeEnv) (net net' : Net) (h : Heap) (h1 : net.first = net'.first) (h2 : net.second = net'.second) :
    postVoucher O e net h = postVoucher O e net' h := by
  unfold postVoucher
  rw [h1, h2]

theorem command_preq {O : Ossl} {W : World O} {o : Opts} {m : Mem} {c : Conf} {p : Nat} {io : Io} {h : Heap} {e : PledgeEnv} {r : Ended}
    (he : envOf W m c = .ok e) (hs : preq W.sys e (W.net (e.address.getD []) p) (W.outAl 0) o.outFile io h = .ok r) :
    command W o .pledgeRequest m c p io h = .ok (.ran .pledgeRequest r) := by
  simp only [command, he, bind'_ok]
  rw [hs, bind'_ok]

theorem command_vmasa {O : Ossl} {W : World O} {o : Opts} {m : Mem} {c : Conf} {p : Nat} {io : Io} {h : Heap} {e : PledgeEnv}
    (he : envOf W m c = .ok e) (files : List Bytes) {reg : FileRes} (hreg : fileAt W.certs (some o.inFile) = reg) {al : Allocator}
    (hal : W.outAl 0 = al) : doneView files (command W o .verifyMasa m c p io h) =
      endView files (vmasa W.sys e o.inFile reg W.inbuf W.input al o.outFile io h) := by
  simp only [command, he, bind'_ok]
  rw [endView_done, hreg, hal]

theorem command_epvr {O : Ossl} {W : World O} {o : Opts} {m : Mem} {c : Conf} {p : Nat} {io : Io} {h : Heap} {e : PledgeEnv}
    (he : envOf W m c = .ok e) {t : Option Bytes} (ht : strOf m (c (.str .registrar .tlsCert)) = .ok t) (files : List Bytes) {tls : FileRes}
    (htls : fileAt W.certs t = tls) : doneView files (command W o .exportPvr m c p io h) =
      endView files (exportPvr W.sys e tls o.outFile io h) := by
  simp only [command, he, ht, bind'_ok]
  rw [endView_done, htls]

theorem hostOn_sys (crt : Bytes → Bytes → Option (Nat × Bytes)) (S : Sys toy) : (hostOn crt S).sys = S := rfl

theorem hostOn_inbuf (crt : Bytes → Bytes → Option (Nat × Bytes)) (S : Sys toy) : (hostOn crt S).inbuf = List.replicate 4096 0 := rfl

theorem hostOn_input (crt : Bytes → Bytes → Option (Nat × Bytes)) (S : Sys toy) : (hostOn crt S).input = demoVoucherText := by
  simp only [hostOn, withSys, demoHost]

theorem hostOn_tls (crt : Bytes → Bytes → Option (Nat × Bytes)) (S : Sys toy) : fileAt (hostOn crt S).certs (some (str "tls")) = .der [7] := by
  have : (hostOn crt S).certs (str "tls") = some [7] := (show (demoHost fun _ _ => none).certs (str "tls") = some [7] by decide)
  rw [fileAt, this]

/-- `preq` with a voucher that was accepted. -/
theorem preq_of {O : Ossl} {S : Sys O} {e : PledgeEnv} {net : Net} {al : Allocator} {io : Io} {h h' : Heap} {x : Ran} {p : Nat} {pin buf : Bytes}
    {n : Nat} (hx : postVoucher O e net h = .ok x) (hp : x.pinned = some p) (hb : x.heap.blk p = some pin)
    (ha : array2base64str al pin = .ok (some (buf, n))) (hf : freeAll x.heap [some p] = .ok h') :
    preq S e net al [] io h = .ok ⟨true, printText buf io, x.sent, h'⟩ := by
  simp only [preq, hx, bind'_ok, hp, putOut, Heap.read, hb, outputDomainCert, if_true, ha, List.nil_append, hf]

/-- Non-vacuity of C83_preq: the pinned certificate 08 is printed, nothing is left on the heap. -/
example : ∃ r, main (hostOn issues (demoHost issues).sys) [str "preq", str "-c", str "ini"] mem0 emptyIo Heap.empty =
    .ok (.ran .pledgeRequest r) ∧ r.ok = true ∧ r.io.out = str "CA==" ++ [10] ∧ Owns Heap.empty r.heap [] := by
  obtain ⟨x, p, hx, hp, hblk⟩ := ranView_some demo_same
  obtain ⟨x', hx', ho⟩ := postVoucher_owns toy_small demo_ready (demoNet [7] [7] demoVoucherText [])
    (fun t a ha => ⟨(demoNet_sized [7] [7] demoVoucherText [] demoVoucher_length).2 t a ha, fun hd => by
      have := ((dangling_iff _ _ _ ((demoNet_sized [7] [7] demoVoucherText [] demoVoucher_length).2 t a ha).1
        ((demoNet_sized [7] [7] demoVoucherText [] demoVoucher_length).2 t a ha).2).1 hd).2.2
      rw [demoNet_second ha] at this
      exact demo_padding this⟩) Heap.wf_empty (owns_nil Heap.wf_empty)
  rw [hx] at hx'
  cases hx'
  rw [hp] at ho
  obtain ⟨h', hf, ho'⟩ := owns_release Heap.wf_empty [some p] [] ho
  obtain ⟨m, cf, e1, e2, e3⟩ := host_main (demoHost issues).sys (host_preq issues) emptyIo Heap.empty
  have hnet : postVoucher toy demoPledge ((hostOn issues (demoHost issues).sys).net (demoPledge.address.getD []) 443) Heap.empty = .ok x := by
    rw [host_net, ← hx]
    exact postVoucher_enrol toy demoPledge _ _ _ rfl rfl
  refine ⟨_, e3.trans (command_preq e1 (preq_of hnet hp hblk (buf := str "CA==" ++ [0, 0]) (n := 4) ?_ hf)), rfl, by show [] ++ (cstr _ ++ [10]) = _; decide, ho'⟩
  exact (show array2base64str zeroAllocator [8] = .ok (some (str "CA==" ++ [0, 0], 4)) by decide +kernel)

/-- Non-vacuity of C83_vmasa: the certificate 08 is printed; the decoded voucher is left. -/
example : doneView [] (main (hostOn issues (demoHost fun _ _ => none).sys) [str "vmasa", str "-c", str "ini", str "-i", str "tls"] mem0 emptyIo
    Heap.empty) = some (true, str "CA==" ++ [10], [], 0, 1) := by
  obtain ⟨m, cf, e1, e2, e3⟩ := host_main (demoHost fun _ _ => none).sys (host_vmasa issues) emptyIo Heap.empty
  rw [e3, command_vmasa e1 [] (hostOn_tls _ _) (al := zeroAllocator) rfl, hostOn_sys, hostOn_inbuf, hostOn_input]
  exact demo_vmasa

/-- Non-vacuity of C83_epvr: the file `x.smime` is there afterwards, nothing is left on the heap. -/
example : (doneView [str "x.smime"] (main (hostOn issues (demoHost fun _ _ => none).sys) [str "epvr", str "-c", str "ini", str "-o", str "x"] mem0
    emptyIo Heap.empty)).map (fun v => (v.1, v.2.2.1.map Option.isSome, v.2.2.2.2)) = some (true, [true], 0) := by
  obtain ⟨m, cf, e1, e2, e3⟩ := host_main (demoHost fun _ _ => none).sys (host_epvr issues) emptyIo Heap.empty
  rw [e3, command_epvr e1 e2 [str "x.smime"] (hostOn_tls _ _), hostOn_sys]
  exact demo_epvr

/-- Non-vacuity of C83_serial. -/
example : doneView [] (main (demoHost fun _ _ => none) [str "serial", str "-i", str "tls"] mem0 emptyIo Heap.empty) =
    some (true, str "S1", [], 0, 0) ∧ (∀ b i, CleanKv ((demoHost fun _ _ => none).nameAl b i)) ∧
    processOptions (demoHost fun _ _ => none).help [str "serial", str "-i", str "tls"] = .ok (.run ⟨false, [], str "tls", [], 0, []⟩ .getSerial) :=
  ⟨demo_serial, fun _ _ => .inr ⟨rfl, rfl, rfl⟩, by decide +kernel⟩

/-- Non-vacuity of C83_sign_memory and C83_vmasa_memory. -/
example : Ready demoPledge ∧ NetSized demoPledge demoGen (demoNet [7] [7] demoVoucherText (str "CQ==")) ∧
    (∀ t a, (demoNet [7] [7] demoVoucherText (str "CQ==")).second t = some a → ¬ BadPadding (padded (cstr a.body))) ∧
    (∀ ca t s b, issues ca t = some (s, b) → ¬ BadPadding (padded (cstr b))) ∧ demoPledge.blk.length = 4 ∧
    demoVoucherText.length < 4096 ∧ ¬ BadPadding (padded demoVoucherText) := by
  refine ⟨demo_ready, issues_net.1, issues_net.2, fun ca t s b hb => (issues_sized ca t s b hb).2, rfl, by decide +kernel, ?_⟩
  rw [← decBlocks_none_iff]
  decide +kernel

end Brski.Props
