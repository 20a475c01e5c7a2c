import Verif.MainDemo

/-!
# Runs of the instance
-/

namespace Brski.Props
open Outcome DlList Config Cli Crypto Base64 BoolTime Server Pledge Main

/-- What an observer sees of the end of a command. -/
def endView (files : List Bytes) (x : Outcome Ended) : Option (Bool × Bytes × List (Option Bytes) × Nat × Nat) :=
  doneView files (x.bind fun r => .ok (.ran .verifyMasa r))

theorem demo_vmasa : endView [] (vmasa (demoHost fun _ _ => none).sys demoPledge (str "tls") (.der [7]) (List.replicate 4096 0)
    demoVoucherText zeroAllocator [] emptyIo Heap.empty) = some (true, str "CA==" ++ [10], [], 0, 1) := by decide +kernel

theorem demo_epvr : (endView [str "x.smime"] (exportPvr (demoHost fun _ _ => none).sys demoPledge (.der [7]) (str "x") emptyIo Heap.empty)).map
    (fun v => (v.1, v.2.2.1.map Option.isSome, v.2.2.2.2)) = some (true, [true], 0) := by decide +kernel

theorem demo_serial : doneView [] (main (demoHost fun _ _ => none) [str "serial", str "-i", str "tls"] mem0 emptyIo Heap.empty) =
    some (true, str "S1", [], 0, 0) := by decide +kernel

end Brski.Props
