import Verif.Pledge
import Verif.PropsPledge

/-!
# Runs of the pledge instance
-/

namespace Brski.Props
open Outcome Brski.Voucher VoucherJson Crypto BoolTime Request Base64 Server Brski.Spec Pledge

/-- A pledge for instances: serial number "S1", nonce 01, signing certificate and key 03, trusting MASA 01. -/
def demoPledge : PledgeEnv where
  address := some (str "localhost")
  keyPath := some (str "key")
  certPath := some (str "cert")
  lib := TimeLib.plain
  createdOn := none
  now := some ⟨1, 2, 3, 4, 5, 120, 0, 0, 0⟩
  nonce := some (str "AQ==")
  serial := some (str "S1")
  signCert := .der [3]
  signKey := .der [3]
  additional := .absent
  verifyCerts := .absent
  verifyStore := .list [([1], 0)]
  nonceMem := fun _ => true
  nonceAl := fun _ => zeroAllocator
  blk := [0, 0, 0, 0]
  reqRt := Rt.plain
  reqOut := zeroAllocator
  bufMem := fun _ => true
  masaAl := zeroAllocator
  verRt := Rt.plain

/-- A registrar that presents `c1` on the first and `c2` on the second connection and answers with `body`; enrolments
are answered with `crt`. -/
def demoNet (c1 c2 body crt : Bytes) : Net where
  first := some ⟨400, some c1, []⟩
  second := fun _ => some ⟨200, some c2, body⟩
  enrol := fun _ _ => some (200, crt)

/-- The text of the voucher of the instance (`demoIssuedText` signed by 01). -/
def demoVoucherText : Bytes :=
  str "AXsiaWV0Zi12b3VjaGVyOnZvdWNoZXIiOnsiZXhwaXJlcy1vbiI6IjIwMzAtMDEtMDFUMDA6MDA6MDBaIiwiYXNzZXJ0aW9uIjoicHJveGltaXR5Iiwic2VyaWFsLW51bWJlciI6IlMxIiwicGlubmVkLWRvbWFpbi1jZXJ0IjoiQ0E9PSIsImRvbWFpbi1jZXJ0LXJldm9jYXRpb24tY2hlY2tzIjpmYWxzZSwibm9uY2UiOiJBUT09In19"

/-- What a caller sees of a run: acceptance and the pinned certificate (`none`: undefined). -/
def ranView : Outcome Ran → Option (Option (Option Bytes) × Nat)
  | .ub => none
  | .ok r => some (r.pinned.map r.heap.blk, r.sent.length)

/-- What the instance generates: the key 05 and for it the certificate 05 06. -/
def demoGen : Gen where
  prepared := true
  key := some [5]
  cert := fun k => some (k ++ [6])
  caOut := zeroAllocator
  bodyOut := zeroAllocator
  al := zeroAllocator
  blk := [0, 0, 0, 0]

/-- What a caller sees of the onboarding: contents of certificate and key, the number of messages and the number of
blocks left (`none`: undefined). -/
def enrolView : Outcome Enrolled → Option (Option (Option Bytes × Option Bytes) × Nat × Nat)
  | .ub => none
  | .ok r => some (r.out.map fun x => (r.heap.blk x.1, r.heap.blk x.2), r.sent.length,
      ((List.range r.heap.next).filter fun p => (r.heap.blk p).isSome).length)

end Brski.Props
