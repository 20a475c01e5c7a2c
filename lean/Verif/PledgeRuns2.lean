import Verif.PledgeDemo
import Verif.PledgeRuns

/-!
# Runs of the pledge instance
-/

namespace Brski.Props
open Outcome Brski.Voucher VoucherJson Crypto BoolTime Request Base64 Server Brski.Spec Pledge

/-- The whole onboarding of the instance, with the certificate 09 as answer: certificate and key are returned, three
messages were sent, two blocks are left. -/
theorem demo_onboarding : enrolView (postSignCert toy demoPledge demoGen
    (demoNet [7] [7] demoVoucherText (str "CQ==")) Heap.empty) = some (some (some [9], some [5]), 3, 2) := by
  decide +kernel

/-- The answer `====` to the voucher request. -/
theorem demo_bad : enrolView (postSignCert toy demoPledge demoGen (demoNet [7] [7] (str "====") []) Heap.empty) = none := by
  decide +kernel

/-- … and the answer `====` to the enrolment. -/
theorem demo_bad_enrolment : enrolView (postSignCert toy demoPledge demoGen (demoNet [7] [7] demoVoucherText (str "====")) Heap.empty) =
    none := by
  decide +kernel

/-- A registrar that sends the certificate back. -/
theorem demo_echo : enrolView (postSignCert toy demoPledge demoGen { demoNet [7] [7] demoVoucherText [] with
    enrol := fun _ body => some (200, body) } Heap.empty) = some (some (some [5, 6], some [5]), 3, 2) := by
  decide +kernel

/-- A pledge with the nonce 02. -/
theorem demo_other_nonce : ranView (postVoucher toy { demoPledge with nonce := some (str "Ag==") } (demoNet [7] [7] demoVoucherText [])
    Heap.empty) = some (none, 2) := by
  decide +kernel

/-- Both connections end at the same server. -/
theorem demo_same : ranView (postVoucher toy demoPledge (demoNet [7] [7] demoVoucherText []) Heap.empty) =
    some (some (some [8]), 2) := by
  decide +kernel

end Brski.Props
