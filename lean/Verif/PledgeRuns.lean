import Verif.PledgeDemo
import Verif.PropsFlow

/-!
# Runs of the pledge instance
-/

namespace Brski.Props
open Outcome Brski.Voucher VoucherJson Crypto BoolTime Request Base64 Server Brski.Spec Pledge

/-- The run that shows the violation: the two connections end at different servers. -/
theorem demo_run : ranView (postVoucher toy demoPledge (demoNet [7] [66] demoVoucherText []) Heap.empty) =
    some (some (some [8]), 2) := by decide +kernel

/-- The same pledge ten years later. -/
def demoLater : PledgeEnv := { demoPledge with now := some ⟨1, 2, 3, 4, 5, 130, 0, 0, 0⟩ }

/-- The same answer is accepted again ten years later. -/
theorem demo_replay : ranView (postVoucher toy demoLater
    (demoNet [7] [7] demoVoucherText []) Heap.empty) = some (some (some [8]), 2) := by decide +kernel

/-- With another trusted signer (02). -/
theorem demo_untrusted : enrolView (postSignCert toy { demoPledge with verifyStore := .list [([2], 0)] } demoGen
    (demoNet [7] [7] demoVoucherText (str "CQ==")) Heap.empty) = some (none, 2, 0) := by
  decide +kernel

end Brski.Props
