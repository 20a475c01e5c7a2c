import Verif.Crypto
import Verif.Log

/-!
# The three functions that sign vouchers (model)

`sign_eccms_voucher`, `sign_rsacms_voucher` (/repo/src/voucher/voucher.c:875-969) beside `sign_cms_voucher` (`signCmsVoucher`
of `Crypto`).
-/

namespace Brski.Sign
open Outcome Brski.Voucher VoucherJson Crypto

/-- `log_trace("%s", text)`, /repo/src/voucher/voucher.c:896 with /repo/src/utils/log.h:57-58: if the message is not
suppressed (level `LOGC_TRACE` = 0, /repo/src/utils/log.c:164-171) it is printed with `vfprintf`; `%s` with a NULL pointer is
undefined. -/
def logTrace (L : Log.Settings) (text : Option Bytes) : Outcome Unit :=
  if Log.checkLevel L 0 false then .ok ()
  else match text with
    | some _ => .ok ()
    | none => .ub

/-- `sign_eccms_voucher` for a non-NULL voucher, /repo/src/voucher/voucher.c:875-922.  `readKey` is `crypto_eckey2context`
(/repo/src/voucher/crypto_ossl.c:555-564).  The text is logged before it is checked. -/
def signEccmsVoucher (O : Ossl) (readKey : Bytes → Option O.Key) (L : Log.Settings) (env : Env) (v : Voucher)
    (cert key : Option BinArr) (certs : Option CertList) : Outcome (Option Bytes) :=
  match cert, key with
  | some cert, some key =>
    (serialize env v).bind fun s =>
    (logTrace L s).bind fun _ =>
    match s with
    | none => .ok none
    | some s => signCmsBy O readKey s cert key certs
  | _, _ => .ok none

/-- `sign_rsacms_voucher` for a non-NULL voucher, /repo/src/voucher/voucher.c:924-968.  `readKey` is `crypto_rsakey2context`
(/repo/src/voucher/crypto_ossl.c:566-576). -/
def signRsacmsVoucher (O : Ossl) (readKey : Bytes → Option O.Key) (env : Env) (v : Voucher)
    (cert key : Option BinArr) (certs : Option CertList) : Outcome (Option Bytes) :=
  match cert, key with
  | some cert, some key =>
    (serialize env v).bind fun s =>
    match s with
    | none => .ok none
    | some s => signCmsBy O readKey s cert key certs
  | _, _ => .ok none

end Brski.Sign
