import Verif.PropsSend
import Verif.PropsServer
import Verif.PropsEnroll

/-!
# C127 for the handlers of the MASA and of the enrolment
-/

namespace Brski.Props
open Outcome Brski.Voucher VoucherJson Crypto BoolTime Request Base64 Brski.Spec Server Routes Wire Send

/-- A base64 text does not begin like a reply. -/
theorem rfc_not_reply (b p : Bytes) (hp : (32 : UInt8) ∈ p) : ¬ p <+: rfc4648 b := by
  intro h
  have := rfc4648_chars b 32 (h.subset hp)
  exact absurd this (by decide)

/-- **C127** for voucher requests to the MASA: whatever happens while the reply is sent, the client gets an error, or the base64 text of a
voucher issued for exactly its request, or the refusal the MASA sent. -/
theorem C127_masa (O : Ossl) (hsm : Small O) (e : MasaEnv) (hblk : e.blk.length = 4) (body : Bytes) (hsz : (cstr body).length < 2 ^ 63)
    (h : Heap) (ctx : Option Nat) (r : Server.Reply) (he : masaRequestVoucher O e body h ctx = .ok r) (mp : Multipart)
    (dyn : List Field → Bytes → Endpoint → Routes.Reply) (close : Bool) (ts : List Try) (host ctype : Bytes)
    (hp : Postable host (str "/.well-known/brski/requestvoucher") ctype body)
    (hdyn : dyn (clientFields host ctype body) body .masaRequestVoucher = ⟨r.status, r.body⟩)
    (hb : ∀ e, (dyn (clientFields host ctype body) body e).body.length < 2 ^ 64) :
    Send.exchange masaRoutes mp dyn close ts host (str "/.well-known/brski/requestvoucher") ctype body = ok none ∨
    (∃ c cms, BodyDecodes e.al e.blk body c ∧ Issued O e c cms ∧
      Send.exchange masaRoutes mp dyn close ts host (str "/.well-known/brski/requestvoucher") ctype body =
        ok (some (200, rfc4648 cms))) ∨
    (r.status = 400 ∧ Send.exchange masaRoutes mp dyn close ts host (str "/.well-known/brski/requestvoucher") ctype body =
        ok (some (400, str "Router error"))) := by
  have hr : routing masaRoutes ⟨.post, str "/.well-known/brski/requestvoucher"⟩ = some (some .masaRequestVoucher) := by decide +kernel
  have key := C127_partial masaRoutes mp dyn close ts host _ ctype body hp .masaRequestVoucher hr ⟨r.status, r.body⟩ (by rw [hdyn]; rfl)
  rcases C40_answer O hsm e hblk body hsz h ctx r he with ⟨hs, c, cms, h1, h2, h3⟩ | ⟨hs, h3⟩
  · rcases key (by simp [hs]) hb (by rw [h3]; exact rfc_not_reply cms _ (by decide)) (by rw [h3]; exact rfc_not_reply cms _ (by decide))
      with hx | hx
    · exact .inl hx
    · refine .inr (.inl ⟨c, cms, h1, h2, ?_⟩)
      rw [hx]
      simp [hs, h3]
  · rcases key (by simp [hs]) hb (by simp [h3, str]) (by simp [h3, str]) with hx | hx
    · exact .inl hx
    · refine .inr (.inr ⟨hs, ?_⟩)
      rw [hx]
      simp [hs, h3]

/-- **C127** for enrolments: whatever happens while the reply is sent, the client gets an error, or the base64 text of the certificate
issued for exactly its request, or the refusal the registrar sent. -/
theorem C127_enrol (O : Ossl) (e : EnrollEnv O) (hblk : e.blk.length = 4) (client : Option O.Cert) (body : Bytes)
    (hsz : (cstr body).length < 2 ^ 63) (h : Heap) (r : EnrollReply) (he : simpleEnroll O e client body h = .ok r) (mp : Multipart)
    (dyn : List Field → Bytes → Endpoint → Routes.Reply) (close : Bool) (ts : List Try) (host ctype : Bytes)
    (hp : Postable host (str "/.well-known/est/simpleenroll") ctype body)
    (hdyn : dyn (clientFields host ctype body) body .registrarSimpleEnroll = ⟨r.status, r.body⟩)
    (hb : ∀ e, (dyn (clientFields host ctype body) body e).body.length < 2 ^ 64) :
    Send.exchange registrarRoutes mp dyn close ts host (str "/.well-known/est/simpleenroll") ctype body = ok none ∨
    (∃ c ca x y z k der, BodyDecodes e.al e.blk body c ∧ IssuedCert O e c ca x y z k der ∧
      Send.exchange registrarRoutes mp dyn close ts host (str "/.well-known/est/simpleenroll") ctype body =
        ok (some (200, rfc4648 der))) ∨
    (r.status = 400 ∧ Send.exchange registrarRoutes mp dyn close ts host (str "/.well-known/est/simpleenroll") ctype body =
        ok (some (400, str "Router error"))) := by
  have hr : routing registrarRoutes ⟨.post, str "/.well-known/est/simpleenroll"⟩ = some (some .registrarSimpleEnroll) := by decide +kernel
  have key := C127_partial registrarRoutes mp dyn close ts host _ ctype body hp .registrarSimpleEnroll hr ⟨r.status, r.body⟩
    (by rw [hdyn]; rfl)
  rcases C59_issued O e hblk client body hsz h r he with ⟨hs, c, ca, x, y, z, k, der, h1, h2, h3⟩ | ⟨hs, h3⟩
  · rcases key (by simp [hs]) hb (by rw [h3]; exact rfc_not_reply der _ (by decide)) (by rw [h3]; exact rfc_not_reply der _ (by decide))
      with hx | hx
    · exact .inl hx
    · refine .inr (.inl ⟨c, ca, x, y, z, k, der, h1, h2, ?_⟩)
      rw [hx]
      simp [hs, h3]
  · rcases key (by simp [hs]) hb (by simp [h3, str]) (by simp [h3, str]) with hx | hx
    · exact .inl hx
    · refine .inr (.inr ⟨hs, ?_⟩)
      rw [hx]
      simp [hs, h3]

/-- A certificate gets through after a repetition; without its head the reply is an error; and what could not be decoded is refused. -/
example : (∃ r, simpleEnroll toy (demoEnroll fun _ => none) none (rfc4648 [5]) Heap.empty = .ok r ∧ r.status = 200 ∧ r.body = rfc4648 [8]) ∧
    Send.exchange registrarRoutes noParts (fun _ _ _ => ⟨200, rfc4648 [8]⟩) true [⟨true, .want 20⟩, ⟨true, .done⟩, ⟨true, .done⟩]
      (str "registrar.example:12345") (str "/.well-known/est/simpleenroll") (str "application/pkcs10") (rfc4648 [5]) =
        ok (some (200, rfc4648 [8])) ∧
    Send.exchange registrarRoutes noParts (fun _ _ _ => ⟨200, rfc4648 [8]⟩) true [⟨false, .done⟩, ⟨true, .done⟩]
      (str "registrar.example:12345") (str "/.well-known/est/simpleenroll") (str "application/pkcs10") (rfc4648 [5]) = ok none ∧
    Send.exchange registrarRoutes noParts (fun _ _ _ => ⟨400, []⟩) true [⟨true, .done⟩, ⟨true, .done⟩]
      (str "registrar.example:12345") (str "/.well-known/est/simpleenroll") (str "application/pkcs10") (str "QQ==") =
        ok (some (400, str "Router error")) := by
  obtain ⟨r, h1, h2, h3, -⟩ := demo_enrolled (fun _ => none) none
  exact ⟨⟨r, h1, h2, h3⟩, by decide +kernel, by decide +kernel, by decide +kernel⟩

/-- The hypotheses of both theorems on the message are met by the requests the clients send. -/
example : Postable (str "masa.example:12346") (str "/.well-known/brski/requestvoucher") (str "application/voucher-cms+json") (str "MII=") ∧
    Postable (str "registrar.example:12345") (str "/.well-known/est/simpleenroll") (str "application/pkcs10") (rfc4648 [5]) :=
  ⟨⟨by decide, by decide, by decide, by decide, by decide, by decide⟩, ⟨by decide, by decide, by decide, by decide, by decide, by decide +kernel⟩⟩

/-! ## C126: the connection goes on -/

/-- The request of `asked` without the wish to close, and then `asked` itself. -/
def askedAgain : Bytes := str "POST /.well-known/brski/voucher_status HTTP/1.1\r\nContent-Length: 0\r\n\r\n" ++ asked

/-- The connection is not given up when the head of a reply is lost and its body is not: the client receives the body of the first reply
and the whole second one behind it. -/
theorem C126_violated_goes_on : (match Send.connection registrarRoutes noParts echoEnv [⟨false, .done⟩, ⟨true, .done⟩, ⟨true, .done⟩, ⟨true, .done⟩] askedAgain with
    | .ok ([d1, d2], o) => decide (o = d1.reply.body ++ replyText d2.reply) && decide (d1.reply.body ≠ []) && d1.reply.status == 200 && d2.reply.status == 200
    | _ => false) = true := by decide +kernel

end Brski.Props
