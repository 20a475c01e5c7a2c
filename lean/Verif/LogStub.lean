import Verif.Log
import Verif.Routes

/-!
# What the handlers that are not implemented log (model)

/repo/src/brski/registrar/registrar_api.cpp:306-352 and /repo/src/brski/masa/masa_api.cpp:185-327: each writes its name and the body
of the request, at level TRACE.  Simplified: both messages are of the same instant; `__FILENAME__` and `__LINE__` are parameters.
-/

namespace Brski.LogStub
open BoolTime Log Routes

/-- Where and when a handler logs (`__FILENAME__`, `__LINE__` of /repo/src/utils/log.h:57-58, `gettimeofday`,
/repo/src/utils/log.c:74). -/
structure At where
  file : Bytes
  line : Nat
  time : Int
  usec : Nat
deriving Repr, DecidableEq

/-- `log_trace`, /repo/src/utils/log.h:57-58 with `log_levels`, /repo/src/utils/log.c:249-255. -/
def trace (p : At) (text : Bytes) : Msg := ⟨0, p.file, p.line, false, 0, [], text, p.time, p.usec⟩

/-- The two messages of a handler that is not implemented: its name, which is also its answer, with a colon, and
`request_body.c_str()` (/repo/src/brski/registrar/registrar_api.cpp:314-315,330-331,346-347 and
/repo/src/brski/masa/masa_api.cpp:193-194,209-210,225-226,241-242,257-258,273-274,289-290,305-306,321-322).  Other handlers log nothing
that is modelled here. -/
def messages (e : Endpoint) (p : At) (body : Bytes) : List Msg :=
  match e.stub with
  | some r => [trace p (r.body ++ str ":"), trace { p with line := p.line + 1 } (cstr body)]
  | none => []

end Brski.LogStub
