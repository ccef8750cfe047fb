import Verif.Model.Php
/-
What a call of a PHP object reports (C108): the stages of a call, in their order, and the message of the one that fails.
-/
set_option autoImplicit false
namespace Nts.Spec.PhpCall
open Nts.Fcgi

/-- An endpoint, without outer white space, that is understood: `unix:` and a path, or a host with a port (after `tcp://` or alone)
that has an address. -/
def Endpoint (resolves : Str → Prop) (e : Str) : Prop :=
  (∃ path, e = c!"unix:" ++ path ∧ path ≠ []) ∨
  (¬ c!"unix:" <+: e ∧ ∃ host, (e = c!"tcp://" ++ host ∨ (¬ c!"tcp://" <+: e ∧ e = host)) ∧ ':' ∈ host ∧ resolves host)

/-- The bridge script is there, or could be written. -/
def HasBridge (f : Fpm) (file bridge : Str) : Prop :=
  f.bridgePath file = .ok bridge ∧ (f.exists_ bridge = true ∨ f.writeBridge bridge = none)

/-- The connection is made. -/
def Connected (f : Fpm) (c : ObjCall) (bridge : Str) : Prop :=
  HasBridge f c.file bridge ∧ Endpoint (fun h => f.resolves h = true) (trim c.fpm) ∧ f.connect (trim c.fpm) = none

/-- The request is sent. -/
def Sent (env : Env) (f : Fpm) (c : ObjCall) (w : Wire) : Prop :=
  ∃ bridge, Connected f c bridge ∧ sendRequest f.writeFail f.flushFail (utf8 (env.jsonShow (payload c))) bridge = .ok w

/-- The answer is read: what the script printed and what it wrote to its standard error, as texts. -/
def Answered (env : Env) (f : Fpm) (c : ObjCall) (out err : Str) : Prop :=
  ∃ w a b, Sent env f c w ∧ readResponse (f.respond w.sent) = some (.ok (a, b)) ∧ out = f.lossy a ∧ err = f.lossy b

/-- What a call reports: each stage is reached only when those before succeeded. -/
inductive Reports (env : Env) (f : Fpm) (c : ObjCall) : Except Str Value → Prop
  | place (e : Str) : f.bridgePath c.file = .error e → Reports env f c (.error e)
  | bridge (b e : Str) : f.bridgePath c.file = .ok b → f.exists_ b = false → f.writeBridge b = some e →
      Reports env f c (.error (c!"failed to create php bridge: " ++ e))
  | endpoint (b : Str) : HasBridge f c.file b → ¬ Endpoint (fun h => f.resolves h = true) (trim c.fpm) →
      Reports env f c (.error c!"invalid php-fpm endpoint")
  | connect (b e : Str) : HasBridge f c.file b → Endpoint (fun h => f.resolves h = true) (trim c.fpm) → f.connect (trim c.fpm) = some e →
      Reports env f c (.error (c!"php-fpm connection failed: " ++ e))
  | request (b e : Str) : Connected f c b →
      sendRequest f.writeFail f.flushFail (utf8 (env.jsonShow (payload c))) b = .error e →
      Reports env f c (.error (c!"php-fpm request failed: " ++ e))
  | response (w : Wire) (e : Str) : Sent env f c w → readResponse (f.respond w.sent) = some (.error e) →
      Reports env f c (.error (c!"php-fpm response failed: " ++ e))
  | stderr (out err : Str) : Answered env f c out err → trim err ≠ [] → Reports env f c (.error (c!"php-fpm stderr: " ++ trim err))
  | noJson (out err : Str) : Answered env f c out err → trim err = [] → env.jsonParse (trim (httpBody out)) = none →
      Reports env f c (.error (c!"invalid php-fpm response: " ++ env.jsonErr (trim (httpBody out))))
  | told (out err msg : Str) (o : Obj) : Answered env f c out err → trim err = [] → env.jsonParse (trim (httpBody out)) = some (.obj o) →
      Obj.get? c!"__neutralts_obj_error" o = some (.str msg) → Reports env f c (.error msg)
  | value (out err : Str) (v : Value) : Answered env f c out err → trim err = [] → env.jsonParse (trim (httpBody out)) = some v →
      (∀ o msg, v = .obj o → Obj.get? c!"__neutralts_obj_error" o ≠ some (.str msg)) → Reports env f c (.ok v)

end Nts.Spec.PhpCall
