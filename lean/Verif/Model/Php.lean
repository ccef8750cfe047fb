import Verif.Model.FastCgi
/-
The PHP side of `obj`: the bridge script `BRIDGE_SCRIPT` (/repo/src/bif/exec_php.rs:21-69), which PHP-FPM runs for every request
of the client of Model/FastCgi.lean.

PHP values are represented by `Value`: a PHP array whose keys are 0, 1, ..., n-1 in this order is `.arr`, any other array is
`.obj` (PHP prints and compares the keys 5 and "5" alike).  A request starts with nothing loaded (PHP keeps no state between
requests).
-/
set_option autoImplicit false
namespace Nts.Php
open Nts.Fcgi

/-- How a piece of PHP code ends, with the text it printed: it returns a value, it throws, or it ends the request (`exit`, a
fatal error). -/
inductive Ends (α : Type) where
  | returns (a : α) (echo : Str)
  | throws (echo : Str)
  | exits (echo : Str)

/-- `$GLOBALS["__NEUTRAL_SCHEMA__"]`, `$GLOBALS["__NEUTRAL_SCHEMA_DATA__"]`, `$GLOBALS["__NEUTRAL_VENV__"]`
(src/bif/exec_php.rs:34-36). -/
structure Globals where
  schema : Value
  data : Value
  venv : Value

/-- What the bridge script relies on. -/
structure Php where
  /-- `json_decode($raw, true)`; `none` is null -/
  decode : Bytes → Option Value
  /-- `json_encode`; `none` is false -/
  encode : Value → Option Str
  /-- `is_file` -/
  isFile : Str → Bool
  /-- `require_once $script_file` -/
  load : Str → Globals → Ends Unit
  /-- `is_callable($callback)` when the file is loaded -/
  callable : Str → Value → Bool
  /-- `call_user_func($callback, $params)` when the file is loaded -/
  call : Str → Value → Value → Globals → Ends Value

/-- `$payload[k] ?? d`. -/
def field (p : Value) (k : Str) (d : Value) : Value :=
  match p.get? k with
  | none => d
  | some .null => d
  | some v => v

/-- `is_array($payload)`. -/
def isArray : Value → Bool
  | .obj _ => true
  | .arr _ => true
  | _ => false

/-- `echo json_encode(["__neutralts_obj_error" => msg])`. -/
def bridgeError (P : Php) (msg : Str) : Str := (P.encode (.obj [(c!"__neutralts_obj_error", .str msg)])).getD []

/-- The assignments to `$GLOBALS` (src/bif/exec_php.rs:34-36). -/
def globalsOf (p : Value) : Globals := ⟨field p c!"schema" .null, field p c!"schema_data" .null, field p c!"venv" .null⟩

/-- The call and its result (src/bif/exec_php.rs:50-68). -/
def bridgeCall (P : Php) (p : Value) (file : Str) : Str :=
  if !P.callable file (field p c!"callback" (.str c!"main")) then bridgeError P c!"callback not found"
  else match P.call file (field p c!"callback" (.str c!"main")) (field p c!"params" (.arr [])) (globalsOf p) with
    | .exits o => o
    | .throws o => o ++ bridgeError P c!"callback execution failed"
    | .returns v o =>
      match P.encode v with
      | none => o ++ bridgeError P c!"invalid callback response"
      | some j => o ++ j

/-- The script after the payload was decoded (src/bif/exec_php.rs:31-68). -/
def bridgeRun (P : Php) (p : Value) : Str :=
  match field p c!"script_file" (.str []) with
  | .str file =>
    if file.isEmpty || !P.isFile file then bridgeError P c!"obj script not found"
    else match P.load file (globalsOf p) with
      | .exits o => o
      | .throws o => o ++ bridgeError P c!"php script load failed"
      | .returns _ o => o ++ bridgeCall P p file
  | _ => bridgeError P c!"obj script not found"

/-- `BRIDGE_SCRIPT` (src/bif/exec_php.rs:21-69): what it prints for the body of a request. -/
def bridge (P : Php) (raw : Bytes) : Str :=
  match P.decode raw with
  | none => bridgeError P c!"invalid payload"
  | some p => if !isArray p then bridgeError P c!"invalid payload" else bridgeRun P p

end Nts.Php
