import Verif.Spec.Php
import Verif.Props.FastCgi
/-
C83: a PHP object gets the value of its function (client, FastCGI and bridge script together).
-/
set_option autoImplicit false
namespace Nts
open Nts.Fcgi Nts.Php Nts.Spec.FastCgi
open Nts.Spec.Php (array arrayList arrayObj orElse seen given Loads)

theorem field_or (o : Obj) (k : Str) (d : Value) (x : Option Value) (h : Obj.get? k o = some (array (x.getD .null))) :
    field (.obj o) k d = orElse d x := by
  unfold field Value.get?
  simp only [h]
  cases x with
  | none => simp [array, orElse]
  | some v =>
    cases v with
    | obj o =>
      by_cases he : o.map (·.1) = (List.range o.length).map showNat
      · simp only [Option.getD_some, orElse]
        rw [show array (.obj o) = .arr ((arrayObj o).map (·.2)) by rw [array, if_pos he]]
      · simp only [Option.getD_some, orElse]
        rw [show array (.obj o) = .obj (arrayObj o) by rw [array, if_neg he]]
    | _ => simp [array, orElse]

theorem array_payload (c : ObjCall) : array (payload c) = .obj [
    (c!"script_file", .str c.file), (c!"callback", .str c.callback), (c!"params", array c.params),
    (c!"schema", array (c.schema.getD .null)), (c!"schema_data", array (c.schemaData.getD .null)),
    (c!"venv", .str (c.venv.getD []))] := by
  unfold payload
  rw [array, if_neg]
  · simp only [arrayObj]
    have hs : ∀ s, array (.str s) = .str s := fun s => by simp [array]
    rw [hs, hs, hs]
  · intro h
    have := congrArg List.head? h
    simp [List.range_succ_eq_map] at this
    exact absurd this (by decide)

theorem globals_payload (c : ObjCall) : globalsOf (array (payload c)) = seen c := by
  rw [array_payload]
  unfold globalsOf seen
  congr 1
  · exact field_or _ _ _ _ rfl
  · exact field_or _ _ _ _ rfl

theorem params_payload (c : ObjCall) : field (array (payload c)) c!"params" (.arr []) = given c := by
  rw [array_payload]
  exact field_or _ _ _ (some c.params) rfl

theorem callback_payload (c : ObjCall) : field (array (payload c)) c!"callback" (.str c!"main") = .str c.callback := by
  rw [array_payload]; rfl

theorem file_payload (c : ObjCall) : field (array (payload c)) c!"script_file" (.str []) = .str c.file := by
  rw [array_payload]; rfl

/-- What the bridge prints for a call. -/
theorem bridge_call (P : Php) (c : ObjCall) (raw : Bytes) (h : P.decode raw = some (array (payload c))) :
    bridge P raw = bridgeRun P (array (payload c)) := by
  unfold bridge
  rw [h]
  simp only
  rw [if_neg (by rw [array_payload]; simp [isArray])]

/-- PHP-FPM runs the bridge script: for every request it answers with a header and what the script prints. -/
def Spec.Php.Runs (P : Php) (head : Str) (respond : Bytes → Incoming) : Prop :=
  Serves respond (fun _ stdin => utf8 (head ++ ['\r', '\n', '\r', '\n'] ++ bridge P stdin))

/-- Everything between the call and PHP works: the bridge script is there, the endpoint can be reached, the request is not
too large, PHP reads the payload as JSON, and the header of its answer ends at the first empty line. -/
structure Spec.Php.Works (env : Env) (f : Fpm) (P : Php) (c : ObjCall) (head : Str) : Prop where
  script : ∃ b, f.bridgePath c.file = .ok b ∧ f.exists_ b = true ∧ (utf8 b).length ≤ 32000
  endpoint : endpointOk f c.fpm = true
  connects : f.connect (trim c.fpm) = none
  writes : f.writeFail = fun _ => none
  flushes : f.flushFail = none
  small : (utf8 (env.jsonShow (payload c))).length ≤ 65535
  serves : Spec.Php.Runs P head f.respond
  lossy : ∀ s, f.lossy (utf8 s) = s
  decodes : P.decode (utf8 (env.jsonShow (payload c))) = some (array (payload c))
  header : ¬ ['\r', '\n', '\r', '\n'] <:+: head ++ ['\r', '\n', '\r']

open Spec.Php (Works)

theorem header_first (head body : Str) (h : ¬ ['\r', '\n', '\r', '\n'] <:+: head ++ ['\r', '\n', '\r']) :
    httpBody (head ++ ['\r', '\n', '\r', '\n'] ++ body) = body := by
  refine C50_body head body ?_
  intro a b hab
  refine Classical.byContradiction fun hlt => h ?_
  have hl : a.length < head.length := by omega
  have e : head ++ ['\r', '\n', '\r', '\n'] ++ body = (head ++ ['\r', '\n', '\r']) ++ ('\n' :: body) := by simp
  have e2 : a ++ ['\r', '\n', '\r', '\n'] ++ b = a ++ ['\r', '\n', '\r', '\n'] ++ b := rfl
  rw [e] at hab
  have hp : a ++ ['\r', '\n', '\r', '\n'] <+: head ++ ['\r', '\n', '\r'] := by
    refine List.prefix_of_prefix_length_le (l₃ := (head ++ ['\r', '\n', '\r']) ++ ('\n' :: body)) ?_ ⟨_, rfl⟩ ?_
    · rw [hab]; exact ⟨_, rfl⟩
    · simp; omega
  exact List.IsInfix.trans ⟨a, [], by simp⟩ hp.isInfix

/-- What a call gives, from what the bridge prints. -/
theorem php_answer {env : Env} {f : Fpm} {P : Php} {c : ObjCall} {head : Str} (w : Works env f P c head) :
    execPhp env f c = some (match env.jsonParse (trim (bridgeRun P (array (payload c)))) with
      | none => .error (c!"invalid php-fpm response: " ++ env.jsonErr (trim (bridgeRun P (array (payload c)))))
      | some v =>
        match (v.get? c!"__neutralts_obj_error").bind Value.asStr? with
        | some msg => .error msg
        | none => .ok v) := by
  obtain ⟨⟨b, hbr, hex, hpath⟩, hend, hcon, hwr, hfl, hsmall, hserve, hlossy, hdec, hhead⟩ := w
  rw [← bridge_call P c _ hdec]
  generalize hbody : utf8 (env.jsonShow (payload c)) = body at *
  obtain ⟨w, hw⟩ := C51_partial body b hsmall hpath
  obtain ⟨params, hf, hp, _⟩ := C50_request _ _ _ _ _ hw
  obtain ⟨rs, rest, content, ans, tail, e, hresp, hfr, hop, h6, h7⟩ := hserve _ _ _ _ hf hp
  have hread := C50_response rs rest content ans tail e hop hfr
  unfold execPhp
  simp only [bind, Except.bind, hbr, hex, hend, hcon, hwr, hfl, hbody, hw, mapErr, if_true]
  rw [hresp, hread, h6, h7]
  have hnil : f.lossy [] = [] := hlossy []
  simp only [Option.map_some, hnil, hlossy]
  have ht : trim ([] : Str) = [] := rfl
  rw [ht, header_first head _ hhead]
  simp only [List.isEmpty_nil, Bool.not_true, Bool.false_eq_true, if_false]
  rfl

theorem bridge_loaded {P : Php} {c : ObjCall} (hl : Loads P c) :
    bridgeRun P (array (payload c)) = bridgeCall P (array (payload c)) c.file := by
  unfold bridgeRun
  rw [file_payload]
  simp only
  rw [if_neg (by simp [hl.1, hl.2.1]), globals_payload, hl.2.2]
  simp

theorem bridge_called {P : Php} {c : ObjCall} :
    bridgeCall P (array (payload c)) c.file =
      if !P.callable c.file (.str c.callback) then bridgeError P c!"callback not found"
      else match P.call c.file (.str c.callback) (given c) (seen c) with
        | .exits o => o
        | .throws o => o ++ bridgeError P c!"callback execution failed"
        | .returns v o =>
          match P.encode v with
          | none => o ++ bridgeError P c!"invalid callback response"
          | some j => o ++ j := by
  unfold bridgeCall
  rw [globals_payload, params_payload, callback_payload]
  rfl

/-- **C83 (value).** When the script is loaded, its function is there, prints nothing and returns a value, and this value is
not an error object of the bridge, the call gives exactly this value.  The function was called with the parameters of the
object and saw the schema and the data the object asked for. -/
theorem C83_value {env : Env} {f : Fpm} {P : Php} {c : ObjCall} {head : Str} (w : Works env f P c head) (v : Value) (j : Str)
    (hl : Loads P c) (hc : P.callable c.file (.str c.callback) = true)
    (hr : P.call c.file (.str c.callback) (given c) (seen c) = .returns v [])
    (hj : P.encode v = some j) (hp : env.jsonParse (trim j) = some v)
    (hv : (v.get? c!"__neutralts_obj_error").bind Value.asStr? = none) :
    execPhp env f c = some (.ok v) := by
  rw [php_answer w, bridge_loaded hl, bridge_called, hc, hr]
  simp only [Bool.not_true, Bool.false_eq_true, if_false, hj, List.nil_append, hp, hv]

/-- The error objects of the bridge are JSON to both sides. -/
def Spec.Php.ErrorsRead (env : Env) (P : Php) : Prop :=
  ∀ msg, ∃ j, P.encode (.obj [(c!"__neutralts_obj_error", .str msg)]) = some j ∧
    env.jsonParse (trim j) = some (.obj [(c!"__neutralts_obj_error", .str msg)])

open Spec.Php (ErrorsRead)

theorem answer_error {env : Env} {P : Php} (he : ErrorsRead env P) (msg : Str) :
    (match env.jsonParse (trim (bridgeError P msg)) with
      | none => .error (c!"invalid php-fpm response: " ++ env.jsonErr (trim (bridgeError P msg)))
      | some v =>
        match (v.get? c!"__neutralts_obj_error").bind Value.asStr? with
        | some msg => .error msg
        | none => .ok v) = (.error msg : Except Str Value) := by
  obtain ⟨j, h1, h2⟩ := he msg
  unfold bridgeError
  rw [h1]
  simp only [Option.getD_some, h2]
  rfl

/-- **C83 (errors).** A script that is not there, fails to load, does not define the function, whose function throws or
returns what cannot be written as JSON: each is its error, and never a value. -/
theorem C83_errors {env : Env} {f : Fpm} {P : Php} {c : ObjCall} {head : Str} (w : Works env f P c head)
    (he : ErrorsRead env P) :
    ((c.file = [] ∨ P.isFile c.file = false) → execPhp env f c = some (.error c!"obj script not found")) ∧
    (c.file ≠ [] → P.isFile c.file = true → P.load c.file (seen c) = .throws [] →
      execPhp env f c = some (.error c!"php script load failed")) ∧
    (Loads P c → P.callable c.file (.str c.callback) = false → execPhp env f c = some (.error c!"callback not found")) ∧
    (Loads P c → P.callable c.file (.str c.callback) = true →
      P.call c.file (.str c.callback) (given c) (seen c) = .throws [] →
      execPhp env f c = some (.error c!"callback execution failed")) ∧
    (∀ v, Loads P c → P.callable c.file (.str c.callback) = true →
      P.call c.file (.str c.callback) (given c) (seen c) = .returns v [] → P.encode v = none →
      execPhp env f c = some (.error c!"invalid callback response")) := by
  refine ⟨?_, ?_, ?_, ?_, ?_⟩
  · intro h
    rw [php_answer w]
    have : bridgeRun P (array (payload c)) = bridgeError P c!"obj script not found" := by
      unfold bridgeRun
      rw [file_payload]
      simp only
      rw [if_pos (by rcases h with h | h <;> simp [h])]
    rw [this, answer_error he]
  · intro h1 h2 h3
    rw [php_answer w]
    have : bridgeRun P (array (payload c)) = bridgeError P c!"php script load failed" := by
      unfold bridgeRun
      rw [file_payload]
      simp only
      rw [if_neg (by simp [h1, h2]), globals_payload, h3]
      simp
    rw [this, answer_error he]
  · intro hl h
    rw [php_answer w, bridge_loaded hl, bridge_called, h]
    simp only [Bool.not_false, if_true]
    rw [answer_error he]
  · intro hl hc h
    rw [php_answer w, bridge_loaded hl, bridge_called, hc, h]
    simp only [Bool.not_true, Bool.false_eq_true, if_false, List.nil_append]
    rw [answer_error he]
  · intro v hl hc h hn
    rw [php_answer w, bridge_loaded hl, bridge_called, hc, h]
    simp only [Bool.not_true, Bool.false_eq_true, if_false, List.nil_append, hn]
    rw [answer_error he]

/-- **C83 (other requests).** To a body that is not JSON, or that is a number, a text, a truth value or null, the bridge answers that the
payload is not valid; to an object or list without a file it answers that the script is not found.  It runs nothing: the answer is
the same whatever scripts and functions there are. -/
theorem C83_other (P : Php) (raw : Bytes) :
    (P.decode raw = none → bridge P raw = (P.encode (.obj [(c!"__neutralts_obj_error", .str c!"invalid payload")])).getD []) ∧
    (∀ v, P.decode raw = some v → (∀ o, v ≠ .obj o) → (∀ l, v ≠ .arr l) →
      bridge P raw = (P.encode (.obj [(c!"__neutralts_obj_error", .str c!"invalid payload")])).getD []) ∧
    (∀ o, P.decode raw = some (.obj o) → Obj.get? c!"script_file" o = none →
      bridge P raw = (P.encode (.obj [(c!"__neutralts_obj_error", .str c!"obj script not found")])).getD []) ∧
    (∀ l, P.decode raw = some (.arr l) →
      bridge P raw = (P.encode (.obj [(c!"__neutralts_obj_error", .str c!"obj script not found")])).getD []) := by
  refine ⟨fun h => ?_, fun v h ho hl => ?_, fun o h hn => ?_, fun l h => ?_⟩
  · unfold bridge
    rw [h]
    rfl
  · unfold bridge
    rw [h]
    cases v with
    | obj o => exact absurd rfl (ho o)
    | arr l => exact absurd rfl (hl l)
    | null => rfl
    | bool b => rfl
    | num n => rfl
    | str s => rfl
  · unfold bridge
    rw [h]
    have hf : field (.obj o) c!"script_file" (.str []) = .str [] := by
      unfold field
      rw [show (Value.obj o).get? c!"script_file" = Obj.get? c!"script_file" o from rfl, hn]
    simp only [isArray, Bool.not_true, Bool.false_eq_true, if_false, bridgeRun, hf]
    rfl
  · unfold bridge
    rw [h]
    rfl

/-! ### examples -/

/-- JSON for the examples: numbers, and texts in quotation marks for the error objects of the bridge. -/
def exJson : Env := { Sample.env with
  jsonShow := fun _ => c!"{}"
  jsonParse := fun s => match s with
    | '"' :: r => some (.obj [(c!"__neutralts_obj_error", .str r.dropLast)])
    | s => (parseNat1 s).map (fun n => .num (.int n)) }

/-- PHP for the examples: the function `main` of `/x.php`, which ends like this. -/
def exPhp (r : Ends Value) : Php where
  decode := fun _ => some (array (payload exCall))
  encode := fun v => match v with
    | .num (.int n) => some (showInt n)
    | .obj [(_, .str m)] => some ('"' :: m ++ ['"'])
    | _ => none
  isFile := fun f => f == c!"/x.php"
  load := fun _ _ => .returns () []
  callable := fun _ f => match f with
    | .str n => n == c!"main"
    | _ => false
  call := fun _ _ _ _ => r

/-- The header of the answer. -/
def exHead : Str := c!"Content-Type: application/json"

/-- What PHP-FPM prints. -/
def exPrinted (r : Ends Value) : Str := exHead ++ ['\r', '\n', '\r', '\n'] ++ bridge (exPhp r) []

/-- The answer of PHP-FPM. -/
def exServed (r : Ends Value) : Bytes := exFrame 6 (utf8 (exPrinted r)) ++ exFrame 3 [0, 0, 0, 0, 0, 0, 0, 0]

/-- The client talks to this PHP-FPM. -/
def exSystem (r : Ends Value) : Fpm := { exFpm (exServed r) with
  lossy := fun b => (b.toByteArray.utf8Decode?.map Array.toList).getD [] }

theorem ex_works (r : Ends Value) (h : (utf8 (exPrinted r)).length < 256) : Works exJson (exSystem r) (exPhp r) exCall exHead where
  script := ⟨c!"/b.php", rfl, rfl, by decide⟩
  endpoint := rfl
  connects := rfl
  writes := rfl
  flushes := rfl
  small := by decide
  serves := by
    intro b params body ps _ _
    refine ⟨[⟨6, 1, utf8 (exPrinted r)⟩], [], [0, 0, 0, 0, 0, 0, 0, 0], exServed r, [], .eof, ?_, ?_, ?_, ?_, ?_⟩
    · simp [exSystem, exFpm]
    · exact ⟨_, _, rfl, framed_ex _ _ h, _, [], by rw [List.append_nil], framed_ex _ _ (by decide), rfl⟩
    · intro x hx
      simp only [List.mem_cons, List.not_mem_nil, or_false] at hx
      subst hx
      simp
    · simp only [carried, exPrinted]
      simp [bridge, exPhp]
    · rfl
  lossy := by
    intro s
    have : (exSystem r).lossy (utf8 s) = ((List.utf8Encode s).utf8Decode?.map Array.toList).getD [] := rfl
    rw [this, List.utf8Decode?_utf8Encode]
    simp
  decodes := rfl
  header := by
    intro h
    have : ¬ ('\r' ∈ exHead) := by decide
    obtain ⟨a, b, hab⟩ := h
    have h2 := congrArg (List.count '\n') hab
    simp only [List.count_append] at h2
    have : List.count '\n' exHead = 0 := by decide
    have e1 : List.count '\n' ['\r', '\n', '\r', '\n'] = 2 := by decide
    have e2 : List.count '\n' ['\r', '\n', '\r'] = 1 := by decide
    omega

theorem ex_errors (r : Ends Value) : ErrorsRead exJson (exPhp r) := by
  intro msg
  refine ⟨'"' :: msg ++ ['"'], rfl, ?_⟩
  have : trim ('"' :: msg ++ ['"']) = '"' :: (msg ++ ['"']) := by
    unfold trim
    have h1 : trimStart ('"' :: msg ++ ['"']) = '"' :: msg ++ ['"'] := rfl
    rw [h1]
    have h2 : trimEnd ('"' :: msg ++ ['"']) = '"' :: msg ++ ['"'] := by
      unfold trimEnd
      simp [isWs]
    exact h2
  rw [this]
  simp [exJson]

/-- A function that returns 7, and the other cases of `C83_errors` (`C83_value`). -/
example : exNum (execPhp exJson (exSystem (.returns (.num (.int 7)) [])) exCall) = some 7 := by
  rw [C83_value (ex_works _ (by decide)) (.num (.int 7)) c!"7" ⟨by decide, rfl, rfl⟩ rfl rfl rfl rfl rfl]
  rfl
example : execPhp exJson (exSystem (.throws [])) exCall = some (.error c!"callback execution failed") :=
  (C83_errors (ex_works _ (by decide)) (ex_errors _)).2.2.2.1 ⟨by decide, rfl, rfl⟩ rfl rfl
example : execPhp exJson (exSystem (.returns (.bool true) [])) exCall = some (.error c!"invalid callback response") :=
  (C83_errors (ex_works _ (by decide)) (ex_errors _)).2.2.2.2 _ ⟨by decide, rfl, rfl⟩ rfl rfl rfl

/-- **C83 (the premises are needed).** What a script prints becomes part of its result: a function that prints 1 and returns 2
gives 12.  A function that returns an array with the text `__neutralts_obj_error` gives an error. -/
theorem C83_premises_needed :
    exNum (execPhp exJson (exSystem (.returns (.num (.int 2)) c!"1")) exCall) = some 12 ∧
    execPhp exJson (exSystem (.returns (.obj [(c!"__neutralts_obj_error", .str c!"x")]) [])) exCall = some (.error c!"x") := by
  constructor
  · rw [php_answer (ex_works _ (by decide))]
    decide +kernel
  · rw [php_answer (ex_works _ (by decide))]
    rfl

/-- The empty object is the empty list to PHP. -/
example : array (.obj [(c!"a", .obj []), (c!"b", .obj [(c!"0", .null), (c!"1", .str c!"x")])]) =
    .obj [(c!"a", .arr []), (c!"b", .arr [.null, .str c!"x"])] := by
  rw [array, if_neg (by decide)]
  simp only [arrayObj]
  rw [array, if_pos (by decide), array, if_pos (by decide)]
  simp [arrayObj, array]

end Nts
