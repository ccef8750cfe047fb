import Verif.Model.State
/-
The FastCGI client of `obj` with the PHP engine: /repo/src/bif/exec_php.rs.
-/
set_option autoImplicit false
namespace Nts.Fcgi

/-- `Vec<u8>` / `&[u8]`. -/
abbrev Bytes := List UInt8

/-- UTF-8 bytes of a `&str` (`str::as_bytes`). -/
def utf8 (s : Str) : Bytes := s.flatMap String.utf8EncodeChar

/-- The outgoing half of the socket: what was sent, and how many `write_all`s were made. -/
structure Wire where
  sent : Bytes
  calls : Nat

/-- A socket nothing was written to. -/
def Wire.new : Wire := ⟨[], 0⟩

/-- `stream.write_all(x).map_err(|e| e.to_string())?`: the `n`-th call fails when `fail n` is some text.  What part of `x`
was sent by a failed call is not modelled: the client sends nothing more and returns the error. -/
def writeAll (fail : Nat → Option Str) (x : Bytes) (w : Wire) : Except Str Wire :=
  match fail w.calls with
  | some e => .error e
  | none => .ok ⟨w.sent ++ x, w.calls + 1⟩

/-- The header array (src/bif/exec_php.rs:464-473); `as u8` keeps the low 8 bits. -/
def header (type : UInt8) (id : Nat) (len pad : Nat) : Bytes :=
  [1, type, UInt8.ofNat (id >>> 8), UInt8.ofNat (id &&& 0xFF), UInt8.ofNat ((len >>> 8) &&& 0xFF), UInt8.ofNat (len &&& 0xFF),
   UInt8.ofNat pad, 0]

/-- `write_record` (src/bif/exec_php.rs:453-484). -/
def writeRecord (fail : Nat → Option Str) (type : UInt8) (id : Nat) (content : Bytes) (w : Wire) : Except Str Wire :=
  if content.length > 65535 then .error c!"fastcgi content too large"
  else do
    let pad := (8 - (content.length % 8)) % 8
    let w ← writeAll fail (header type id content.length pad) w
    let w ← (if !content.isEmpty then writeAll fail content w else .ok w)
    (if pad > 0 then writeAll fail (List.replicate pad 0) w else .ok w)

/-- `write_length` (src/bif/exec_php.rs:494-507): the bytes pushed. -/
def writeLength (len : Nat) : Except Str Bytes :=
  if len < 128 then .ok [UInt8.ofNat len]
  else if len > 0x7fffffff then .error c!"fastcgi name/value too large"
  else .ok [UInt8.ofNat (len >>> 24) ||| 0x80, UInt8.ofNat (len >>> 16), UInt8.ofNat (len >>> 8), UInt8.ofNat len]

/-- `write_name_value_pair` (src/bif/exec_php.rs:486-492): the bytes appended. -/
def writePair (name value : Bytes) : Except Str Bytes := do
  let a ← writeLength name.length
  let b ← writeLength value.length
  return a ++ b ++ name ++ value

/-- The loop over `params` (src/bif/exec_php.rs:340-343). -/
def writePairs : List (Str × Str) → Except Str Bytes
  | [] => .ok []
  | (n, v) :: r => do
    let a ← writePair (utf8 n) (utf8 v)
    let b ← writePairs r
    return a ++ b

/-- `params` (src/bif/exec_php.rs:323-338). -/
def requestParams (bodyLen : Nat) (bridge : Str) : List (Str × Str) := [
  (c!"SCRIPT_FILENAME", bridge), (c!"SCRIPT_NAME", bridge), (c!"REQUEST_METHOD", c!"POST"),
  (c!"CONTENT_TYPE", c!"application/json"), (c!"CONTENT_LENGTH", showNat bodyLen), (c!"SERVER_PROTOCOL", c!"HTTP/1.1"),
  (c!"GATEWAY_INTERFACE", c!"CGI/1.1"), (c!"REQUEST_URI", c!"/"), (c!"DOCUMENT_ROOT", c!"/"),
  (c!"REMOTE_ADDR", c!"127.0.0.1"), (c!"REMOTE_PORT", c!"0"), (c!"SERVER_ADDR", c!"127.0.0.1"), (c!"SERVER_PORT", c!"80"),
  (c!"SERVER_NAME", c!"neutralts")]

/-- `send_fastcgi_request` (src/bif/exec_php.rs:306-356): what is on the wire at the end.  `flush` is the result of
`stream.flush()`. -/
def sendRequest (fail : Nat → Option Str) (flush : Option Str) (body : Bytes) (bridge : Str) : Except Str Wire := do
  let w ← writeRecord fail 1 1 [0, 1, 0, 0, 0, 0, 0, 0] Wire.new
  let buf ← writePairs (requestParams body.length bridge)
  let w ← (if !buf.isEmpty then writeRecord fail 4 1 buf w else .ok w)
  let w ← writeRecord fail 4 1 [] w
  let w ← (if !body.isEmpty then writeRecord fail 5 1 body w else .ok w)
  let w ← writeRecord fail 5 1 [] w
  match flush with
  | some e => .error e
  | none => .ok w

/-- What follows the last byte received: end of file, or a failed read (timeout, reset). -/
inductive Ending where
  | eof
  | fail (e : Str)

/-- The incoming half of the socket. -/
structure Incoming where
  bytes : Bytes
  ending : Ending

/-- `read_exact` of `n` bytes: the bytes and the rest, or `none` when there are not enough. -/
def readExact (n : Nat) (s : Bytes) : Option (Bytes × Bytes) := if n ≤ s.length then some (s.take n, s.drop n) else none

/-- The three `Err` branches after a `read_exact` (src/bif/exec_php.rs:364-374, 400-409, 413-422): on an end of file after
some payload the loop is left, otherwise the error is returned. -/
def short (ending : Ending) (out err : Bytes) : Except Str (Bytes × Bytes) :=
  match ending with
  | .eof => if !out.isEmpty || !err.isEmpty then .ok (out, err) else .error c!"failed to fill whole buffer"
  | .fail e => .error e

/-- `u16::from_be_bytes([a, b])`. -/
def be16 (a b : UInt8) : Nat := a.toNat * 256 + b.toNat

/-- The version check (src/bif/exec_php.rs:377-391).  `from_utf8_lossy(header)` starts with `HTTP/` exactly when the bytes
do. -/
def badVersion (h : Bytes) (v : UInt8) : Str :=
  if h.take 5 = utf8 c!"HTTP/" then c!"invalid FastCGI response: endpoint looks like HTTP, not PHP-FPM"
  else c!"invalid FastCGI response: unsupported version " ++ showNat v.toNat

/-- The end of a round of the loop: leave it with a result, or go on with the rest of the input and the collected output. -/
inductive Round where
  | done (r : Except Str (Bytes × Bytes))
  | next (s out err : Bytes)

/-- One round of the loop of `read_fastcgi_response` (src/bif/exec_php.rs:363-435). -/
def readRound (ending : Ending) (s out err : Bytes) : Round :=
  match readExact 8 s with
  | none => .done (short ending out err)
  | some (h, s) =>
    match h with
    | [v, type, i1, i0, l1, l0, pad, _] =>
      if v ≠ 1 then .done (.error (badVersion h v))
      else
        match readExact (be16 l1 l0) s with
        | none => .done (short ending out err)
        | some (content, s) =>
          match readExact pad.toNat s with
          | none => .done (short ending out err)
          | some (_, s) =>
            if be16 i1 i0 ≠ 1 then .next s out err
            else if type = 6 then .next s (out ++ content) err
            else if type = 7 then .next s out (err ++ content)
            else if type = 3 then .done (.ok (out, err))
            else .next s out err
    | _ => .done (.error [])  -- not reached: `readExact 8` gives 8 bytes

/-- The loop (src/bif/exec_php.rs:362-435).  The first argument bounds the rounds, `none` when it is exhausted
(`readResponse` gives enough, see `readResponse_total`). -/
def readLoop (ending : Ending) : Nat → Bytes → Bytes → Bytes → Option (Except Str (Bytes × Bytes))
  | 0, _, _, _ => none
  | n + 1, s, out, err =>
    match readRound ending s out err with
    | .done r => some r
    | .next s out err => readLoop ending n s out err

/-- `read_fastcgi_response` (src/bif/exec_php.rs:358-441) up to `from_utf8_lossy`. -/
def readResponse (r : Incoming) : Option (Except Str (Bytes × Bytes)) :=
  readLoop r.ending (r.bytes.length + 1) r.bytes [] []

/-- `extract_http_body` (src/bif/exec_php.rs:443-451). -/
def httpBody (s : Str) : Str :=
  match splitOnce ['\r', '\n', '\r', '\n'] s with
  | some (_, r) => r
  | none =>
    match splitOnce ['\n', '\n'] s with
    | some (_, r) => r
    | none => s

/-- What the client needs from the system for one call. -/
structure Fpm where
  /-- `bridge_path_for` (src/bif/exec_php.rs:201-227): std path operations -/
  bridgePath : Str → Except Str Str
  /-- `Path::exists` -/
  exists_ : Str → Bool
  /-- `fs::write` of the bridge script: the error text -/
  writeBridge : Str → Option Str
  /-- `to_socket_addrs` gives an address -/
  resolves : Str → Bool
  /-- `connect_endpoint` (src/bif/exec_php.rs:276-304), by trimmed endpoint -/
  connect : Str → Option Str
  /-- the `n`-th `write_all` fails -/
  writeFail : Nat → Option Str
  /-- `flush` fails -/
  flushFail : Option Str
  /-- what the peer answers to the bytes sent -/
  respond : Bytes → Incoming
  /-- `String::from_utf8_lossy` -/
  lossy : Bytes → Str

/-- `parse_endpoint` (src/bif/exec_php.rs:243-274, unix): is the endpoint acceptable? -/
def endpointOk (f : Fpm) (endpoint : Str) : Bool :=
  let e := trim endpoint
  if e.isEmpty then false
  else match stripPrefix? c!"unix:" e with
    | some path => !path.isEmpty
    | none =>
      let t := (stripPrefix? c!"tcp://" e).getD e
      contains c!":" t && f.resolves t

/-- The payload (src/bif/exec_php.rs:139-146). -/
def payload (c : ObjCall) : Value := .obj [
  (c!"script_file", .str c.file), (c!"callback", .str c.callback), (c!"params", c.params),
  (c!"schema", c.schema.getD .null), (c!"schema_data", c.schemaData.getD .null), (c!"venv", .str (c.venv.getD []))]

/-- `map_err(|e| BifError { msg: format!("{prefix}{e}"), .. })`. -/
def mapErr {α : Type} (pre : Str) : Except Str α → Except Str α
  | .ok a => .ok a
  | .error e => .error (pre ++ e)

/-- `exec_php` (src/bif/exec_php.rs:114-199); `none` never happens (`execPhp_total`).  The error is the `msg` of the
`BifError`. -/
def execPhp (env : Env) (f : Fpm) (c : ObjCall) : Option (Except Str Value) :=
  let start : Except Str Wire := do
    let bridge ← f.bridgePath c.file
    (if f.exists_ bridge then .ok () else
      match f.writeBridge bridge with
      | some e => .error (c!"failed to create php bridge: " ++ e)
      | none => .ok ())
    (if endpointOk f c.fpm then .ok () else .error c!"invalid php-fpm endpoint")
    (match f.connect (trim c.fpm) with
      | some e => .error (c!"php-fpm connection failed: " ++ e)
      | none => .ok ())
    mapErr c!"php-fpm request failed: " (sendRequest f.writeFail f.flushFail (utf8 (env.jsonShow (payload c))) bridge)
  match start with
  | .error e => some (.error e)
  | .ok w =>
    (readResponse (f.respond w.sent)).map (fun r => do
      let x ← mapErr c!"php-fpm response failed: " r
      let out := f.lossy x.1
      let err := f.lossy x.2
      if !(trim err).isEmpty then .error (c!"php-fpm stderr: " ++ trim err)
      else
        match env.jsonParse (trim (httpBody out)) with
        | none => .error (c!"invalid php-fpm response: " ++ env.jsonErr (trim (httpBody out)))
        | some v =>
          match (v.get? c!"__neutralts_obj_error").bind Value.asStr? with
          | some msg => .error msg
          | none => .ok v)

end Nts.Fcgi
