import Verif.Model.Utils
/-
State of the interpreter: /repo/src/shared.rs, src/block_parser.rs (BlockInherit), src/bif/mod.rs (Bif), and the
environment.
-/
set_option autoImplicit false
namespace Nts

/-- A file as the crate sees it. -/
structure FileEntry where
  /-- `fs::read_to_string`: `none` when it fails (not UTF-8, a directory, no permission) -/
  content : Option Str
  /-- modification time, seconds since the epoch -/
  mtime : Nat
  /-- `Path::is_file` -/
  isFile : Bool

/-- The outside world during one render: files and a counter of environment interactions (clock, random
numbers, external programs are functions of the counter, see `Env`). -/
structure World where
  fs : Str → Option FileEntry
  tick : Nat

/-- Arguments of `PythonExecutor::exec_py` / `PhpExecutor::exec_php` (src/bif/parse_bif_obj.rs:153-198). -/
structure ObjCall where
  python : Bool
  file : Str
  params : Value
  callback : Str
  schema : Option Value
  schemaData : Option Value
  venv : Option Str
  fpm : Str

/-- Everything the crate obtains from libraries and the operating system.  Theorems hold for all `Env`s unless
they state a hypothesis. -/
structure Env where
  f64 : F64Ops
  /-- `str::to_lowercase` -/
  lower : Str → Str
  /-- `serde_json::from_str` -/
  jsonParse : Str → Option Value
  /-- the error text of `serde_json::from_str` -/
  jsonErr : Str → Str
  /-- `serde_json::to_string` -/
  jsonShow : Value → Str
  /-- `serde_json::to_string_pretty` -/
  jsonPretty : Value → Str
  /-- MD5, lower-case hexadecimal -/
  md5 : Str → Str
  /-- SHA-256, lower-case hexadecimal -/
  sha256 : Str → Str
  /-- MD5 of 16 random bytes -/
  randHash : Nat → Str
  /-- `random_range(a..=b)` -/
  randRange : Nat → Int → Int → Int
  /-- seconds since the epoch -/
  now : Nat → Nat
  /-- `now.duration_since(mtime)`, in nanoseconds; `none` (an `Err`) for a modification time in the future -/
  age : Nat → Nat → Option Nat
  /-- `Local::now().format("%Y-%m-%d %H:%M:%S")` -/
  localTime : Nat → Str
  /-- `Utc::now().format(fmt).to_string()`; `none` when chrono rejects the format (a panic) -/
  utcFormat : Nat → Str → Option Str
  /-- `Path::parent().display()` -/
  parent : Str → Option Str
  /-- `fs::canonicalize`; `.error` carries the error text -/
  canon : Str → Except Str Str
  /-- `fs::create_dir_all`: `some msg` on failure -/
  mkdirErr : Nat → Str → Option Str
  /-- `File::create`: `some msg` on failure -/
  createErr : Nat → Str → Option Str
  /-- `write_all`: `some msg` on failure -/
  writeErr : Nat → Str → Option Str
  /-- the text of a failed `fs::read_to_string` -/
  readErr : Str → Str
  /-- `bridge_path_for` (src/bif/exec_php.rs:201-227): the bridge script beside an object script, or the error -/
  bridgePath : Str → Except Str Str
  /-- `BRIDGE_SCRIPT` (src/bif/exec_php.rs:22-70) -/
  bridgeScript : Str
  /-- the Python/PHP executors: the result, or the error message -/
  execObj : Nat → ObjCall → Except Str Value
  /-- `NEUTRAL_JS`, src/constants.rs -/
  neutralJs : Str
  /-- are integer overflows checked (debug builds)? -/
  overflowChecks : Bool
  tempDir : Str
  workDir : Str

/-- `Shared` (src/shared.rs:7-34).  `indir_store : HashMap<String, Rc<Value>>` is only accessed by key and
written through `Rc::make_mut`, i.e. with value semantics, so it is a partial function.  The world is threaded
here as well. -/
structure Shared where
  schema : Value
  indir : Str → Option Value
  lang : Str
  comments : Str
  count : Nat
  max : Nat
  flags : Str
  exit : Bool
  hasError : Bool
  statusCode : Str
  statusText : Str
  statusParam : Str
  redirectJs : Str
  filterAll : Bool
  filterBifs : Bool
  cachePrefix : Str
  cacheDir : Str
  cacheOnPost : Bool
  cacheOnGet : Bool
  cacheOnCookies : Bool
  cacheDisable : Bool
  disableJs : Bool
  alreadyJs : Bool
  debugExpire : Nat
  debugFile : Str
  workingDir : Str
  w : World

/-- `BlockInherit` (src/block_parser.rs:4-18). -/
structure Inherit where
  indir : Str
  lastBifOut : Bool
  lastCoalesceOut : Bool
  blockCount : Nat
  bifCount : Nat
  alias : Str
  currentFile : Str
  currentDir : Str
  includeFiles : List Str
  localeFiles : List Str
  dataFiles : List Str
  inCache : Bool
  inOnly : Bool

/-- `BlockInherit::new` (src/block_parser.rs:41-57). -/
def Inherit.new : Inherit where
  indir := c!"block_0"
  lastBifOut := false
  lastCoalesceOut := false
  blockCount := 0
  bifCount := 0
  alias := []
  currentFile := []
  currentDir := []
  includeFiles := []
  localeFiles := []
  dataFiles := []
  inCache := false
  inOnly := false

/-- The mutable local fields of `Bif` (src/bif/mod.rs:59-78). -/
structure BifS where
  src : Str
  name : Str
  alias : Str
  code : Str
  params : Str
  flags : Str
  modFilter : Bool
  modNegate : Bool
  modUpline : Bool
  modScope : Bool
  filePath : Str
  dir : Str
  out : Str

/-- The initial local fields in `Bif::new` (src/bif/mod.rs:98-117). -/
def BifS.new : BifS where
  src := []
  name := []
  alias := []
  code := []
  params := []
  flags := []
  modFilter := false
  modNegate := false
  modUpline := false
  modScope := false
  filePath := []
  dir := []
  out := []

/-- Everything a BIF body can see: `self.shared`, `self.inherit`, its own fields, and the constants `raw` and
`only`. -/
structure St where
  sh : Shared
  inh : Inherit
  b : BifS
  raw : Str
  only : Str

/-- `BifError` (src/bif/mod.rs:52-57). -/
structure BifErr where
  msg : Str
  file : Str
  name : Str
  src : Str

/-- `Shared::get_indir` (src/shared.rs:93-99). -/
def Shared.getIndir (sh : Shared) (k : Str) : Value := (sh.indir k).getD .null

/-- A write through `Shared::get_indir_mut` (src/shared.rs:102-107): the entry is created as `{}` if absent. -/
def Shared.modIndir (sh : Shared) (k : Str) (f : Value → Option Value) : Option Shared :=
  (f ((sh.indir k).getD (.obj []))).map (fun v =>
    { sh with indir := fun x => if x = k then some v else sh.indir x })

/-- `format!("block_{}", n)`. -/
def blockId (n : Nat) : Str := c!"block_" ++ showNat n

/-- `BlockInherit::create_block_schema` (src/block_parser.rs:64-88). -/
def createBlockSchema (sh : Shared) (inh : Inherit) : Shared × Inherit :=
  let bid := if inh.blockCount < 1 then c!"block_1" else blockId inh.blockCount
  let sh' : Shared :=
    if inh.indir ≠ bid then
      match sh.indir inh.indir with
      | some v => { sh with indir := fun x => if x = bid then some v else sh.indir x }
      | none => sh
    else sh
  (sh', { inh with indir := bid })

/-- `BlockParser::update_indir` (src/block_parser.rs:122-127): copy the child's block to `target`. -/
def updateIndir (sh : Shared) (childIndir target : Str) : Shared :=
  match sh.indir childIndir with
  | some v => { sh with indir := fun x => if x = target then some v else sh.indir x }
  | none => sh

/-- `Drop for BlockParser` (src/block_parser.rs:97-109). -/
def dropBlock (sh : Shared) (inh : Inherit) : Shared :=
  let bid := blockId inh.blockCount
  if bid ≠ c!"block_1" ∧ bid = inh.indir then
    { sh with indir := fun x => if x = bid then none else sh.indir x }
  else sh

/-- `STATUS_CODES` (src/constants.rs). -/
def statusCodes : List (Str × Str) := [
  (c!"100", c!"Continue"), (c!"101", c!"Switching Protocols"), (c!"103", c!"Early Hints"),
  (c!"200", c!"OK"), (c!"201", c!"Created"), (c!"202", c!"Accepted"),
  (c!"203", c!"Non-Authoritative Information"), (c!"204", c!"No Content"), (c!"205", c!"Reset Content"),
  (c!"206", c!"Partial Content"), (c!"208", c!"Already Reported"), (c!"226", c!"IM Used"),
  (c!"300", c!"Multiple Choices"), (c!"301", c!"Moved Permanently"), (c!"302", c!"Found"),
  (c!"303", c!"See Other"), (c!"304", c!"Not Modified"), (c!"305", c!"Use Proxy"),
  (c!"306", c!"Switch Proxy"), (c!"307", c!"Temporary Redirect"), (c!"308", c!"Permanent Redirect"),
  (c!"400", c!"Bad Request"), (c!"401", c!"Unauthorized"), (c!"402", c!"Payment Required"),
  (c!"403", c!"Forbidden"), (c!"404", c!"Not Found"), (c!"405", c!"Method Not Allowed"),
  (c!"406", c!"Not Acceptable"), (c!"407", c!"Proxy Authentication Required"),
  (c!"408", c!"Request Time-out"), (c!"409", c!"Conflict"), (c!"410", c!"Gone"),
  (c!"411", c!"Length Required"), (c!"412", c!"Precondition Failed"), (c!"413", c!"Payload Too Large"),
  (c!"414", c!"URI Too Long"), (c!"415", c!"Unsupported Media Type"), (c!"416", c!"Range Not Satisfiable"),
  (c!"417", c!"Expectation Failed"), (c!"421", c!"Misdirected Request"), (c!"422", c!"Unprocessable Entity"),
  (c!"423", c!"Locked"), (c!"424", c!"Failed Dependency"), (c!"425", c!"Too Early"),
  (c!"426", c!"Upgrade Required"), (c!"428", c!"Precondition Required"), (c!"429", c!"Too Many Requests"),
  (c!"431", c!"Request Header Fields Too Large"), (c!"451", c!"Unavailable For Legal Reasons"),
  (c!"500", c!"Internal Server Error"), (c!"501", c!"Not Implemented"), (c!"502", c!"Bad Gateway"),
  (c!"503", c!"Service Unavailable"), (c!"504", c!"Gateway Time-out"),
  (c!"505", c!"HTTP Version Not Supported"), (c!"506", c!"Variant Also Negotiates (Experimental)"),
  (c!"510", c!"Not Extended"), (c!"511", c!"Network Authentication Required")]

/-- `STATUS_CODES.get(code)` or the empty string. -/
def statusTextOf (code : Str) : Str := (statusCodes.lookup code).getD []

/-- Append to the `__error` array if it is one (src/bif/mod.rs:139-141, 220-222) and set `has_error`. -/
def pushError (sh : Shared) (line : Str) : Shared :=
  let schema := match sh.schema with
    | .obj o => match Obj.get? c!"__error" o with
      | some (.arr a) => .obj (Obj.insert c!"__error" (.arr (a ++ [.str line])) o)
      | _ => .obj o
    | v => v
  { sh with schema := schema, hasError := true }

/-- `line.replace(['\n', '\r'], " ")` (src/bif/mod.rs:137, 218). -/
def oneLine (s : Str) : Str := s.map (fun c => if c = '\n' || c = '\r' then ' ' else c)

end Nts
