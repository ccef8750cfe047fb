import Verif.Model.Prog
/-
The built-in functions, /repo/src/bif/parse_bif_*.rs, and the helpers of /repo/src/bif/mod.rs they use.
-/
set_option autoImplicit false
namespace Nts

/-- `BIF_OPEN` (src/constants.rs:38). -/
abbrev bifOpen : Str := c!"{:"
/-- `BIF_CLOSE` (src/constants.rs:54). -/
abbrev bifClose : Str := c!":}"
/-- `UNPRINTABLE` (src/constants.rs:189). -/
abbrev unprintable : Str := c!"&#0;"
/-- `BACKSPACE` (src/constants.rs:208). -/
abbrev backspace : Str := c!"&#9224"

/-- `.replace(BIF_OPEN, BIF_SANITIZE_OPEN)` then `.replace(BIF_CLOSE, BIF_SANITIZE_CLOSE)`
(src/constants.rs:183-186; used in parse_bif_var.rs:53-54, parse_bif_code.rs:38-39, parse_bif_include.rs:71-72). -/
def sanitizeBifs (s : Str) : Str :=
  replaceAll bifClose c!":&#125;" (replaceAll bifOpen c!"&#123;:" s)

/-- The global data object `self.shared.schema["data"]`. -/
def dataOf (s : St) : Value := s.sh.schema.index c!"data"
/-- The local data object `self.shared.get_indir(&self.inherit.indir)["data"]`. -/
def localDataOf (s : St) : Value := (s.sh.getIndir s.inh.indir).index c!"data"

/-- `Bif::get_data` (src/bif/mod.rs:286-296). -/
def getData (env : Env) (s : St) (name : Str) : Str :=
  match stripPrefix? c!"local::" name with
  | some r => getFromKey env.f64 (localDataOf s) r
  | none => getFromKey env.f64 (dataOf s) name

/-- The choice of the storage in `array`, `bool`, `defined`, `filled`, `each` (e.g. parse_bif_bool.rs:20-26). -/
def storageOf (s : St) (name : Str) : Value × Str :=
  match stripPrefix? c!"local::" name with
  | some r => (localDataOf s, r)
  | none => (dataOf s, name)

/-- `Bif::set_data` (src/bif/mod.rs:305-307). -/
def setData (name value : Str) : Prog Unit := perform (.setData name (.str value))

/-- `Bif::get_trans` (src/bif/mod.rs:327-333). -/
def getTrans (env : Env) (s : St) (text : Str) : Str :=
  getFromKey env.f64 ((((s.sh.getIndir s.inh.indir).index c!"locale").index c!"trans").index s.sh.lang) text

/-- `Bif::contains_allow` (src/bif/mod.rs:341-350); `none` is a panic inside `remove_comments`. -/
def containsAllow (source : Str) : Option Bool :=
  if contains c!"{:allow;" source || contains c!"{:!allow;" source then some true
  else (removeComments source).map (fun t => !(startsWith c!"{:;" t && endsWith bifClose t))

/-- `if !self.contains_allow(..) { return Err(msg) }`. -/
def requireAllow (source msg : Str) : Prog Unit :=
  match containsAllow source with
  | none => .panic .bounds
  | some true => .pure ()
  | some false => bifError msg

/-- `Bif::extract_params_code` (src/bif/mod.rs:365-385). -/
def extractParamsCode (parse : Bool) : Prog Bool := do
  let s ← getSt
  let pos := getCodePosition s.b.src
  modB (fun b => match pos with
    | some p => { b with params := trim (b.src.take p), code := trim (b.src.drop (p + 2)) }
    | none => { b with params := [], code := trim b.src })
  let s ← getSt
  if parse && contains bifOpen s.b.params then do
    perform (.setFlags [])
    let p ← childParse s.b.params false
    setParams p
    let s ← getSt
    modB (fun b => { b with flags := s.sh.flags })
    return pos.isSome
  else
    return pos.isSome

/-- The loop of `Bif::extract_args` (src/bif/mod.rs:409-417). -/
def argLoop : List Str → Prog (List Str)
  | [] => .pure []
  | a :: r => do
    let x ← (if contains bifOpen a then childParse a false else .pure a)
    let xs ← argLoop r
    return x :: xs

/-- `Bif::extract_args` (src/bif/mod.rs:397-420). -/
def extractArgs : Prog (List Str) := do
  let s ← getSt
  match s.b.params with
  | [] => return [[]]
  | d :: r => argLoop (splitChar d (d :: r))

/-- `args.get(i).cloned().ok_or_else(|| self.bif_error(msg))?`. -/
def argReq (args : List Str) (i : Nat) (msg : Str) : Prog Str :=
  match args[i]? with
  | some a => .pure a
  | none => bifError msg

/-- `args.get(i).cloned().unwrap_or("")`. -/
def argOpt (args : List Str) (i : Nat) : Str := (args[i]?).getD []

/-- `if bad { return Err(BIF_ERROR_MODIFIER_NOT_ALLOWED) }`, the first statement of most BIFs. -/
def denyMods (bad : BifS → Bool) : Prog Unit := do
  let s ← getSt
  if bad s.b then bifError c!"modifier not allowed" else .pure ()

/-- `if !self.flags.is_empty() { return Err(BIF_ERROR_FLAGS_NOT_ALLOWED) }`. -/
def denyFlags : Prog Unit := do
  let s ← getSt
  if s.b.flags.isEmpty then .pure () else bifError c!"flags not allowed"

/-- `if self.params.contains("{:flg;") { return Err(BIF_ERROR_FLAGS_NOT_ALLOWED) }`. -/
def denyFlgParams : Prog Unit := do
  let s ← getSt
  if contains c!"{:flg;" s.b.params then bifError c!"flags not allowed" else .pure ()

/-- The first flag that is not in the list of allowed flags (e.g. parse_bif_allow.rs:26-35). -/
def badFlag (flags : Str) (allowed : List Str) : Option Str :=
  ((splitChar '|' flags).filter (fun f => !f.isEmpty)).find? (fun f => !(allowed.contains f))

/-- `for f in flags.split('|')... if !flags_allowed.contains(f) { return Err(..) }`. -/
def checkFlags (allowed : List Str) : Prog Unit := do
  let s ← getSt
  match badFlag s.b.flags allowed with
  | some f => bifError (f ++ c!" flag not allowed")
  | none => .pure ()

/-- `self.flags.contains("|name|")`. -/
def hasFlag (b : BifS) (f : Str) : Bool := contains (c!"|" ++ f ++ c!"|") b.flags

/-- `if self.code.contains(BIF_OPEN) { self.code = new_child_parse!(self, &self.code, scope) }`. -/
def parseCode (scope : Bool) : Prog Unit := do
  let s ← getSt
  if contains bifOpen s.b.code then do
    let x ← childParse s.b.code scope
    setCode x
  else .pure ()

/-- `self.out = self.code.to_string()`. -/
def outCode : Prog Unit := modB (fun b => { b with out := b.code })

/-- `escape_chars(&unescape_chars(x, b), b)`. -/
def reescape (b : Bool) (x : Str) : Str := escapeChars b (unescapeChars b x)

/-- `Path::exists`. -/
def fileExists (s : St) (p : Str) : Bool := (s.sh.w.fs p).isSome
/-- `fs::read_to_string`. -/
def readFile (s : St) (p : Str) : Option Str := (s.sh.w.fs p).bind (fun e => e.content)

/-- `if let Some(stripped) = p.strip_prefix('#') { current_dir + stripped }`. -/
def hashPath (s : St) (p : Str) : Str :=
  match p with
  | '#' :: r => s.inh.currentDir ++ r
  | p => p

/-- `fs::canonicalize(path).unwrap()`. -/
def canonUnwrap (env : Env) (p : Str) : Prog Str :=
  match env.canon p with
  | .ok c => .pure c
  | .error _ => .panic .unwrap

/-- The file name of `include`, `data`, `locale` (parse_bif_include.rs:30-42, parse_bif_data.rs:49-61,
parse_bif_locale.rs:50-62). -/
def resolveFilePath : Prog Unit := do
  let s ← getSt
  setFilePath s.b.code
  (if contains bifOpen s.b.code then do
    requireAllow s.b.code c!"insecure file name"
    let p ← childParse s.b.code false
    setFilePath p
  else .pure ())
  let s ← getSt
  setFilePath (hashPath s s.b.filePath)

/-! ### one definition per BIF -/

/-- `parse_bif_unknown` (src/bif/parse_bif_unknown.rs:7-11). -/
def bifUnknown : Prog Unit := do
  setAlias c!"unknown"
  bifError c!"unknown bif"

/-- `parse_bif_var` (src/bif/parse_bif_var.rs:10-63). -/
def bifVar (env : Env) : Prog Unit := do
  denyMods (fun b => b.modScope)
  let s ← getSt
  if s.b.src.isEmpty then do
    setAlias c!"unprintable"
    setOut unprintable
  else do
    setAlias c!"var"
    let varName ← (if contains bifOpen s.b.src then do
        requireAllow s.b.src c!"insecure varname"
        childParse s.b.src s.b.modScope
      else .pure s.b.src)
    let s ← getSt
    let out0 := getData env s varName
    let out1 :=
      if (s.b.modFilter || s.sh.filterAll) && !s.b.modNegate then
        if !startsWith c!"CONTEXT->" varName then reescape true out0 else out0
      else if s.sh.filterBifs then sanitizeBifs out0
      else out0
    let out2 :=
      if s.b.modNegate && !s.sh.filterBifs && startsWith c!"CONTEXT->" varName then unescapeChars true out1
      else out1
    setOut out2

/-- The pattern tried for one word of `allow` (src/bif/parse_bif_allow.rs:43-51). -/
def allowPattern (env : Env) (flags word : Str) : Str :=
  let p := if contains c!"|partial|" flags || contains c!"|replace|" flags then c!"*" ++ word ++ c!"*" else word
  if contains c!"|casein|" flags then env.lower p else p

/-- The text compared by `allow` (src/bif/parse_bif_allow.rs:42, 49-53). -/
def allowHaystack (env : Env) (flags code : Str) : Str :=
  if contains c!"|casein|" flags then env.lower code else code

/-- The search loop (src/bif/parse_bif_allow.rs:40-59): the first word that matches. -/
def allowFind (env : Env) (flags code : Str) (words : List Str) : Str :=
  (words.find? (fun w => wildcardMatch (allowHaystack env flags code) (allowPattern env flags w))).getD []

/-- The output for a found word under `replace` (src/bif/parse_bif_allow.rs:63-66). -/
def stripWild (w : Str) : Str :=
  replaceAll c!"." [] (replaceAll c!"?" [] (replaceAll c!"*" [] (replaceAll c!"~" [] w)))

/-- The decision of `allow` (src/bif/parse_bif_allow.rs:61-73). -/
def allowOut (env : Env) (flags : Str) (negate : Bool) (code : Str) (words : List Str) : Str :=
  let found := allowFind env flags code words
  if xor (!found.isEmpty) negate then
    (if contains c!"|replace|" flags then stripWild found else code)
  else []

/-- `parse_bif_allow` (src/bif/parse_bif_allow.rs:10-76). -/
def bifAllow (env : Env) : Prog Unit := do
  denyMods (fun b => b.modFilter || b.modScope)
  let _ ← extractParamsCode true
  let s ← getSt
  let words := getFromKey env.f64 ((s.sh.getIndir s.inh.indir).index c!"declare") s.b.params
  if words.isEmpty then bifError (s.b.params ++ c!" declared is empty")
  else do
    checkFlags [c!"partial", c!"replace", c!"casein"]
    let x ← childParse s.b.code s.b.modScope
    setCode x
    let s ← getSt
    setOut (allowOut env s.b.flags s.b.modNegate s.b.code (splitWhitespace words))

/-- Common body of `array`, `bool`, `defined` and `filled`. -/
def condBif (test : Value → Str → Bool) : Prog Unit := do
  denyMods (fun b => b.modFilter)
  let _ ← extractParamsCode true
  denyFlags
  let s ← getSt
  let st := storageOf s s.b.params
  if xor (test st.1 st.2) s.b.modNegate then do
    parseCode s.b.modScope
    outCode
  else .pure ()

/-- `parse_bif_array` (src/bif/parse_bif_array.rs:9-36). -/
def bifArray : Prog Unit := condBif isArrayKey
/-- `parse_bif_bool` (src/bif/parse_bif_bool.rs:9-36). -/
def bifBool (env : Env) : Prog Unit := condBif (isBoolKey env.f64)
/-- `parse_bif_defined` (src/bif/parse_bif_defined.rs:9-36). -/
def bifDefined : Prog Unit := condBif isDefinedKey
/-- `parse_bif_filled` (src/bif/parse_bif_filled.rs:12-40). -/
def bifFilled : Prog Unit := condBif (fun v k => !isEmptyKey v k)

/-- `parse_bif_coalesce` (src/bif/parse_bif_coalesce.rs:13-23). -/
def bifCoalesce : Prog Unit := do
  denyMods (fun b => b.modFilter || b.modNegate)
  perform (.setLastCoalesce false)
  let s ← getSt
  let x ← childParse s.b.src s.b.modScope
  setOut x

/-- `parse_bif_code` (src/bif/parse_bif_code.rs:11-62). -/
def bifCode : Prog Unit := do
  denyMods (fun b => b.modFilter || b.modNegate)
  let _ ← extractParamsCode true
  checkFlags [c!"safe", c!"encode_tags", c!"encode_bifs", c!"noparse", c!"encode_tags_after"]
  let s ← getSt
  (if hasFlag s.b c!"safe" then setCode (sanitizeBifs (reescape false s.b.code))
  else do
    let c1 := if hasFlag s.b c!"encode_tags" then reescape false s.b.code else s.b.code
    let c2 := if hasFlag s.b c!"encode_bifs" then sanitizeBifs c1 else c1
    setCode c2
    if hasFlag s.b c!"noparse" then .pure () else parseCode s.b.modScope)
  (if hasFlag s.b c!"encode_tags_after" then do
    let s ← getSt
    setCode (reescape false s.b.code)
  else .pure ())
  outCode

/-- Common body of `contains` and `same`. -/
def cmpBif (test : Str → Str → Bool) : Prog Unit := do
  denyMods (fun b => b.modFilter)
  let _ ← extractParamsCode false
  denyFlgParams
  let args ← extractArgs
  let a ← argReq args 1 c!"arguments not found"
  let b ← argReq args 2 c!"arguments not found"
  let s ← getSt
  if xor (test a b) s.b.modNegate then do
    parseCode s.b.modScope
    outCode
  else setOut []

/-- `parse_bif_contains` (src/bif/parse_bif_contains.rs:9-42). -/
def bifContains : Prog Unit := cmpBif (fun haystack needle => contains needle haystack)
/-- `parse_bif_same` (src/bif/parse_bif_same.rs:9-42). -/
def bifSame : Prog Unit := cmpBif (fun a b => a == b)

/-- `i32` addition: `none` is the overflow panic, otherwise two's complement wrap-around. -/
def i32Add (env : Env) (a b : Int) : Option Int :=
  let r := a + b
  if -(2 ^ 31) ≤ r ∧ r < 2 ^ 31 then some r
  else if env.overflowChecks then none
  else some ((r + 2 ^ 31) % 2 ^ 32 - 2 ^ 31)

/-- `parse_bif_count` (src/bif/parse_bif_count.rs:19-56). -/
def bifCount (env : Env) : Prog Unit := do
  denyMods (fun b => b.modFilter || b.modNegate || b.modScope)
  let isSet ← extractParamsCode true
  parseCode false
  let s ← getSt
  (if isSet then
    match parseI32 s.b.code with
    | none => bifError c!"argument is not a number"
    | some n => do
      setData s.b.params (showInt n)
      setOut []
  else
    match parseI32 (getData env s s.b.code) with
    | none => bifError c!"argument is not a number"
    | some n =>
      match i32Add env n 1 with
      | none => .panic .overflow
      | some m => do
        setData s.b.code (showInt m)
        setOut (showInt n))
  bifError c!"Bif 'count' is deprecated"

/-- `data.as_object_mut().and_then(|obj| obj.remove("data")).unwrap_or(Null)` (parse_bif_data.rs:35-38). -/
def dataPart (v : Value) : Value := (v.get? c!"data").getD .null

/-- Parse a JSON document and merge it into a section of the block schema
(parse_bif_data.rs:25-42, 88-105; parse_bif_locale.rs:33-43, 93-103). -/
def mergeJson (env : Env) (sec : Str) (part : Value → Value) (text : Str) : Prog Unit :=
  match env.jsonParse text with
  | none => bifError c!"not a valid JSON file"
  | some v => do
    perform .createBlockSchema
    perform (.mergeIndir sec (part v))

/-- `parse_bif_data` (src/bif/parse_bif_data.rs:11-110). -/
def bifData (env : Env) : Prog Unit := do
  denyMods (fun b => b.modFilter || b.modScope)
  let _ ← extractParamsCode true
  let s ← getSt
  if !s.b.flags.isEmpty && !hasFlag s.b c!"require" && !hasFlag s.b c!"inline" then bifError c!"flags not allowed"
  else if hasFlag s.b c!"inline" then do
    mergeJson env c!"data" dataPart s.b.code
    setOut unprintable
  else do
    resolveFilePath
    let s ← getSt
    if !fileExists s s.b.filePath then
      (if hasFlag s.b c!"require" then bifError c!"file not found" else setOut [])
    else do
      let canon ← canonUnwrap env s.b.filePath
      if s.b.modNegate && s.inh.dataFiles.contains canon then setOut unprintable
      else do
        perform (.pushFile .data canon)
        mergeJson env c!"data" dataPart ((readFile s s.b.filePath).getD [])
        setOut unprintable

/-- `parse_bif_locale` (src/bif/parse_bif_locale.rs:11-108). -/
def bifLocale (env : Env) : Prog Unit := do
  denyMods (fun b => b.modFilter || b.modScope)
  let _ ← extractParamsCode true
  let s ← getSt
  if !s.b.flags.isEmpty && !hasFlag s.b c!"require" && !hasFlag s.b c!"inline" && !hasFlag s.b c!"noparse" then
    bifError c!"flags not allowed"
  else if hasFlag s.b c!"inline" then do
    parseCode false
    let s ← getSt
    mergeJson env c!"locale" id s.b.code
    setOut []
  else do
    resolveFilePath
    let s ← getSt
    if !fileExists s s.b.filePath then
      (if hasFlag s.b c!"require" then bifError c!"file not found" else .pure ())
    else do
      let canon ← canonUnwrap env s.b.filePath
      if s.b.modNegate && s.inh.localeFiles.contains canon then setOut unprintable
      else do
        perform (.pushFile .locale canon)
        let raw := (readFile s s.b.filePath).getD []
        let text ← (if !hasFlag s.b c!"noparse" && contains bifOpen raw then childParse raw false else .pure raw)
        mergeJson env c!"locale" id text
        setOut unprintable

/-- `parse_bif_date` (src/bif/parse_bif_date.rs:11-37). -/
def bifDate (env : Env) : Prog Unit := do
  denyMods (fun b => b.modFilter || b.modNegate || b.modScope)
  let _ ← extractParamsCode true
  denyFlags
  let t ← tick
  let s ← getSt
  (if contains bifOpen s.b.src then do
    let x ← childParse s.b.code s.b.modScope
    setCode x
  else setCode (trim s.b.src))
  let s ← getSt
  if s.b.code.isEmpty then setOut (showNat (env.now t))
  else match env.utcFormat t s.b.src with
    | some x => setOut x
    | none => .panic .fmt

/-- `debug_enable` (src/bif/parse_bif_debug.rs:76-103). -/
def debugEnable (env : Env) : Prog Bool := do
  let s ← getSt
  if s.sh.debugFile.isEmpty then return false
  else match s.sh.w.fs s.sh.debugFile with
    | none => return false
    | some e =>
      if !e.isFile then return false
      else do
        let t ← tick
        return match env.age t e.mtime with
          | some d => decide (d < s.sh.debugExpire * 1000000000)
          | none => false

/-- `parse_bif_debug` (src/bif/parse_bif_debug.rs:12-73). -/
def bifDebug (env : Env) : Prog Unit := do
  denyMods (fun b => b.modScope)
  let enabled ← debugEnable env
  let s ← getSt
  if s.b.modNegate then setOut (if enabled then unprintable else [])
  else if !enabled then do
    setOut []
    bifError c!"Debug is disabled. Remember to remove the bif debug in production."
  else do
    let _ ← extractParamsCode true
    let s ← getSt
    let p : Value × Str := match stripPrefix? c!"local::" s.b.code with
      | some r => (s.sh.getIndir s.inh.indir, r)
      | none => (s.sh.schema, s.b.code)
    if s.b.code.isEmpty then setOut VERSION
    else do
      let k : Str := if p.2 = c!"full-schema" then [] else replaceAll c!"->" c!"/" (c!"/" ++ p.2)
      let out : Str := match p.1.pointer k with
        | some v => env.jsonPretty v
        | none => c!"Undefined: '" ++ s.b.code ++ c!"'"
      setOut (if s.b.modFilter then reescape true out else out)

/-- `parse_bif_declare` (src/bif/parse_bif_declare.rs:9-35). -/
def bifDeclare : Prog Unit := do
  denyMods (fun b => b.modFilter || b.modNegate || b.modScope)
  let _ ← extractParamsCode true
  denyFlags
  let s ← getSt
  if contains c!"snippet" s.inh.currentFile then do
    perform .createBlockSchema
    (if contains bifOpen s.b.code then do
      let x ← childParse s.b.code false
      setCode (replaceAll unprintable [] x)
    else .pure ())
    let s ← getSt
    perform (.setIndir c!"declare" s.b.params (.str s.b.code))
    setOut []
  else bifError c!"declare cannot be set here"

/-- `parse_bif_each_iter` (src/bif/parse_bif_each.rs:94-126). -/
def eachIter (keyName valName key : Str) (val : Value) (blocks : List (Nat × Nat)) : Prog Unit := do
  perform (.setData keyName (.str key))
  perform (.setData valName val)
  let s ← getSt
  let x ← perform (.childBlocks s.b.code blocks s.b.modScope)
  modB (fun b => { b with out := b.out ++ x })

/-- The elements visited by `each` (src/bif/parse_bif_each.rs:74-86): key text and value. -/
def eachItems : Value → List (Str × Value)
  | .obj o => o
  | .arr a => (List.range a.length).zip a |>.map (fun p => (showNat p.1, p.2))
  | _ => []

/-- `parse_bif_each` (src/bif/parse_bif_each.rs:14-92). -/
def bifEach : Prog Unit := do
  denyMods (fun b => b.modFilter || b.modNegate)
  let _ ← extractParamsCode true
  denyFlags
  let s ← getSt
  match splitWhitespace s.b.params with
  | [] => bifError c!"arguments not found"
  | [_] => bifError c!"arguments 'key' not found"
  | [_, _] => bifError c!"arguments 'value' not found"
  | arrayName :: keyName :: valName :: _ =>
    if startsWith c!"local::" keyName || startsWith c!"local::" valName then bifError c!"insecure varname"
    else do
      let restoreKey := (dataOf s).index keyName
      let restoreVal := (dataOf s).index valName
      let st := storageOf s arrayName
      let collection := (resolvePointer st.1 st.2).getD .null
      match extractBlocks s.b.code with
      | .error p => bifError (c!"Unmatched block at position " ++ showNat (byteLen (s.b.code.take p)))
      | .ok blocks => do
        forList (eachItems collection) (fun kv => eachIter keyName valName kv.1 kv.2 blocks)
        perform (.setData keyName restoreKey)
        perform (.setData valName restoreVal)

/-- `parse_bif_else` (src/bif/parse_bif_else.rs:11-35). -/
def bifElse : Prog Unit := do
  denyMods (fun b => b.modFilter)
  let _ ← extractParamsCode true
  denyFlags
  let s ← getSt
  if xor s.inh.lastBifOut s.b.modNegate then setOut []
  else do
    parseCode s.b.modScope
    outCode

/-- `parse_bif_eval` (src/bif/parse_bif_eval.rs:9-38). -/
def bifEval (env : Env) : Prog Unit := do
  denyMods (fun b => b.modFilter)
  let _ ← extractParamsCode false
  denyFlgParams
  let s ← getSt
  (if contains bifOpen s.b.params then do
    let x ← childParse s.b.params s.b.modScope
    setParams x
  else .pure ())
  let s ← getSt
  if xor (!s.b.params.isEmpty) s.b.modNegate then do
    (if contains bifOpen s.b.code then do
      let restore := getData env s c!"__eval__"
      setData c!"__eval__" s.b.params
      let x ← childParse s.b.code s.b.modScope
      setCode x
      setData c!"__eval__" restore
    else .pure ())
    outCode
  else setOut []

/-- The output of `exit`, `moveto`, `redirect` inside a cache block (parse_bif_exit.rs:17-21,
parse_bif_moveto.rs:16-20, parse_bif_redirect.rs:15-19). -/
def outUncached : Prog Unit := do
  let s ← getSt
  setOut (if s.inh.inCache then c!"{:!cache;" ++ s.raw ++ c!":}" else [])

/-- `parse_bif_exit` (src/bif/parse_bif_exit.rs:12-57). -/
def bifExit : Prog Unit := do
  denyMods (fun b => b.modFilter || b.modScope)
  outUncached
  let hasStatusParams ← extractParamsCode true
  denyFlags
  parseCode false
  let s ← getSt
  let code := if hasStatusParams then (if s.b.params.isEmpty then c!"200" else s.b.params)
    else if s.b.code.isEmpty then c!"200" else s.b.code
  let param := if hasStatusParams then s.b.code else []
  perform (.setStatus code param)
  perform (.setExit (!s.b.modNegate))

/-- `DIV_FETCH_FORM` (src/constants.rs:491-495). -/
def divFetchForm : Str :=
  c!"\n<form id=\"{id}\" name=\"{name}\" class=\"neutral-fetch-form {class}\" method=\"POST\" action=\"{endpoint}\" data-wrap=\"{wrap}\">\n    {body}\n</form>\n"
/-- `DIV_FETCH_NONE`/`AUTO`/`VISIBLE`/`CLICK` (src/constants.rs:498-523): they differ only in the class name. -/
def divFetch (kind : Str) : Str :=
  c!"\n<div id=\"{id}\" class=\"neutral-fetch-" ++ kind ++
  c!" {class}\" data-url=\"{endpoint}\" data-wrap=\"{wrap}\">\n    {body}\n</div>\n"

/-- The choice of the container (src/bif/parse_bif_fetch.rs:34-41). -/
def fetchDiv (event : Str) : Str :=
  if event = c!"form" then divFetchForm
  else if event = c!"none" then divFetch c!"none"
  else if event = c!"visible" then divFetch c!"visible"
  else if event = c!"click" then divFetch c!"click"
  else divFetch c!"auto"

/-- `parse_bif_fetch` (src/bif/parse_bif_fetch.rs:9-67). -/
def bifFetch (env : Env) : Prog Unit := do
  denyMods (fun b => b.modFilter || b.modNegate || b.modScope)
  let _ ← extractParamsCode true
  denyFlags
  let args ← extractArgs
  let url ← argReq args 1 c!"arguments not found"
  parseCode false
  let s ← getSt
  let out :=
    replaceAll c!"{endpoint}" url
      (replaceAll c!"{body}" s.b.code
        (replaceAll c!"{class}" (argOpt args 4)
          (replaceAll c!"{wrap}" (argOpt args 3)
            (replaceAll c!"{name}" (argOpt args 6)
              (replaceAll c!"{id}" (argOpt args 5) (fetchDiv (argOpt args 2)))))))
  if !s.sh.disableJs && !s.sh.alreadyJs then do
    setOut (out ++ c!"{:!cache;{:moveto;</body>>" ++ env.neutralJs ++ c!":}:}")
    perform .setAlreadyJs
  else setOut out

/-- `parse_bif_flg` (src/bif/parse_bif_flg.rs:10-30). -/
def bifFlg : Prog Unit := do
  denyMods (fun b => b.modFilter || b.modNegate || b.modUpline || b.modScope)
  let _ ← extractParamsCode true
  denyFlags
  parseCode false
  let s ← getSt
  perform (.setFlags (replaceAll c!" " c!"|" (c!" " ++ s.b.code ++ c!" ")))
  setOut []

/-- `a..=b` as a list. -/
def intRange (a b : Int) : List Int := (List.range (b - a + 1).toNat).map (fun (i : Nat) => a + (i : Int))

/-- The values of the loop variable of `for` (src/bif/parse_bif_for.rs:62-70). -/
def forValues (a b : Int) : List Int := if a > b then (intRange b a).reverse else intRange a b

/-- `parse_bif_for_iter` (src/bif/parse_bif_for.rs:76-100). -/
def forIter (varName val : Str) (blocks : List (Nat × Nat)) : Prog Unit := do
  setData varName val
  let s ← getSt
  let x ← perform (.childBlocks s.b.code blocks s.b.modScope)
  modB (fun b => { b with out := b.out ++ x })

/-- `parse_bif_for` (src/bif/parse_bif_for.rs:11-74). -/
def bifFor (env : Env) : Prog Unit := do
  denyMods (fun b => b.modFilter || b.modNegate)
  let _ ← extractParamsCode true
  denyFlags
  modB (fun b => { b with params := replaceAll c!".." c!" " b.params })
  let s ← getSt
  match splitWhitespace s.b.params with
  | [] => bifError c!"arguments not found"
  | [_] => bifError c!"arguments 'from' and 'to' not found"
  | varName :: fromS :: rest =>
    match parseI32 fromS with
    | none => bifError c!"argument is not a number"
    | some a =>
      match rest with
      | [] => bifError c!"arguments 'to' not found"
      | toS :: _ =>
        match parseI32 toS with
        | none => bifError c!"argument is not a number"
        | some b =>
          match extractBlocks s.b.code with
          | .error p => bifError (c!"Unmatched block at position " ++ showNat (byteLen (s.b.code.take p)))
          | .ok blocks => do
            let restore := getData env s varName
            forList (forValues a b) (fun i => forIter varName (showInt i) blocks)
            setData varName restore

/-- `parse_bif_hash` (src/bif/parse_bif_hash.rs:12-38). -/
def bifHash (env : Env) : Prog Unit := do
  denyMods (fun b => b.modFilter || b.modNegate || b.modScope)
  modB (fun b => { b with code := trim b.src })
  let s ← getSt
  (if contains bifOpen s.b.src then do
    let x ← childParse s.b.code s.b.modScope
    setCode x
  else setCode (trim s.b.code))
  let s ← getSt
  if s.b.code.isEmpty then do
    let t ← tick
    setOut (env.randHash t)
  else setOut (env.md5 s.b.code)

/-- `parse_bif_include` (src/bif/parse_bif_include.rs:13-95). -/
def bifInclude (env : Env) : Prog Unit := do
  denyMods (fun b => b.modFilter || b.modScope)
  let _ ← extractParamsCode true
  checkFlags [c!"require", c!"safe", c!"noparse"]
  resolveFilePath
  let s ← getSt
  if !fileExists s s.b.filePath then
    (if hasFlag s.b c!"require" then bifError c!"file not found" else .pure ())
  else do
    (match env.parent s.b.filePath with
      | some d => setDir d
      | none => .pure ())
    let canon ← canonUnwrap env s.b.filePath
    if s.b.modNegate && s.inh.includeFiles.contains canon then setOut []
    else do
      let raw := (readFile s s.b.filePath).getD []
      if hasFlag s.b c!"safe" then do
        setCode (sanitizeBifs (reescape false raw))
        outCode
      else if hasFlag s.b c!"noparse" then do
        setCode raw
        outCode
      else do
        perform (.pushFile .incl canon)
        if contains c!"remove" s.sh.comments then
          match removeComments raw with
          | none => .panic .bounds
          | some t => do
            let x ← childParse t true
            setOut x
        else do
          let x ← childParse raw true
          setOut x

/-- The text of one value of an object in `join` (src/bif/parse_bif_join.rs:61-68). -/
def joinText (env : Env) : Value → Str
  | .obj _ => []
  | .arr _ => []
  | .str s => s
  | .num n => showNum env.f64 n
  | .bool b => showBool b
  | .null => c!"null"

/-- The joined text (src/bif/parse_bif_join.rs:50-88). -/
def joinValue (env : Env) (keys : Bool) (sep : Str) : Value → Str
  | .obj o => if keys then joinStr sep (o.map (fun kv => kv.1)) else joinStr sep (o.map (fun kv => joinText env kv.2))
  | .arr a => if keys then joinStr sep ((List.range a.length).map showNat)
    else joinStr sep (a.map (fun v => (v.asStr?).getD []))
  | _ => []

/-- The `keys`/`only_custom_id` switch: `""`, `"false"` and `"0"` are false (parse_bif_join.rs:31-36,
parse_bif_cache.rs:72-75). -/
def argTruthy (a : Str) : Bool := !(a = [] || a = c!"false" || a = c!"0")

/-- `parse_bif_join` (src/bif/parse_bif_join.rs:12-93). -/
def bifJoin (env : Env) : Prog Unit := do
  denyMods (fun b => b.modFilter || b.modNegate || b.modScope)
  modB (fun b => { b with params := b.src })
  let args ← extractArgs
  let arrayName ← argReq args 1 c!"arguments 'array' not found"
  let separator ← argReq args 2 c!"arguments 'separator' not found"
  let keys := argTruthy (argOpt args 3)
  let s ← getSt
  let name := replaceAll c!"->" c!"/" (c!"/" ++ arrayName)
  let r := if startsWith c!"/local::" name then
      (localDataOf s).pointer (replaceAll c!"/local::" c!"/" name)
    else (dataOf s).pointer name
  setOut (match r with
    | some v => joinValue env keys separator v
    | none => [])

/-- `parse_bif_lang` (src/bif/parse_bif_lang.rs:9-17). -/
def bifLang : Prog Unit := do
  denyMods (fun b => b.modFilter || b.modNegate || b.modScope)
  let s ← getSt
  setOut s.sh.lang

/-- `parse_bif_moveto` and `moveto` (src/bif/parse_bif_moveto.rs:11-48). -/
def bifMoveto (env : Env) : Prog Unit := do
  denyMods (fun b => b.modFilter || b.modNegate || b.modScope)
  outUncached
  let _ ← extractParamsCode true
  denyFlags
  parseCode false
  let s ← getSt
  perform (.setMoveto (env.md5 (replaceAll c!" " [] (replaceAll c!"\n" [] s.b.code)))
    (.obj [(s.b.params, .str s.b.code)]))

/-- `parse_bif_neutral` (src/bif/parse_bif_neutral.rs:10-18). -/
def bifNeutral : Prog Unit := do
  denyMods (fun b => b.modFilter || b.modNegate || b.modScope)
  let s ← getSt
  setOut s.raw

/-- `parse_bif_param` (src/bif/parse_bif_param.rs:10-49). -/
def bifParam (env : Env) : Prog Unit := do
  denyMods (fun b => b.modFilter || b.modNegate || b.modScope)
  let isSet ← extractParamsCode true
  denyFlags
  let s ← getSt
  if isSet then
    if s.inh.alias = c!"code" then do
      parseCode false
      perform .createBlockSchema
      let s ← getSt
      perform (.setIndir c!"params" s.b.params (.str s.b.code))
      setOut []
    else bifError c!"param cannot be set here"
  else do
    parseCode false
    let s ← getSt
    setCode (getFromKey env.f64 ((s.sh.getIndir s.inh.indir).index c!"params") s.b.code)
    outCode

/-- `parse_bif_rand` (src/bif/parse_bif_rand.rs:11-64). -/
def bifRand (env : Env) : Prog Unit := do
  denyMods (fun b => b.modFilter || b.modNegate || b.modScope)
  modB (fun b => { b with code := trim b.src })
  let s ← getSt
  (if contains bifOpen s.b.src then do
    let x ← childParse s.b.code s.b.modScope
    setCode x
  else setCode (trim s.b.src))
  let s ← getSt
  if s.b.code.isEmpty then do
    let t ← tick
    setOut (showInt (env.randRange t 100000000 999999999))
  else do
    modB (fun b => { b with code := replaceAll c!".." c!" " b.code })
    let s ← getSt
    match splitWhitespace s.b.code with
    | [] => bifError c!"arguments not found"
    | a :: rest =>
      match parseI32 a with
      | none => bifError c!"argument is not a number"
      | some x =>
        match rest with
        | [] => bifError c!"arguments not found"
        | b :: _ =>
          match parseI32 b with
          | none => bifError c!"argument is not a number"
          | some y =>
            if x > y then bifError c!"from > to"
            else do
              let t ← tick
              setOut (showInt (env.randRange t x y))

/-- `REDIR_JS_RELOAD_TOP` (src/constants.rs:339-340). -/
def redirReloadTop : Str :=
  c!"<!DOCTYPE html><script>top.location.href=self.location.href.split('#')[0];</script>"
/-- `REDIR_JS_RELOAD_SELF` (src/constants.rs:343-344). -/
def redirReloadSelf : Str :=
  c!"<!DOCTYPE html><script>self.location.href=self.location.href.split('#')[0]</script>"
/-- `REDIR_JS_REDIRECT_TOP` (src/constants.rs:348). -/
def redirTop : Str := c!"<!DOCTYPE html><script>top.location.href='{}';</script>"
/-- `REDIR_JS_REDIRECT_SELF` (src/constants.rs:352). -/
def redirSelf : Str := c!"<!DOCTYPE html><script>self.location.href='{}';</script>"

/-- The status of a redirect (src/bif/parse_bif_redirect.rs:32-125): status code and JavaScript page, or the
error message. -/
def redirectPlan (hasParams : Bool) (params code : Str) : Except Str (Str × Option Str) :=
  if hasParams then
    if params = c!"301" || params = c!"302" || params = c!"303" || params = c!"307" || params = c!"308" then
      (if code.isEmpty then .error c!"this redirection requires URL" else .ok (params, none))
    else if params = c!"js:reload:top" then .ok (c!"200", some redirReloadTop)
    else if params = c!"js:reload:self" then .ok (c!"200", some redirReloadSelf)
    else if params = c!"js:redirect:top" then
      (if code.isEmpty then .error c!"this redirection requires URL"
       else .ok (c!"200", some (replaceAll c!"{}" code redirTop)))
    else if params = c!"js:redirect:self" then
      (if code.isEmpty then .error c!"this redirection requires URL"
       else .ok (c!"200", some (replaceAll c!"{}" code redirSelf)))
    else if !contains c!"js:reload:self" code || !contains c!"js:reload:top" code then
      .error c!"status code not allowed"
    else .ok (c!"200", none)
  else if code = c!"js:reload:top" then .ok (c!"200", some redirReloadTop)
  else if code = c!"js:reload:self" then .ok (c!"200", some redirReloadSelf)
  else .error c!"redirect type not allowed"

/-- `parse_bif_redirect` (src/bif/parse_bif_redirect.rs:10-139). -/
def bifRedirect : Prog Unit := do
  denyMods (fun b => b.modFilter || b.modScope || b.modNegate)
  outUncached
  let hasParams ← extractParamsCode true
  denyFlags
  parseCode false
  let s ← getSt
  match redirectPlan hasParams s.b.params s.b.code with
  | .error msg => bifError msg
  | .ok (code, js) => do
    (match js with
      | some x => perform (.setRedirectJs x)
      | none => .pure ())
    perform (.setStatus code s.b.code)
    perform (.setExit (!s.b.modNegate))

/-- `parse_bif_replace` (src/bif/parse_bif_replace.rs:10-40). -/
def bifReplace : Prog Unit := do
  denyMods (fun b => b.modFilter || b.modNegate || b.modScope)
  let _ ← extractParamsCode false
  denyFlgParams
  let args ← extractArgs
  let a ← argReq args 1 c!"arguments not found"
  let b ← argReq args 2 c!"arguments not found"
  parseCode false
  let s ← getSt
  setOut (replaceAll a b s.b.code)

/-- `parse_bif_snippet` (src/bif/parse_bif_snippet.rs:16-89). -/
def bifSnippet (env : Env) : Prog Unit := do
  denyMods (fun b => b.modFilter || b.modNegate || b.modScope)
  setAlias c!"snippet"
  let isSet ← extractParamsCode true
  checkFlags [c!"static"]
  let s ← getSt
  if isSet then
    if contains c!"snippet" s.inh.currentFile || s.inh.alias = c!"snippet" then do
      (if hasFlag s.b c!"static" then do
        let x ← childParse s.b.code s.b.modScope
        setCode x
      else perform .createBlockSchema)
      let s ← getSt
      perform (.setIndir c!"snippets" s.b.params (.str s.b.code))
      perform (.setIndir c!"snippets_set_dir" s.b.params (.str s.inh.currentDir))
      setOut []
    else bifError c!"snippet cannot be set here"
  else do
    parseCode false
    let s ← getSt
    let name := s.b.code
    let body := getFromKey env.f64 ((s.sh.getIndir s.inh.indir).index c!"snippets") name
    setCode body
    (if contains bifOpen body then do
      let setDir' := getFromKey env.f64 ((s.sh.getIndir s.inh.indir).index c!"snippets_set_dir") name
      (if setDir'.isEmpty then .pure () else perform (.setCurrentDir setDir'))
      let x ← childParse body (contains c!"{:snip" body)
      setCode x
    else .pure ())
    outCode

/-- `parse_bif_sum` (src/bif/parse_bif_sum.rs:9-43). -/
def bifSum (env : Env) : Prog Unit := do
  denyMods (fun b => b.modFilter || b.modNegate || b.modScope)
  modB (fun b => { b with params := b.src })
  denyFlgParams
  let args ← extractArgs
  let a ← argReq args 1 c!"arguments not found"
  let b ← argReq args 2 c!"arguments not found"
  match env.f64.parse a with
  | none => bifError c!"invalid argument 1"
  | some x =>
    match env.f64.parse b with
    | none => bifError c!"invalid argument 2"
    | some y => setOut (env.f64.show_ (env.f64.add x y))

/-- `parse_bif_trans` (src/bif/parse_bif_trans.rs:9-33). -/
def bifTrans (env : Env) : Prog Unit := do
  denyMods (fun b => b.modFilter || b.modScope)
  let s ← getSt
  (if contains bifOpen s.b.src then do
    let x ← childParse s.b.src s.b.modScope
    setSrc x
  else .pure ())
  let s ← getSt
  let trans := getTrans env s s.b.src
  setOut (if trans.isEmpty then (if s.b.modNegate then [] else s.b.src) else trans)

/-! ### cache -/

/-- The cache key text (src/bif/parse_bif_cache.rs:69-99). -/
def cacheId (env : Env) (s : St) (hasPost hasGet hasCookies : Bool) (args : List Str) (expires : Str) : Str :=
  let id := argOpt args 2
  if argTruthy (argOpt args 3) then id
  else
    let ctx := (dataOf s).index c!"CONTEXT"
    id ++ s.sh.lang ++ expires
      ++ (if hasPost then env.jsonShow (ctx.index c!"POST") else [])
      ++ (if hasGet then env.jsonShow (ctx.index c!"GET") else [])
      ++ (if hasCookies then env.jsonShow (ctx.index c!"COOKIES") else [])
      ++ getData env s c!"CONTEXT->HOST" ++ getData env s c!"CONTEXT->ROUTE" ++ s.b.code

/-- `get_cache_dir` (src/bif/parse_bif_cache.rs:207-219).  The hash has 64 characters. -/
def cacheDirOf (sh : Shared) (hash : Str) : Str :=
  sh.cacheDir ++ (if sh.cachePrefix.isEmpty then [] else c!"/" ++ sh.cachePrefix) ++ c!"/" ++ hash.take 3

/-- The file name (src/bif/parse_bif_cache.rs:103-106). -/
def cacheFile (env : Env) (sh : Shared) (id expires : Str) : Str :=
  cacheDirOf sh (env.sha256 id) ++ c!"/" ++ env.sha256 id ++ c!"-" ++ expires

/-- `cache_file_expires` (src/bif/parse_bif_cache.rs:161-190) on an existing file; `none` is the overflow
panic of `file_modified_time + expires`. -/
def cacheExpired (env : Env) (now mtime expires : Nat) : Option Bool :=
  if mtime + expires < 2 ^ 64 then some (decide (now > mtime + expires))
  else if env.overflowChecks then none
  else some (decide (now > (mtime + expires) % 2 ^ 64))

/-- Evaluate the body with `in_cache` set (src/bif/parse_bif_cache.rs:115-119, 125-129). -/
def cacheParse (restore : Bool) (store : Str → Prog Unit) : Prog Unit := do
  let s ← getSt
  if contains bifOpen s.b.code then do
    perform (.setInCache true)
    let x ← childParse s.b.code s.b.modScope
    store x
    perform (.setInCache restore)
  else .pure ()

/-- Evaluate and store a new cache file (src/bif/parse_bif_cache.rs:124-156).  `File::create` truncates. -/
def cacheStore (env : Env) (restore : Bool) (dir file : Str) : Prog Unit := do
  cacheParse restore setCode
  outCode
  let s ← getSt
  let t ← tick
  match env.mkdirErr t dir with
  | some e => bifError (c!"Failed to create cache directory " ++ dir ++ c!": " ++ e)
  | none =>
    match env.createErr t file with
    | some e => bifError (c!"Failed to create file " ++ file ++ c!": " ++ e)
    | none => do
      perform (.writeFile file [] (env.now t))
      match env.writeErr t file with
      | some e => bifError (c!"Failed to write to cache " ++ file ++ c!": " ++ e)
      | none => perform (.writeFile file s.b.code (env.now t))

/-- The lookup of src/bif/parse_bif_cache.rs:108-156. -/
def cacheLookup (env : Env) (restore : Bool) (dir file expires : Str) : Prog Unit := do
  let s ← getSt
  match s.sh.w.fs file with
  | none => cacheStore env restore dir file
  | some e => do
    let t ← tick
    match cacheExpired env (env.now t) e.mtime ((parseU64 expires).getD 0) with
    | none => .panic .overflow
    | some true => cacheStore env restore dir file
    | some false =>
      match e.content with
      | some content => setOut content
      | none => do
        cacheParse restore setOut
        bifError (c!"Failed to read cache " ++ file)

/-- Is the cache switched off for this request? (src/bif/parse_bif_cache.rs:46-50) -/
def cacheOff (sh : Shared) (hasPost hasGet hasCookies : Bool) : Bool :=
  sh.cacheDisable || (hasPost && !sh.cacheOnPost) || (hasGet && !sh.cacheOnGet)
    || (hasCookies && !sh.cacheOnCookies)

/-- `parse_bif_cache` (src/bif/parse_bif_cache.rs:19-159). -/
def bifCache (env : Env) : Prog Unit := do
  denyMods (fun b => b.modFilter || b.modScope)
  let _ ← extractParamsCode false
  denyFlgParams
  let s ← getSt
  if s.b.modNegate then
    if s.inh.inCache then setOut s.raw
    else do
      let x ← childParse s.b.code s.b.modScope
      setOut x
  else do
    let restore := s.inh.inCache
    let ctx := (dataOf s).index c!"CONTEXT"
    let hasPost := !isEmptyKey ctx c!"POST"
    let hasGet := !isEmptyKey ctx c!"GET"
    let hasCookies := !isEmptyKey ctx c!"COOKIES"
    if cacheOff s.sh hasPost hasGet hasCookies then do
      parseCode s.b.modScope
      outCode
    else do
      perform (.setInCache true)
      let args ← extractArgs
      perform (.setInCache restore)
      let expires ← argReq args 1 c!"arguments 'expires' not found"
      let s ← getSt
      let id := cacheId env s hasPost hasGet hasCookies args expires
      cacheLookup env restore (cacheDirOf s.sh (env.sha256 id)) (cacheFile env s.sh id expires) expires

/-! ### obj -/

/-- The string case of `parse_obj_values` (src/bif/parse_bif_obj.rs:230-234, 237-240). -/
def objString (x : Str) : Prog Value := do
  if contains bifOpen x then do
    let y ← childParse x false
    return .str y
  else return .str x

mutual
/-- The treatment of one entry in `parse_obj_values` (src/bif/parse_bif_obj.rs:224-244). -/
def objEntry (recursive : Bool) (key : Str) : Value → Prog Value
  | .str x =>
    if key = c!"file" || key = c!"template" || key = c!"venv" || key = c!"schema_data" || key = c!"fpm"
      || key = c!"params" || recursive then objString x
    else .pure (.str x)
  | .obj o =>
    if key = c!"file" || key = c!"template" || key = c!"venv" || key = c!"schema_data" || key = c!"fpm" then
      .pure (.obj o)
    else if key = c!"params" || recursive then (objEntries true o).bind (fun o' => .pure (.obj o'))
    else .pure (.obj o)
  | v => .pure v
/-- The loop of `parse_obj_values` (src/bif/parse_bif_obj.rs:223-245). -/
def objEntries (recursive : Bool) : List (Str × Value) → Prog (List (Str × Value))
  | [] => .pure []
  | (k, v) :: r =>
    (objEntry recursive k v).bind (fun v' =>
      (objEntries recursive r).bind (fun r' => .pure ((k, v') :: r')))
end

/-- `parse_obj_values` (src/bif/parse_bif_obj.rs:221-247). -/
def parseObjValues (v : Value) : Prog Value :=
  match v with
  | .obj o => (objEntries false o).bind (fun o' => .pure (.obj o'))
  | v => .pure v

/-- Is the parameter an inline JSON object? (src/bif/parse_bif_obj.rs:39-42; `chars().nth(len() - 2)` uses the
byte length, as in the code) -/
def objInline (p : Str) : Bool :=
  startsWith c!"{" p && endsWith c!"}" p && decide (p[1]? ≠ some ':') && decide (p[byteLen p - 2]? ≠ some ':')

/-- The JSON text of the object (src/bif/parse_bif_obj.rs:38-72). -/
def objSource (env : Env) : Prog Str := do
  let s ← getSt
  if objInline s.b.params then return s.b.params
  else do
    (if contains bifOpen s.b.params then do
      let x ← childParse s.b.params false
      setParams x
    else .pure ())
    let s ← getSt
    setFilePath s.b.params
    (if contains bifOpen s.b.params then do
      requireAllow s.b.params c!"insecure file name"
      let x ← childParse s.b.params false
      setFilePath x
    else .pure ())
    let s ← getSt
    setFilePath (hashPath s s.b.filePath)
    let s ← getSt
    if !fileExists s s.b.filePath then bifError c!"file not found"
    else match readFile s s.b.filePath with
      | some x => return x
      | none => bifError (c!"Failed to read file: " ++ env.readErr s.b.filePath)

/-- `schema_data` (src/bif/parse_bif_obj.rs:103-119). -/
def objSchemaData (s : St) (obj : Value) : Option Value :=
  ((obj.get? c!"schema_data").bind Value.asStr?).map (fun name =>
    let st := storageOf s name
    (resolvePointer st.1 st.2).getD .null)

/-- A configured path with `#` expansion that must exist when not empty
(src/bif/parse_bif_obj.rs:138-151, 167-178). -/
def objVenv (obj : Value) (default : Str) : Prog (Option Str) := do
  let s ← getSt
  let v := ((obj.index c!"venv").asStr?).getD default
  if v.isEmpty then return none
  else
    let p := hashPath s v
    if !fileExists s p then bifError c!"venv path does not exist"
    else return (if p.isEmpty then none else some p)

/-- `bridge_path_for` and `ensure_bridge_script` (src/bif/exec_php.rs:123-124, 201-241): the bridge script is written beside
the object script unless there is a file already.  `fs::write` creates the file before it writes. -/
def ensureBridge (env : Env) (file : Str) : Prog Unit :=
  match env.bridgePath file with
  | .error e => bifError e
  | .ok bridge => do
    let s ← getSt
    if fileExists s bridge then .pure ()
    else do
      let t ← tick
      match env.createErr t bridge with
      | some e => bifError (c!"failed to create php bridge: " ++ e)
      | none => do
        perform (.writeFile bridge [] (env.now t))
        match env.writeErr t bridge with
        | some e => bifError (c!"failed to create php bridge: " ++ e)
        | none => perform (.writeFile bridge env.bridgeScript (env.now t))

/-- The call of the script (src/bif/parse_bif_obj.rs:121-199); the rest of `exec_php` and `exec_py` is `env.execObj`
(modelled in Model/FastCgi.lean and Model/Python.lean). -/
def objCall (env : Env) (obj : Value) (python : Bool) (file : Str) : Prog Value := do
  let s ← getSt
  let cfg := s.sh.schema.index c!"config"
  let venv ← objVenv obj
    (((cfg.index (if python then c!"obj_python_venv" else c!"obj_php_venv")).asStr?).getD [])
  let fpm := if python then []
    else hashPath s (((obj.index c!"fpm").asStr?).getD
      (((cfg.index c!"obj_php_fpm").asStr?).getD c!"unix:/run/php/php-fpm.sock"))
  (if python then .pure () else ensureBridge env file)
  let t ← tick
  match env.execObj t {
      python := python
      file := file
      params := obj.index c!"params"
      callback := ((obj.index c!"callback").asStr?).getD c!"main"
      schema := if (((obj.get? c!"schema").bind Value.asBool?).getD false) then some s.sh.schema else none
      schemaData := objSchemaData s obj
      venv := venv
      fpm := fpm } with
  | .ok v => return v
  | .error msg => bifError msg

/-- The code built from the result (src/bif/parse_bif_obj.rs:201-210); `none` is the `unwrap` panic for a
template that is not a string. -/
def objCode (env : Env) (obj result : Value) (code : Str) : Option Str :=
  let pre := if !isEmptyKey result c!"data" then c!"{:data;{:flg; inline :}>>" ++ env.jsonShow result ++ c!":}" else []
  if !isEmptyKey obj c!"template" then
    match (obj.index c!"template").asStr? with
    | some t => some (pre ++ c!"{:include;" ++ t ++ c!":}" ++ code)
    | none => none
  else some (pre ++ code)

/-- `parse_bif_obj` (src/bif/parse_bif_obj.rs:17-219).  `self.flags` is always empty here because
`extract_params_code(false)` never sets it. -/
def bifObj (env : Env) : Prog Unit := do
  denyMods (fun b => b.modFilter || b.modNegate)
  let s ← getSt
  (if contains c!">>" s.b.src then do
    let _ ← extractParamsCode false
  else do
    setSrc (s.b.src ++ c!">>")
    let _ ← extractParamsCode false
    setSrc s.b.src)
  denyFlags
  let raw ← objSource env
  match env.jsonParse (trim raw) with
  | none => bifError (c!"Failed to parse JSON: " ++ env.jsonErr (trim raw))
  | some obj0 => do
    let engine := env.lower (((obj0.index c!"engine").asStr?).getD c!"python")
    if engine ≠ c!"python" ∧ engine ≠ c!"php" then bifError c!"only Python and PHP engines are supported"
    else do
      let obj ← parseObjValues obj0
      let s ← getSt
      let file := hashPath s (((obj.index c!"file").asStr?).getD [])
      if !fileExists s file then bifError c!"obj script not found"
      else match env.canon file with
        | .error e => bifError (c!"Failed to canonicalize obj script: " ++ e)
        | .ok canon => do
          let result ← objCall env obj (engine = c!"python") canon
          let s ← getSt
          match objCode env obj result s.b.code with
          | none => .panic .unwrap
          | some code => do
            setCode code
            if contains bifOpen code then do
              let x ← childParse code s.b.modScope
              setOut x
            else setOut code

/-- The dispatch table of `Bif::parse` (src/bif/mod.rs:161-202). -/
def bifBody (env : Env) (name : Str) : Prog Unit :=
  if name = [] then bifVar env
  else if name = c!"allow" then bifAllow env
  else if name = c!"array" then bifArray
  else if name = c!"bool" then bifBool env
  else if name = c!"cache" then bifCache env
  else if name = c!"coalesce" then bifCoalesce
  else if name = c!"code" then bifCode
  else if name = c!"contains" then bifContains
  else if name = c!"count" then bifCount env
  else if name = c!"data" then bifData env
  else if name = c!"date" then bifDate env
  else if name = c!"declare" then bifDeclare
  else if name = c!"defined" then bifDefined
  else if name = c!"each" then bifEach
  else if name = c!"else" then bifElse
  else if name = c!"eval" then bifEval env
  else if name = c!"exit" then bifExit
  else if name = c!"fetch" then bifFetch env
  else if name = c!"filled" then bifFilled
  else if name = c!"flg" then bifFlg
  else if name = c!"for" then bifFor env
  else if name = c!"hash" then bifHash env
  else if name = c!"include" then bifInclude env
  else if name = c!"join" then bifJoin env
  else if name = c!"lang" then bifLang
  else if name = c!"locale" then bifLocale env
  else if name = c!"moveto" then bifMoveto env
  else if name = c!"neutral" then bifNeutral
  else if name = c!"param" then bifParam env
  else if name = c!"rand" then bifRand env
  else if name = c!"redirect" then bifRedirect
  else if name = c!"replace" then bifReplace
  else if name = c!"same" then bifSame
  else if name = c!"snippet" then bifSnippet env
  else if name = c!"snip" then bifSnippet env
  else if name = c!"sum" then bifSum env
  else if name = c!"trans" then bifTrans env
  else if name = c!"obj" then bifObj env
  else if name = c!"debug" then bifDebug env
  else bifUnknown

end Nts
