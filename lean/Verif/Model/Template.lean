import Verif.Model.Interp
/-
/repo/src/template.rs, /repo/src/shared.rs (`Shared::new`), /repo/src/default_json.rs.
-/
set_option autoImplicit false
namespace Nts

/-- `DEFAULT` (src/default_json.rs), parsed. -/
def defaultSchema : Value :=
  let es : List Str → Value := fun l => .arr (l.map .str)
  let tr : Str → Value := fun h => .obj [(c!"Hello nts", .str h), (c!"ref:greeting-nts", .str h)]
  .obj [
    (c!"_comment_:License", .str c!"License in the terms described in the LICENSE file."),
    (c!"version", .str c!"0.0.0"),
    (c!"config", .obj [
      (c!"infinite_loop_max_bifs", .num (.int 555000)),
      (c!"_comment_:comments", .str c!"keep|remove, default or empty keep"),
      (c!"comments", .str c!"remove"),
      (c!"_comment_:errors", .str c!"show|hide, default or empty show"),
      (c!"error", .obj [(c!"show", .bool true)]),
      (c!"app", .obj []),
      (c!"obj_python_venv", .str []),
      (c!"obj_php_venv", .str []),
      (c!"obj_php_fpm", .str c!"unix:/run/php/php-fpm.sock"),
      (c!"cache_prefix", .str c!"neutral-cache"),
      (c!"cache_dir", .str []),
      (c!"cache_on_post", .bool false),
      (c!"cache_on_get", .bool true),
      (c!"cache_on_cookies", .bool true),
      (c!"cache_disable", .bool false),
      (c!"filter_all", .bool false),
      (c!"disable_js", .bool false),
      (c!"debug_expire", .num (.int 3600)),
      (c!"debug_file", .str [])]),
    (c!"data", .obj [
      (c!"CONTEXT", .obj [
        (c!"CONFIG", .obj []), (c!"ROUTE", .str []), (c!"HOST", .str []), (c!"GET", .obj []),
        (c!"POST", .obj []), (c!"HEADERS", .obj []), (c!"REQUEST", .obj []), (c!"FILES", .obj []),
        (c!"COOKIES", .obj []), (c!"SESSION", .obj []), (c!"ENV", .obj [])]),
      (c!"__hello-nts", .str c!"Hello nts"),
      (c!"__ref-hello-nts", .str c!"__hello-nts"),
      (c!"__test-nts", .str c!"nts"),
      (c!"__test-arr_nts", es [c!"one", c!"two", c!"three"]),
      (c!"__test-obj_nts", .obj [
        (c!"level1", .str c!"Ok"),
        (c!"level1_arr", .obj [
          (c!"level2", .str c!"Ok"),
          (c!"level2_obj", .obj [
            (c!"level3", .str c!"Ok"),
            (c!"level3_arr", es [c!"one", c!"two", c!"three"])])])])]),
    (c!"inherit", .obj [
      (c!"locale", .obj [
        (c!"current", .str c!"en"),
        (c!"trans", .obj [
          (c!"en", tr c!"Hello"), (c!"en-US", tr c!"Hello"), (c!"en-UK", tr c!"Hello"),
          (c!"es", tr c!"Hola"), (c!"es-ES", tr c!"Hola"), (c!"de", tr c!"Hallo"),
          (c!"fr", tr c!"Bonjour"), (c!"el", tr c!"Γεια σας")])]),
      (c!"snippets", .obj [(c!"__hello-nts", .str c!"<div>{:trans; ref:greeting-nts :}</div>")]),
      (c!"snippets_set_dir", .obj []),
      (c!"declare", .obj [(c!"any", .str c!"*"), (c!"traversal", .str c!"/* \\\\* *\\.\\.*")]),
      (c!"params", .obj [])]),
    (c!"__moveto", .obj []),
    (c!"__error", .arr [])]

/-- `Shared::new` (src/shared.rs:37-90); `none` is the `unwrap` panic on the two numeric settings. -/
def Shared.new (env : Env) (w : World) (schema : Value) : Option Shared :=
  let cfg := schema.index c!"config"
  match (cfg.index c!"infinite_loop_max_bifs").asU64?, (cfg.index c!"debug_expire").asU64? with
  | some max, some debugExpire =>
    let cacheDisable := isBoolKey env.f64 cfg c!"cache_disable"
    let cacheDir := getFromKey env.f64 cfg c!"cache_dir"
    some {
      schema := schema
      indir := fun _ => none
      lang := getFromKey env.f64 ((schema.index c!"inherit").index c!"locale") c!"current"
      comments := getFromKey env.f64 cfg c!"comments"
      count := 0
      max := max
      flags := []
      exit := false
      hasError := false
      statusCode := c!"200"
      statusText := c!"OK"
      statusParam := []
      redirectJs := []
      filterAll := isBoolKey env.f64 cfg c!"filter_all"
      filterBifs := !cacheDisable
      cachePrefix := getFromKey env.f64 cfg c!"cache_prefix"
      cacheDir := if cacheDir.isEmpty then env.tempDir else cacheDir
      cacheOnPost := isBoolKey env.f64 cfg c!"cache_on_post"
      cacheOnGet := isBoolKey env.f64 cfg c!"cache_on_get"
      cacheOnCookies := isBoolKey env.f64 cfg c!"cache_on_cookies"
      cacheDisable := cacheDisable
      disableJs := isBoolKey env.f64 cfg c!"disable_js"
      alreadyJs := false
      debugExpire := debugExpire
      debugFile := getFromKey env.f64 cfg c!"debug_file"
      workingDir := env.workDir
      w := w }
  | _, _ => none

/-- `Template` (src/template.rs:13-21) without the timing fields. -/
structure Tpl where
  raw : Str
  filePath : Str
  schema : Value
  shared : Shared
  out : Str

/-- Result of a template operation: success, `Err(msg)`, or a panic. -/
inductive TRes (α : Type) where
  | ok (a : α)
  | err (msg : Str)
  | panic (p : Panic)

/-- `Template::new` (src/template.rs:40-53). -/
def Tpl.new (env : Env) (w : World) : TRes Tpl :=
  match Shared.new env w defaultSchema with
  | none => .panic .unwrap
  | some sh => .ok { raw := [], filePath := [], schema := defaultSchema, shared := sh, out := [] }

/-- `update_schema_owned(&mut self.schema, v)` with the panic made explicit. -/
def Tpl.merge (t : Tpl) (v : Value) : TRes Tpl :=
  match updateSchemaOwned t.schema v with
  | some s => .ok { t with schema := s }
  | none => .panic .index

/-- `Template::from_file_value` (src/template.rs:66-90). -/
def Tpl.fromFileValue (env : Env) (w : World) (path : Str) (v : Value) : TRes Tpl :=
  match (w.fs path).bind (fun e => e.content) with
  | none => .err (env.readErr path)
  | some raw =>
    match updateSchemaOwned defaultSchema v, Shared.new env w defaultSchema with
    | some s, some sh => .ok { raw := raw, filePath := path, schema := s, shared := sh, out := [] }
    | none, _ => .panic .index
    | some _, none => .panic .unwrap

/-- `Template::set_src_path` (src/template.rs:101-112): `file_path` is replaced even when the file cannot be
read. -/
def Tpl.setSrcPath (env : Env) (w : World) (t : Tpl) (path : Str) : Tpl × Option Str :=
  match (w.fs path).bind (fun e => e.content) with
  | none => ({ t with filePath := path }, some (env.readErr path))
  | some raw => ({ t with filePath := path, raw := raw }, none)

/-- `Template::set_src_str` (src/template.rs:119-121). -/
def Tpl.setSrcStr (t : Tpl) (src : Str) : Tpl := { t with raw := src }

/-- `Template::merge_schema_str` (src/template.rs:163-173). -/
def Tpl.mergeSchemaStr (env : Env) (t : Tpl) (text : Str) : TRes Tpl :=
  match env.jsonParse text with
  | none => .err c!"Is not a valid JSON string"
  | some v => t.merge v

/-- `Template::merge_schema_path` (src/template.rs:134-151).  A file that is not UTF-8 is not valid JSON; the
model reports the read error for it instead. -/
def Tpl.mergeSchemaPath (env : Env) (w : World) (t : Tpl) (path : Str) : TRes Tpl :=
  match (w.fs path).bind (fun e => e.content) with
  | none => .err (env.readErr path)
  | some text =>
    match env.jsonParse text with
    | none => .err c!"Is not a valid JSON file"
    | some v => t.merge v

/-- `Template::merge_schema_value` (src/template.rs:180-182). -/
def Tpl.mergeSchemaValue (t : Tpl) (v : Value) : TRes Tpl := t.merge v

/-- `Template::merge_schema_msgpack` (src/template.rs:267-277); the argument is the result of decoding. -/
def Tpl.mergeSchemaMsgpack (t : Tpl) (decoded : Except Str Value) : TRes Tpl :=
  match decoded with
  | .error e => .err (c!"Is not a valid MessagePack data: " ++ e)
  | .ok v => t.merge v

/-- `Template::from_file_msgpack` (src/template.rs:204-217); `decoded` is the result of decoding the bytes, used only when
there are any. -/
def Tpl.fromFileMsgpack (env : Env) (w : World) (path : Str) (noBytes : Bool) (decoded : Except Str Value) : TRes Tpl :=
  if noBytes then Tpl.fromFileValue env w path (.obj [])
  else match decoded with
    | .error e => .err (c!"Invalid MessagePack data: " ++ e)
    | .ok v => Tpl.fromFileValue env w path v

/-- `Template::merge_schema_msgpack_path` (src/template.rs:236-246); `decoded` is the result of decoding the bytes of the
file, if it can be read (the files of the model hold texts). -/
def Tpl.mergeSchemaMsgpackPath (env : Env) (w : World) (t : Tpl) (path : Str) (decoded : Except Str Value) : TRes Tpl :=
  match w.fs path with
  | none => .err (env.readErr path)
  | some _ => t.mergeSchemaMsgpack decoded

/-- Filter `schema["data"]["CONTEXT"]` (src/template.rs:412-416, 455-459). -/
def filterContext (schema : Value) : Option Value :=
  schema.modIndex c!"data" (fun d => d.modIndex c!"CONTEXT" (fun c => some (filterValueKeys (filterValue c))))

/-- The part of `init_render` after `Shared::new` (src/template.rs:399-432):
the new source text, shared state and root inherit.  (`eprintln!` is not modelled.) -/
def initShared (env : Env) (filePath raw : Str) (sh : Shared) : Except Panic (Str × Shared × Inherit) :=
  match (if contains c!"remove" sh.comments then removeComments raw else some raw) with
  | none => .error .bounds
  | some raw' =>
    let p := createBlockSchema sh Inherit.new
    match (p.1.schema.setIndex c!"__moveto" (.obj [])).bind (fun s => s.setIndex c!"__error" (.arr [])) with
    | none => .error .index
    | some schema1 =>
      match filterContext schema1 with
      | none => .error .index
      | some schema2 =>
        .ok (raw',
          { p.1 with
            schema := schema2
            indir := fun x => if x = p.2.indir then some (schema1.index c!"inherit") else none },
          { p.2 with
            currentFile := filePath
            currentDir := if filePath.isEmpty then p.1.workingDir else (env.parent filePath).getD p.2.currentDir })

/-- The part of `init_render_once` after `Shared::new` (src/template.rs:442-475); the code of `init_render` is repeated
there. -/
def initSharedOnce (env : Env) (filePath raw : Str) (sh : Shared) : Except Panic (Str × Shared × Inherit) :=
  match (if contains c!"remove" sh.comments then removeComments raw else some raw) with
  | none => .error .bounds
  | some raw' =>
    let p := createBlockSchema sh Inherit.new
    match (p.1.schema.setIndex c!"__moveto" (.obj [])).bind (fun s => s.setIndex c!"__error" (.arr [])) with
    | none => .error .index
    | some schema1 =>
      match filterContext schema1 with
      | none => .error .index
      | some schema2 =>
        .ok (raw',
          { p.1 with
            schema := schema2
            indir := fun x => if x = p.2.indir then some (schema1.index c!"inherit") else none },
          { p.2 with
            currentFile := filePath
            currentDir := if filePath.isEmpty then p.1.workingDir else (env.parent filePath).getD p.2.currentDir })

/-- One pass over a text: `BlockParser::new(&mut shared, inherit.clone()).parse(text, only)`
(src/template.rs:298, 302, 381, 385).  The recursion bound `max + 1` is proved to be enough. -/
def pass (env : Env) (sh : Shared) (inh : Inherit) (text only : Str) : PRes :=
  match parseSrc (runBlocks env (sh.max + 1)) sh { inh with blockCount := inh.blockCount + 1 } text only with
  | .ok out sh' inh' => .ok out (dropBlock sh' inh') inh'
  | .panic p => .panic p
  | .oof => .oof

/-- The `while self.out.contains("{:!cache;")` loop (src/template.rs:300-304, 383-387), at most `n`
iterations; `oof` means that `n` iterations were not enough. -/
def cacheLoop (env : Env) (inh : Inherit) : Nat → Shared → Str → PRes
  | 0, sh, out => if contains c!"{:!cache;" out then .oof else .ok out sh inh
  | n + 1, sh, out =>
    if contains c!"{:!cache;" out then
      match pass env sh inh out c!"!cache" with
      | .ok out' sh' _ => cacheLoop env inh n sh' out'
      | .panic p => .panic p
      | .oof => .oof
    else .ok out sh inh

/-- The tag searched by `set_moveto` (src/template.rs:519-530). -/
def movetoTag (key : Str) : Str :=
  let tag := if startsWith c!"<" key then key else '<' :: key
  if endsWith c!">" tag then tag.dropLast else tag

/-- One insertion of `set_moveto` (src/template.rs:533-538). -/
def movetoInsert (out key text : Str) : Str :=
  match findTagPosition out (movetoTag key) with
  | some p => out.take p ++ text ++ out.drop p
  | none => out

/-- Inner loop of `set_moveto` (src/template.rs:518-539); `none` is the `unwrap` panic. -/
def movetoInner : List (Str × Value) → Str → Option Str
  | [], out => some out
  | (k, v) :: r, out =>
    match findTagPosition out (movetoTag k) with
    | none => movetoInner r out
    | some _ =>
      match v.asStr? with
      | some text => movetoInner r (movetoInsert out k text)
      | none => none

/-- Outer loop of `set_moveto` (src/template.rs:516-541). -/
def movetoOuter : List (Str × Value) → Str → Option Str
  | [], out => some out
  | (_, .obj o) :: r, out => (movetoInner o out).bind (movetoOuter r)
  | _ :: r, out => movetoOuter r out

/-- `set_moveto` (src/template.rs:514-543). -/
def applyMoveto (schema : Value) (out : Str) : Option Str :=
  match schema.index c!"__moveto" with
  | .obj o => movetoOuter o out
  | _ => some out

/-- The regex `\s*mark` matched at the start of the text: what is left after it (src/template.rs:546-553). -/
def afterWs (mark s : Str) : Option Str := stripPrefix? mark (s.dropWhile isWs)

/-- `RE.replace_all(&out, "")` for the regex `\s*mark` (src/template.rs:546-553); the counter skips the rest
of a match. -/
def dropMark (mark : Str) : Nat → Str → Str
  | _, [] => []
  | k + 1, _ :: r => dropMark mark k r
  | 0, c :: r =>
    match afterWs mark (c :: r) with
    | some rest => dropMark mark ((c :: r).length - rest.length - 1) r
    | none => c :: dropMark mark 0 r

/-- `RE.replace_all(&out, "")` for the regex `\s*&#9224` (src/template.rs:546-553). -/
def dropBackspace (k : Nat) (s : Str) : Str := dropMark backspace k s

/-- `replacements` (src/template.rs:545-559). -/
def replacements (out : Str) : Str := replaceAll unprintable [] (dropBackspace 0 out)

/-- `set_status_code` (src/template.rs:486-512). -/
def finalOut (sh : Shared) (out : Str) : Str :=
  if strLe c!"400" sh.statusCode && strLe sh.statusCode c!"599" then
    sh.statusCode ++ c!" " ++ sh.statusText
  else if sh.statusCode = c!"301" || sh.statusCode = c!"302" || sh.statusCode = c!"303"
      || sh.statusCode = c!"307" || sh.statusCode = c!"308" then
    sh.statusCode ++ c!" " ++ sh.statusText ++ c!"\n" ++ sh.statusParam
  else if !sh.redirectJs.isEmpty then sh.redirectJs
  else out

/-- `ends_render` (src/template.rs:479-484). -/
def endsRender (sh : Shared) (out : Str) : Option Str :=
  (applyMoveto sh.schema out).map (fun o => finalOut sh (replacements o))

/-- Result of a render: the template afterwards (its `out` is the returned text), a panic, or "still
looping". -/
inductive RRes where
  | ok (t : Tpl)
  | panic (p : Panic)
  | oof

/-- `render` after the fast path (src/template.rs:297-308), with at most `n` iterations of the loop. -/
def renderWith (env : Env) (n : Nat) (t : Tpl) (schemaAfter : Value) (sh0 : Option Shared) : RRes :=
  match sh0 with
  | none => .panic .unwrap
  | some sh =>
    match initShared env t.filePath t.raw sh with
    | .error p => .panic p
    | .ok (raw, sh1, inh) =>
      match pass env sh1 inh raw [] with
      | .panic p => .panic p
      | .oof => .oof
      | .ok out sh2 _ =>
        match cacheLoop env inh n sh2 out with
        | .panic p => .panic p
        | .oof => .oof
        | .ok out2 sh3 _ =>
          match endsRender sh3 out2 with
          | none => .panic .unwrap
          | some out3 => .ok { raw := raw, filePath := t.filePath, schema := schemaAfter, shared := sh3, out := out3 }

/-- `render_once` after the fast path (src/template.rs:380-391), with at most `n` iterations of the loop. -/
def renderOnceWith (env : Env) (n : Nat) (t : Tpl) (schemaAfter : Value) (sh0 : Option Shared) : RRes :=
  match sh0 with
  | none => .panic .unwrap
  | some sh =>
    match initSharedOnce env t.filePath t.raw sh with
    | .error p => .panic p
    | .ok (raw, sh1, inh) =>
      match pass env sh1 inh raw [] with
      | .panic p => .panic p
      | .oof => .oof
      | .ok out sh2 _ =>
        match cacheLoop env inh n sh2 out with
        | .panic p => .panic p
        | .oof => .oof
        | .ok out2 sh3 _ =>
          match endsRender sh3 out2 with
          | none => .panic .unwrap
          | some out3 => .ok { raw := raw, filePath := t.filePath, schema := schemaAfter, shared := sh3, out := out3 }

/-- `Template::render` (src/template.rs:287-309). -/
def Tpl.render (env : Env) (n : Nat) (w : World) (t : Tpl) : RRes :=
  if !contains bifOpen t.raw then .ok { t with out := trim t.raw }
  else renderWith env n t t.schema (Shared.new env w t.schema)

/-- `Template::render_once` (src/template.rs:371-392): the schema is moved out (`mem::take` leaves `Null`). -/
def Tpl.renderOnce (env : Env) (n : Nat) (w : World) (t : Tpl) : RRes :=
  if !contains bifOpen t.raw then .ok { t with out := trim t.raw }
  else renderOnceWith env n t .null (Shared.new env w t.schema)

/-- `get_status_code`, `get_status_text`, `get_status_param`, `has_error`, `get_error`
(src/template.rs:570-616). -/
def Tpl.statusCode (t : Tpl) : Str := t.shared.statusCode
def Tpl.statusText (t : Tpl) : Str := t.shared.statusText
def Tpl.statusParam (t : Tpl) : Str := t.shared.statusParam
def Tpl.hasError (t : Tpl) : Bool := t.shared.hasError
def Tpl.getError (t : Tpl) : Value := t.shared.schema.index c!"__error"

/-- What a user sees of a finished render. -/
structure Observed where
  out : Str
  code : Str
  text : Str
  param : Str
  hasError : Bool
  errors : Value

/-- Observation of a template. -/
def Tpl.observe (t : Tpl) : Observed :=
  ⟨t.out, t.statusCode, t.statusText, t.statusParam, t.hasError, t.getError⟩

/-- Forget the state: the observable result. -/
def RRes.observe : RRes → Option (Except Panic Observed)
  | .ok t => some (.ok t.observe)
  | .panic p => some (.error p)
  | .oof => none

end Nts
