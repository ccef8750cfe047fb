import Verif.Model.Template
/-
A concrete environment and template, used only to show that hypotheses of theorems can be met and to exhibit
counterexamples.
-/
set_option autoImplicit false
namespace Nts.Sample

/-- A toy environment: floats are natural numbers, JSON texts are not understood, the clock counts interactions,
hashes are identity functions. -/
def env : Env where
  f64 := { parse := parseNat1, pos := fun n => decide (0 < n), add := fun a b => a + b, show_ := showNat }
  lower := fun s => s
  jsonParse := fun _ => none
  jsonErr := fun _ => c!"error"
  jsonShow := fun _ => []
  jsonPretty := fun _ => []
  md5 := fun s => s
  sha256 := fun s => s
  randHash := fun _ => c!"0"
  randRange := fun _ a _ => a
  now := fun t => 1000 + t
  age := fun t m => if m ≤ 1000 + t then some ((1000 + t - m) * 1000000000) else none
  localTime := fun _ => c!"2025"
  utcFormat := fun _ f => some f
  parent := fun _ => some c!"/t"
  canon := fun p => .ok p
  mkdirErr := fun _ _ => none
  createErr := fun _ _ => none
  writeErr := fun _ _ => none
  readErr := fun _ => c!"not found"
  bridgePath := fun _ => .ok c!"/t/.neutralts_obj_bridge.php"
  bridgeScript := c!"<?php"
  execObj := fun _ _ => .ok .null
  neutralJs := c!"<script></script>"
  overflowChecks := true
  tempDir := c!"/tmp"
  workDir := c!"/w"

/-- No files. -/
def world : World := ⟨fun _ => none, 0⟩

/-- A file with a text. -/
def file (s : Str) : FileEntry := ⟨some s, 0, true⟩

/-- The default schema with the BIF limit `m` and the given data entries. -/
def schema (m : Int) (data : Obj) (inherit : Obj) : Value :=
  .obj [
    (c!"config", .obj [
      (c!"infinite_loop_max_bifs", .num (.int m)), (c!"comments", .str c!"remove"),
      (c!"error", .obj [(c!"show", .bool true)]), (c!"cache_prefix", .str c!"p"), (c!"cache_dir", .str c!"/c"),
      (c!"cache_on_post", .bool false), (c!"cache_on_get", .bool true), (c!"cache_on_cookies", .bool true),
      (c!"cache_disable", .bool false), (c!"filter_all", .bool false), (c!"disable_js", .bool false),
      (c!"debug_expire", .num (.int 3600)), (c!"debug_file", .str [])]),
    (c!"data", .obj data),
    (c!"inherit", .obj inherit),
    (c!"__moveto", .obj []),
    (c!"__error", .arr [])]

/-- A shared state that is never used when `Shared.new` succeeds. -/
def shared0 : Shared where
  schema := .null
  indir := fun _ => none
  lang := []
  comments := []
  count := 0
  max := 0
  flags := []
  exit := false
  hasError := false
  statusCode := c!"200"
  statusText := c!"OK"
  statusParam := []
  redirectJs := []
  filterAll := false
  filterBifs := true
  cachePrefix := []
  cacheDir := []
  cacheOnPost := false
  cacheOnGet := true
  cacheOnCookies := true
  cacheDisable := false
  disableJs := false
  alreadyJs := false
  debugExpire := 0
  debugFile := []
  workingDir := []
  w := world

/-- The shared state of a schema. -/
def shared (sch : Value) : Shared := (Shared.new env world sch).getD shared0

/-- A fresh template. -/
def tpl (sch : Value) (src : Str) : Tpl := ⟨src, [], sch, shared sch, []⟩

/-- Default inherit section. -/
def inherit : Obj := [
  (c!"locale", .obj [(c!"current", .str c!"en"), (c!"trans", .obj [
    (c!"en", .obj [(c!"Hi", .str c!"Hello")]), (c!"es", .obj [(c!"Hi", .str c!"Hola")])])]),
  (c!"snippets", .obj []), (c!"snippets_set_dir", .obj []),
  (c!"declare", .obj [(c!"any", .str c!"*")]), (c!"params", .obj [])]

/-- Rendered text and status code, when the render ends normally. -/
def outOf : RRes → Option (Str × Str)
  | .ok t => some (t.out, t.statusCode)
  | _ => none

/-- Did the render panic, and why? -/
def panicOf : RRes → Option Panic
  | .panic p => some p
  | _ => none

/-- Was the iteration bound exhausted? -/
def oofOf : RRes → Bool
  | .oof => true
  | _ => false

/-- Render `src` with data. -/
def go (data : Obj) (src : Str) : RRes := (tpl (schema 1000 data inherit) src).render env 10 world

end Nts.Sample
