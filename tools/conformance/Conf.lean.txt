import Verif.Model.Template
import Lean.Data.Json
open Nts
/-! Runs the model on the cases extracted from the crate's tests (a fidelity check of the model, not a proof).
Usage: copy to a scratch directory as Conf.lean and run `lake env lean --run Conf.lean cases.json`. -/
namespace J
partial def ws : List Char → List Char
  | c :: r => if c == ' ' || c == '\n' || c == '\t' || c == '\r' then ws r else c :: r
  | [] => []
def hex (c : Char) : Nat := if c.isDigit then c.toNat - 48 else (c.toLower.toNat - 87)
partial def str (acc : List Char) : List Char → Option (Str × List Char)
  | '"' :: r => some (acc.reverse, r)
  | '\\' :: 'n' :: r => str ('\n' :: acc) r
  | '\\' :: 't' :: r => str ('\t' :: acc) r
  | '\\' :: 'r' :: r => str ('\r' :: acc) r
  | '\\' :: 'b' :: r => str ('\x08' :: acc) r
  | '\\' :: 'u' :: a :: b :: c :: d :: r => str (Char.ofNat (hex a * 4096 + hex b * 256 + hex c * 16 + hex d) :: acc) r
  | '\\' :: c :: r => if c == '"' || c == '\\' || c == '/' then str (c :: acc) r else none
  | c :: r => if c.toNat < 32 then none else str (c :: acc) r
  | [] => none
def numEnd (c : Char) : Bool := c.isDigit || c == '-' || c == '+' || c == '.' || c == 'e' || c == 'E'
mutual
partial def val (s : List Char) : Option (Value × List Char) :=
  match ws s with
  | '{' :: r => match ws r with
    | '}' :: r => some (.obj [], r)
    | r => obj [] r
  | '[' :: r => match ws r with
    | ']' :: r => some (.arr [], r)
    | r => arr [] r
  | '"' :: r => (str [] r).map (fun (x, r) => (.str x, r))
  | 't' :: 'r' :: 'u' :: 'e' :: r => some (.bool true, r)
  | 'f' :: 'a' :: 'l' :: 's' :: 'e' :: r => some (.bool false, r)
  | 'n' :: 'u' :: 'l' :: 'l' :: r => some (.null, r)
  | r =>
    let t := r.takeWhile numEnd
    let rest := r.dropWhile numEnd
    match (String.ofList t).toInt? with
    | some i => some (.num (.int i), rest)
    | none => if t.isEmpty then none else some (.num (.flt 0), rest)
partial def obj (acc : Obj) (s : List Char) : Option (Value × List Char) :=
  match ws s with
  | '"' :: r => do
    let (k, r) ← str [] r
    match ws r with
    | ':' :: r =>
      let (v, r) ← val r
      let acc := Obj.insert k v acc
      match ws r with
      | ',' :: r => obj acc r
      | '}' :: r => some (.obj acc, r)
      | _ => none
    | _ => none
  | _ => none
partial def arr (acc : List Value) (s : List Char) : Option (Value × List Char) := do
  let (v, r) ← val s
  match ws r with
  | ',' :: r => arr (acc ++ [v]) r
  | ']' :: r => some (.arr (acc ++ [v]), r)
  | _ => none
end
def parse (s : Str) : Option Value :=
  match val s with
  | some (v, r) => if (ws r).isEmpty then some v else none
  | none => none
partial def shw : Value → Str
  | .null => "null".toList
  | .bool b => showBool b
  | .num (.int i) => showInt i
  | .num (.flt _) => "0.5".toList
  | .str s => ("\"" ++ (String.ofList s).replace "\\" "\\\\" |>.replace "\"" "\\\"" |>.replace "\n" "\\n").toList ++ ['"']
  | .arr a => ['['] ++ joinStr [','] (a.map shw) ++ [']']
  | .obj o => ['{'] ++ joinStr [','] (o.map (fun kv => shw (.str kv.1) ++ [':'] ++ shw kv.2)) ++ ['}']
end J

def parseF (s : Str) : Option Nat := (String.ofList s).toNat?

def env : Env where
  f64 := { parse := parseF, pos := fun n => n > 0, add := (· + ·), show_ := showNat }
  lower := fun s => s.map Char.toLower
  jsonParse := J.parse
  jsonErr := fun _ => []
  jsonShow := J.shw
  jsonPretty := J.shw
  md5 := fun s => "md5:".toList ++ s
  sha256 := fun s => "sha:".toList ++ s
  randHash := fun _ => "00000000000000000000000000000000".toList
  randRange := fun _ a _ => a
  now := fun _ => 1700000000
  age := fun _ _ => some 0
  bridgePath := fun s => .ok (s ++ ".bridge".toList)
  bridgeScript := []
  localTime := fun _ => []
  utcFormat := fun _ s => some s
  parent := fun s => if s.contains '/' then some ((s.reverse.dropWhile (· != '/')).drop 1).reverse else some []
  canon := fun s => .ok ("/abs/".toList ++ s)
  mkdirErr := fun _ _ => none
  createErr := fun _ _ => none
  writeErr := fun _ _ => none
  readErr := fun _ => []
  execObj := fun _ c => if (String.ofList c.file).endsWith "script.py" then
      .ok (.obj [("data".toList, .obj [("__test-obj-nts".toList, .str "obj".toList),
        ("__test-obj-param1-nts".toList, c.params.index "param1".toList),
        ("local-test-nts".toList, .str "x".toList)])]) else .error "no".toList
  neutralJs := "JS".toList
  overflowChecks := true
  tempDir := "/tmp".toList
  workDir := "/repo".toList

structure Case where
  name : String
  schemas : List String
  src : String
  once : Bool
  exp : Option String
  err : Option Bool
  panic : Bool
  code : Option String
  text : Option String
  param : Option String
deriving Lean.FromJson

def pname : Panic → String
  | p => toString (repr p)

def main (args : List String) : IO Unit := do
  let txt ← IO.FS.readFile args.head!
  let j ← IO.ofExcept (Lean.Json.parse txt)
  let cases : List Case ← IO.ofExcept (do
    let a ← (← j.getObjVal? "cases").getArr?
    a.toList.mapM Lean.fromJson?)
  let fsj ← IO.ofExcept ((← IO.ofExcept (j.getObjVal? "fs")).getObj?)
  let w : World := { tick := 0, fs := fun p =>
    let q := String.ofList p; match (fsj.get? q) with
    | some (.str s) => some ⟨some s.toList, 0, true⟩
    | _ => none }
  let mut ok := 0
  let mut bad := 0
  for c in cases do
    let r : Except String Tpl := (do
      let mut t : Tpl ← (match Tpl.new env w with
        | .ok t => pure t
        | _ => throw "new")
      for s in c.schemas do
        t ← (match t.mergeSchemaStr env s.toList with
          | .ok t => pure t
          | .err m => throw s!"schema {String.ofList m}"
          | .panic p => throw s!"schema panic {pname p}")
      t := t.setSrcStr c.src.toList
      let rr := if c.once then t.renderOnce env 50 w else t.render env 50 w
      match rr with
        | .ok t2 => pure t2
        | .panic p => throw s!"panic {pname p}"
        | .oof => throw "loop")
    match r with
    | .error e => if c.panic then ok := ok + 1 else do
        bad := bad + 1
        IO.println s!"FAIL {c.name}: {e}\n   src {c.src}"
    | .ok t =>
      let o := String.ofList t.out
      let good := (c.exp.getD o == o) && (c.err.getD t.hasError == t.hasError)
        && (c.code.getD (String.ofList t.statusCode) == String.ofList t.statusCode)
        && (c.text.getD (String.ofList t.statusText) == String.ofList t.statusText)
        && (c.param.getD (String.ofList t.statusParam) == String.ofList t.statusParam)
      if good then ok := ok + 1 else do
        bad := bad + 1
        IO.println s!"FAIL {c.name}\n   src {c.src}\n   got {o}\n   exp {c.exp} err {c.err} got {t.hasError} code {String.ofList t.statusCode} exp {c.code} errs {String.ofList (J.shw t.getError)}"
  IO.println s!"{ok} passed, {bad} failed"
