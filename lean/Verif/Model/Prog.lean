import Verif.Model.State
/-
BIF bodies are programs in a free monad.  An operation is one effect that the Rust code performs on
`self.shared`, `self.inherit`, on the BIF's own fields or on the world; `step` gives its meaning.  Because BIF bodies can
only act through operations, a fact about every possible execution is proved by checking the operations.
-/
set_option autoImplicit false
namespace Nts

/-- Why a Rust panic happens. -/
inductive Panic where
  /-- `Bif::new`: more than `infinite_loop_max_bifs` BIFs -/
  | budget
  /-- serde_json `IndexMut` on a value that is neither `Null` nor an object -/
  | index
  /-- `unwrap` on `None`/`Err` -/
  | unwrap
  /-- slice index out of bounds or not on a character boundary -/
  | bounds
  /-- arithmetic overflow with checks enabled -/
  | overflow
  /-- a `Display` implementation returned an error (chrono format) -/
  | fmt
deriving DecidableEq, Repr

/-- Which list of already loaded files. -/
inductive FileKind where
  | incl | locale | data

/-- Result of evaluating a block: output and new state, a panic, or not enough fuel (the latter is proved
impossible for enough fuel). -/
inductive PRes where
  | ok (out : Str) (sh : Shared) (inh : Inherit)
  | panic (p : Panic)
  | oof

/-- The recursive call: `parse_with_blocks` of a child (src/block_parser.rs:153). -/
abbrev Rec := Shared → Inherit → Str → List (Nat × Nat) → Str → PRes

/-- Operations (effects) of a BIF body. -/
inductive Op where
  /-- read the whole state -/
  | get
  /-- assign the BIF's own fields -/
  | modB (f : BifS → BifS)
  /-- `self.inherit.in_cache = b` -/
  | setInCache (b : Bool)
  /-- `self.inherit.last_coalesce_out = b` -/
  | setLastCoalesce (b : Bool)
  /-- `self.inherit.current_dir = d` -/
  | setCurrentDir (d : Str)
  /-- `self.inherit.{include,locale,data}_files.push(p)` -/
  | pushFile (k : FileKind) (p : Str)
  /-- `self.shared.flags = s` -/
  | setFlags (s : Str)
  /-- `status_code = code; status_param = param; status_text = STATUS_CODES.get(code) or ""` -/
  | setStatus (code param : Str)
  /-- `self.shared.exit = b` -/
  | setExit (b : Bool)
  /-- `self.shared.redirect_js = s` -/
  | setRedirectJs (s : Str)
  /-- `self.shared.already_js = true` -/
  | setAlreadyJs
  /-- `self.shared.schema["data"][name] = v` -/
  | setData (name : Str) (v : Value)
  /-- `self.shared.schema["__moveto"][hash] = v` -/
  | setMoveto (hash : Str) (v : Value)
  /-- `self.inherit.create_block_schema(self.shared)` -/
  | createBlockSchema
  /-- `self.shared.get_indir_mut(&self.inherit.indir)[sec][key] = v` -/
  | setIndir (sec key : Str) (v : Value)
  /-- `merge_schema_owned(&mut self.shared.get_indir_mut(indir)[sec], v)` -/
  | mergeIndir (sec : Str) (v : Value)
  /-- interact with the environment: a fresh tick -/
  | tick
  /-- create/overwrite a file -/
  | writeFile (path content : Str) (mtime : Nat)
  /-- `new_child_parse!(self, src, scope)` -/
  | child (src : Str) (scope : Bool)
  /-- the child evaluation of `each` and `for` with pre-extracted blocks -/
  | childBlocks (src : Str) (blocks : List (Nat × Nat)) (scope : Bool)

/-- Type of the answer of an operation. -/
abbrev Op.Resp : Op → Type
  | .get => St
  | .tick => Nat
  | .child _ _ => Str
  | .childBlocks _ _ _ => Str
  | _ => Unit

/-- Programs. -/
inductive Prog (α : Type) : Type where
  | pure (a : α)
  /-- `return Err(e)` -/
  | throw (e : BifErr)
  | panic (p : Panic)
  | op (o : Op) (k : o.Resp → Prog α)

/-- Sequencing. -/
def Prog.bind {α β : Type} : Prog α → (α → Prog β) → Prog β
  | .pure a, f => f a
  | .throw e, _ => .throw e
  | .panic p, _ => .panic p
  | .op o k, f => .op o (fun r => (k r).bind f)

instance : Monad Prog where
  pure := Prog.pure
  bind := Prog.bind

/-- Perform an operation. -/
def perform (o : Op) : Prog o.Resp := .op o .pure

/-- Result of running a program. -/
inductive Res (α : Type) where
  | ok (a : α) (s : St)
  /-- `Err(e)`; the state changes made so far stay -/
  | err (e : BifErr) (s : St)
  | panic (p : Panic)
  | oof

/-- Result of an operation. -/
inductive ORes (α : Type) where
  | ok (a : α) (s : St)
  | panic (p : Panic)
  | oof

/-- The inherit passed to a child (src/macros.rs:38-51; the same code is repeated in
src/bif/parse_bif_each.rs:105-112 and src/bif/parse_bif_for.rs:79-86), including the `block_count += 1` of
`BlockParser::new` (src/block_parser.rs:113). -/
def childInherit (s : St) : Inherit :=
  { s.inh with
    alias := s.b.alias
    currentFile := if s.b.filePath.isEmpty then s.inh.currentFile else s.b.filePath
    currentDir := if s.b.dir.isEmpty then s.inh.currentDir else s.b.dir
    blockCount := s.inh.blockCount + 1 }

/-- The child evaluation: clone inherit, `create_block_schema` on the parent when `scope`, evaluate, copy the
child's block back when `scope`, drop the child (src/macros.rs:36-70). -/
def runChild (s : St) (scope : Bool) (f : Shared → Inherit → PRes) : ORes Str :=
  let ci := childInherit s
  let p := if scope then createBlockSchema s.sh s.inh else (s.sh, s.inh)
  match f p.1 ci with
  | .ok out sh2 ci2 =>
    let sh3 := if scope then updateIndir sh2 ci2.indir p.2.indir else sh2
    .ok out { s with sh := dropBlock sh3 ci2, inh := p.2 }
  | .panic e => .panic e
  | .oof => .oof

/-- `handle_unmatched_block` (src/block_parser.rs:141-151); `p` is the byte position. -/
def handleUnmatched (sh : Shared) (p : Nat) : Shared :=
  { sh with
    statusCode := c!"500"
    statusParam := c!"Unmatched block at position " ++ showNat p
    statusText := statusTextOf c!"500" }

/-- `BlockParser::parse` (src/block_parser.rs:129-139). -/
def parseSrc (R : Rec) (sh : Shared) (inh : Inherit) (src only : Str) : PRes :=
  match extractBlocks src with
  | .error p => .ok [] (handleUnmatched sh (byteLen (src.take p))) inh
  | .ok bs => R sh inh src bs only

/-- Lift an optional new state: `none` is a serde_json index panic. -/
def oresOpt (o : Option St) : ORes Unit :=
  match o with
  | some s => .ok () s
  | none => .panic .index

/-- Meaning of the operations. -/
def step (R : Rec) : (o : Op) → St → ORes o.Resp
  | .get, s => .ok s s
  | .modB f, s => .ok () { s with b := f s.b }
  | .setInCache b, s => .ok () { s with inh := { s.inh with inCache := b } }
  | .setLastCoalesce b, s => .ok () { s with inh := { s.inh with lastCoalesceOut := b } }
  | .setCurrentDir d, s => .ok () { s with inh := { s.inh with currentDir := d } }
  | .pushFile .incl p, s => .ok () { s with inh := { s.inh with includeFiles := s.inh.includeFiles ++ [p] } }
  | .pushFile .locale p, s => .ok () { s with inh := { s.inh with localeFiles := s.inh.localeFiles ++ [p] } }
  | .pushFile .data p, s => .ok () { s with inh := { s.inh with dataFiles := s.inh.dataFiles ++ [p] } }
  | .setFlags f, s => .ok () { s with sh := { s.sh with flags := f } }
  | .setStatus code param, s =>
    .ok () { s with sh := { s.sh with statusCode := code, statusParam := param, statusText := statusTextOf code } }
  | .setExit b, s => .ok () { s with sh := { s.sh with exit := b } }
  | .setRedirectJs x, s => .ok () { s with sh := { s.sh with redirectJs := x } }
  | .setAlreadyJs, s => .ok () { s with sh := { s.sh with alreadyJs := true } }
  | .setData name v, s =>
    oresOpt ((s.sh.schema.modIndex c!"data" (fun d => d.setIndex name v)).map
      (fun sc => { s with sh := { s.sh with schema := sc } }))
  | .setMoveto h v, s =>
    oresOpt ((s.sh.schema.modIndex c!"__moveto" (fun d => d.setIndex h v)).map
      (fun sc => { s with sh := { s.sh with schema := sc } }))
  | .createBlockSchema, s =>
    let p := createBlockSchema s.sh s.inh
    .ok () { s with sh := p.1, inh := p.2 }
  | .setIndir sec key v, s =>
    oresOpt ((s.sh.modIndir s.inh.indir (fun x => x.modIndex sec (fun y => y.setIndex key v))).map
      (fun sh => { s with sh := sh }))
  | .mergeIndir sec v, s =>
    oresOpt ((s.sh.modIndir s.inh.indir (fun x => x.modIndex sec (fun y => some (mergeSchemaOwned y v)))).map
      (fun sh => { s with sh := sh }))
  | .tick, s =>
    .ok s.sh.w.tick { s with sh := { s.sh with w := { s.sh.w with tick := s.sh.w.tick + 1 } } }
  | .writeFile path content mtime, s =>
    .ok () { s with sh := { s.sh with w := { s.sh.w with
      fs := fun x => if x = path then some ⟨some content, mtime, true⟩ else s.sh.w.fs x } } }
  | .child src scope, s => runChild s scope (fun sh inh => parseSrc R sh inh src s.only)
  | .childBlocks src blocks scope, s => runChild s scope (fun sh inh => R sh inh src blocks s.only)

/-- Run a program. -/
def run (R : Rec) {α : Type} : Prog α → St → Res α
  | .pure a, s => .ok a s
  | .throw e, s => .err e s
  | .panic p, _ => .panic p
  | .op o k, s =>
    match step R o s with
    | .ok r s' => run R (k r) s'
    | .panic p => .panic p
    | .oof => .oof

/-! ### abbreviations used by the BIF bodies -/

/-- Read the state. -/
def getSt : Prog St := perform .get
/-- Assign local fields. -/
def modB (f : BifS → BifS) : Prog Unit := perform (.modB f)
/-- `self.code = x` -/
def setCode (x : Str) : Prog Unit := modB (fun b => { b with code := x })
/-- `self.params = x` -/
def setParams (x : Str) : Prog Unit := modB (fun b => { b with params := x })
/-- `self.out = x` -/
def setOut (x : Str) : Prog Unit := modB (fun b => { b with out := x })
/-- `self.src = x` -/
def setSrc (x : Str) : Prog Unit := modB (fun b => { b with src := x })
/-- `self.alias = x` -/
def setAlias (x : Str) : Prog Unit := modB (fun b => { b with alias := x })
/-- `self.file_path = x` -/
def setFilePath (x : Str) : Prog Unit := modB (fun b => { b with filePath := x })
/-- `self.dir = x` -/
def setDir (x : Str) : Prog Unit := modB (fun b => { b with dir := x })
/-- `new_child_parse!(self, src, scope)` -/
def childParse (src : Str) (scope : Bool) : Prog Str := perform (.child src scope)
/-- One clock/random/IO interaction. -/
def tick : Prog Nat := perform .tick

/-- `return Err(self.bif_error(msg))` (src/bif/mod.rs:422-429). -/
def bifError {α : Type} (msg : Str) : Prog α := do
  let s ← getSt
  .throw { msg := msg, name := s.b.alias, file := s.inh.currentFile, src := s.raw }

/-- A `for` loop over a list. -/
def forList {β : Type} : List β → (β → Prog Unit) → Prog Unit
  | [], _ => .pure ()
  | x :: r, f => .bind (f x) (fun _ => forList r f)

end Nts
