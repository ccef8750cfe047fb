import Verif.Model.State
/-
The Python executor, /repo/src/bif/exec_python.rs.  The interpreter is one per process: `sys.path`, `sys.modules` and the
attributes of modules outlive a call, and are shared by all renders of the process.  Python code of one thread can be
suspended between any two of the steps below (the interpreter lock is given up while Python code runs: `json.loads`, imports,
the callback).

Virtual environments (`setup_venv`, lines 43-93) are in Model/Venv.lean.  Not modelled: conversion of values between JSON and Python, what a script
does to the interpreter beyond its result.
-/
set_option autoImplicit false
namespace Nts.Py

/-- What the scripts are: everything about Python that the executor relies on. -/
structure Scripts where
  /-- `Path::file_stem` (src/bif/exec_python.rs:162-172): the module name of a script file -/
  stem : Str → Option Str
  /-- `Path::parent`, or `.` (src/bif/exec_python.rs:107) -/
  dir : Str → Str
  /-- the file that provides the module `name` in a directory of `sys.path`, if any -/
  provides : Str → Str → Option Str
  /-- the first line of a failure while a file is being imported -/
  loadErr : Str → Option Str
  /-- does the file define this function? -/
  defines : Str → Str → Bool
  /-- the function `callback` of the file, applied to its parameters, when `__NEUTRAL_SCHEMA__` and
  `__NEUTRAL_SCHEMA_DATA__` have these values in its module (`none`: not defined) -/
  call : Str → Str → Value → Option Value → Option Value → Except Str Value

/-- A module object: the file it was made from and the two attributes the executor assigns. -/
structure Module where
  file : Str
  schema : Option Value
  data : Option Value

/-- The state of the interpreter. -/
structure Interp where
  /-- `sys.path` -/
  path : List Str
  /-- `sys.modules`, by name -/
  modules : Str → Option Module

/-- `PyModule::import`: a module that is already there is not loaded again; otherwise the first directory of `sys.path`
that provides it. -/
def importModule (S : Scripts) (I : Interp) (name : Str) : Except Str Interp :=
  match I.modules name with
  | some _ => .ok I
  | none =>
    match I.path.findSome? (fun d => S.provides d name) with
    | none => .error (c!"ModuleNotFoundError: No module named '" ++ name ++ c!"'")
    | some f =>
      match S.loadErr f with
      | some e => .error e
      | none => .ok { I with modules := fun n => if n = name then some ⟨f, none, none⟩ else I.modules n }

/-- Change the attributes of the module `name`. -/
def setAttrs (I : Interp) (name : Str) (f : Module → Module) : Interp :=
  { I with modules := fun n => if n = name then (I.modules n).map f else I.modules n }

/-- Where a call is. -/
inductive Pc where
  /-- `setup_python_path` (src/bif/exec_python.rs:106-119) -/
  | path
  /-- `PyModule::import` (src/bif/exec_python.rs:129-130) -/
  | load
  /-- `delattr __NEUTRAL_SCHEMA__` (src/bif/exec_python.rs:133-135) -/
  | delSchema
  /-- `setattr __NEUTRAL_SCHEMA__` (src/bif/exec_python.rs:137-140) -/
  | setSchema
  /-- `delattr __NEUTRAL_SCHEMA_DATA__` (src/bif/exec_python.rs:142-144) -/
  | delData
  /-- `setattr __NEUTRAL_SCHEMA_DATA__` (src/bif/exec_python.rs:146-149) -/
  | setData
  /-- `getattr(callback)` and the call (src/bif/exec_python.rs:151-159) -/
  | call
  /-- finished -/
  | done
deriving DecidableEq

/-- A call in progress: its arguments, its position, what the callback was given (the file of the function that ran, and
the two attributes it saw), and the result. -/
structure Thread where
  args : ObjCall
  pc : Pc
  ran : Option (Str × Option Value × Option Value)
  result : Option (Except Str Value)

/-- A call that has not started. -/
def Thread.new (c : ObjCall) : Thread := ⟨c, .path, none, none⟩

/-- The error of a call (src/bif/exec_python.rs:31-40). -/
def callErr (c : ObjCall) (e : Str) : Str := c!"Error executing callback function '" ++ c.callback ++ c!"': " ++ e

/-- A call that ends with an error. -/
def Thread.fail (t : Thread) (e : Str) : Thread := { t with pc := .done, result := some (.error (callErr t.args e)) }

/-- One step of a call (src/bif/exec_python.rs:95-172). -/
def tstep (S : Scripts) (I : Interp) (t : Thread) : Interp × Thread :=
  match t.pc with
  | .path => ({ I with path := I.path ++ [S.dir t.args.file] }, { t with pc := .load })
  | .load =>
    match S.stem t.args.file with
    | none => (I, t.fail c!"Could not extract module name from file path")
    | some name =>
      match importModule S I name with
      | .error e => (I, t.fail e)
      | .ok I' => (I', { t with pc := .delSchema })
  | .delSchema => (setAttrs I ((S.stem t.args.file).getD []) (fun m => { m with schema := none }), { t with pc := .setSchema })
  | .setSchema =>
    (match t.args.schema with
      | some v => setAttrs I ((S.stem t.args.file).getD []) (fun m => { m with schema := some v })
      | none => I, { t with pc := .delData })
  | .delData => (setAttrs I ((S.stem t.args.file).getD []) (fun m => { m with data := none }), { t with pc := .setData })
  | .setData =>
    (match t.args.schemaData with
      | some v => setAttrs I ((S.stem t.args.file).getD []) (fun m => { m with data := some v })
      | none => I, { t with pc := .call })
  | .call =>
    match I.modules ((S.stem t.args.file).getD []) with
    | none => (I, t.fail c!"module is gone")
    | some m =>
      if S.defines m.file t.args.callback then
        (I, { t with
          pc := .done
          ran := some (m.file, m.schema, m.data)
          result := some (match S.call m.file t.args.callback t.args.params m.schema m.data with
            | .ok v => .ok v
            | .error e => .error (callErr t.args e)) })
      else (I, t.fail (c!"Module does not have function '" ++ t.args.callback ++ c!"'"))
  | .done => (I, t)

/-- `exec_py` without interference: all its steps in a row (seven are enough). -/
def execPy (S : Scripts) (I : Interp) (c : ObjCall) : Interp × Thread :=
  let go := fun (p : Interp × Thread) => tstep S p.1 p.2
  go (go (go (go (go (go (go (I, Thread.new c)))))))

/-- The processes: renders in several threads, each in the middle of a call. -/
structure Sys where
  interp : Interp
  threads : List Thread

/-- One step of the thread number `i`. -/
def sstep (S : Scripts) (s : Sys) (i : Nat) : Sys :=
  match s.threads[i]? with
  | none => s
  | some t => ⟨(tstep S s.interp t).1, s.threads.set i (tstep S s.interp t).2⟩

/-- A schedule: the numbers of the threads that make the steps. -/
def sched (S : Scripts) (s : Sys) : List Nat → Sys
  | [] => s
  | i :: r => sched S (sstep S s i) r

end Nts.Py
