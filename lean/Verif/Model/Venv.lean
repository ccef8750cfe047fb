import Verif.Model.Python
/-
Virtual environments of Python objects: `setup_venv` and the start of the interpreter in /repo/src/bif/exec_python.rs:21-93.
The variables of the environment belong to the process; `Python::initialize` starts the interpreter once, with the variables of
that moment, and does nothing afterwards.
-/
set_option autoImplicit false
namespace Nts.Py

/-- The variables of the process that `setup_venv` assigns. -/
structure Vars where
  executable : Option Str
  virtualEnv : Option Str
  home : Option Str
  path : Option Str
deriving DecidableEq

/-- What the system provides. -/
structure Host where
  /-- `Path::exists` -/
  exists_ : Str → Bool
  /-- running the Python of an environment with `-c "import sys; print(sys.prefix); print(':'.join(sys.path))"`: the error, or
  whether it succeeded and what it printed -/
  probe : Str → Except Str (Bool × Str)
  /-- `sys.path` of an interpreter started with these variables -/
  startPath : Vars → List Str
  /-- `sys.modules` of an interpreter that was just started -/
  startModules : Str → Option Module

/-- `setup_venv` (src/bif/exec_python.rs:43-93, unix): the variables afterwards, and the error. -/
def setupVenv (H : Host) (vars : Vars) (venv : Str) : Vars × Except Str Unit :=
  if !H.exists_ venv then (vars, .error (c!"Venv path '" ++ venv ++ c!"' does not exist"))
  else
    let exe := venv ++ c!"/bin/python"
    if !H.exists_ exe then (vars, .error (c!"Python executable not found: " ++ exe))
    else
      let vars := { vars with executable := some exe, virtualEnv := some venv }
      match H.probe exe with
      | .error e => (vars, .error (c!"Failed to get Python path info: " ++ e))
      | .ok (success, out) =>
        if success then
          match splitChar '\n' (trim out) with
          | home :: path :: _ => ({ vars with home := some home, path := some path }, .ok ())
          | _ => (vars, .ok ())
        else (vars, .ok ())

/-- The process: its variables, and the interpreter once it is started. -/
structure Proc where
  vars : Vars
  interp : Option Interp

/-- `Python::initialize()` (src/bif/exec_python.rs:25): only the first one starts the interpreter. -/
def startUp (H : Host) (vars : Vars) (I : Option Interp) : Interp :=
  match I with
  | some I => I
  | none => ⟨H.startPath vars, H.startModules⟩

/-- `exec_py` (src/bif/exec_python.rs:13-41). -/
def execIn (S : Scripts) (H : Host) (P : Proc) (c : ObjCall) : Proc × Except Str Value :=
  let p : Vars × Except Str Unit := match c.venv with
    | none => (P.vars, .ok ())
    | some v => setupVenv H P.vars v
  match p.2 with
  | .error e => ({ P with vars := p.1 }, .error e)
  | .ok _ =>
    let r := execPy S (startUp H p.1 P.interp) c
    (⟨p.1, some r.1⟩, r.2.result.getD (.error []))

/-- The objects of a process, one after the other. -/
def history (S : Scripts) (H : Host) (P : Proc) : List ObjCall → Proc
  | [] => P
  | c :: r => history S H (execIn S H P c).1 r

end Nts.Py
