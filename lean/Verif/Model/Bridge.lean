import Verif.Model.CacheFs
/-
How the bridge script for PHP objects gets to its place (src/bif/exec_php.rs:229-241, `ensure_bridge_script`), one system call at a
time: `Path::exists`, and if there is no file `fs::write`, that is the creation of an empty file and any number of writes of any
size.

Modelled: the file, any number of calls of objects (numbered by naturals, in one or several processes), failures and crashes at any
point, and the moment in which PHP-FPM reads the script for the request of a call.  Simplified: nobody else changes or removes the
file; PHP-FPM reads it at once; no bytecode cache.
-/
set_option autoImplicit false
namespace Nts.Bridge
open Nts.Fs (writeAt)

abbrev Bytes := List UInt8

/-- Where a call is. -/
inductive Phase
  /-- before `Path::new(bridge_path).exists()` (exec_php.rs:230) -/
  | start
  /-- there was no file: before the creation by `fs::write` (exec_php.rs:234) -/
  | missing
  /-- in `fs::write`, with the number of bytes written so far (exec_php.rs:234) -/
  | writing (off : Nat)
  /-- `ensure_bridge_script` has returned `Ok` (exec_php.rs:231, 240) -/
  | ready
  /-- the request was sent and PHP-FPM has run this script (exec_php.rs:153) -/
  | served (script : Bytes)
  /-- the call failed or its process died, with a script written up to here, if it was writing (exec_php.rs:234-239) -/
  | ended (off : Option Nat)

/-- The system: the file and the calls. -/
structure Sys where
  file : Option Bytes
  phase : Nat → Phase

/-- What can happen. `k` bounds the size of a write (`k + 1` bytes). -/
inductive Act
  | exists_ (p : Nat)
  | create (p : Nat)
  | write (p k : Nat)
  | serve (p : Nat)
  | stop (p : Nat)

/-- Call `p` goes to phase `x`. -/
def Sys.go (s : Sys) (p : Nat) (x : Phase) : Sys := { s with phase := fun q => if q = p then x else s.phase q }

/-- One step; `none` if the action is not possible in this state.  `stop` is an error of the system or the end of the process
(exec_php.rs:229-241). -/
def step (script : Bytes) (s : Sys) : Act → Option Sys
  | .exists_ p => match s.phase p with
    | .start => some (s.go p (if s.file.isSome then .ready else .missing))
    | _ => none
  | .create p => match s.phase p with
    | .missing => some { s.go p (.writing 0) with file := some [] }
    | _ => none
  | .write p k => match s.phase p, s.file with
    | .writing off, some f =>
      if script.drop off = [] then some (s.go p .ready)
      else some { s.go p (.writing (off + ((script.drop off).take (k + 1)).length)) with
        file := some (writeAt f off ((script.drop off).take (k + 1))) }
    | _, _ => none
  | .serve p => match s.phase p, s.file with
    | .ready, some f => some (s.go p (.served f))
    | _, _ => none
  | .stop p => match s.phase p with
    | .served _ => none
    | .ended _ => none
    | .writing off => some (s.go p (.ended (some off)))
    | _ => some (s.go p (.ended none))

/-- A history: the actions are possible one after the other. -/
inductive Runs (script : Bytes) : Sys → List Act → Sys → Prop
  | nil (s : Sys) : Runs script s [] s
  | snoc {s s1 s2 : Sys} {l : List Act} {a : Act} : Runs script s l s1 → step script s1 a = some s2 → Runs script s (l ++ [a]) s2

/-- No call was made yet, and this is in the place of the script. -/
def fresh (file : Option Bytes) : Sys := ⟨file, fun _ => .start⟩

end Nts.Bridge
