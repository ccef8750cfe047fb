import Verif.Model.Php
/-
What a PHP object is expected to do, independently of the bridge script and the protocol.
-/
set_option autoImplicit false
namespace Nts.Spec.Php
open Nts.Php

mutual
/-- The PHP value of a JSON value: objects and arrays are both PHP arrays, so an object whose keys are 0, 1, ..., n-1 in this
order (the empty one, for example) is a list. -/
def array : Value → Value
  | .arr a => .arr (arrayList a)
  | .obj o =>
    if o.map (·.1) = (List.range o.length).map showNat then .arr ((arrayObj o).map (·.2)) else .obj (arrayObj o)
  | v => v
/-- The elements of a list. -/
def arrayList : List Value → List Value
  | [] => []
  | v :: r => array v :: arrayList r
/-- The entries of an object. -/
def arrayObj : List (Str × Value) → List (Str × Value)
  | [] => []
  | (k, v) :: r => (k, array v) :: arrayObj r
end

/-- A missing value or null is the default. -/
def orElse (d : Value) : Option Value → Value
  | none => d
  | some .null => d
  | some v => array v

/-- What the script sees of the call: the schema and the data it asked for (or null), the virtual environment (or the empty
text). -/
def seen (c : ObjCall) : Globals := ⟨orElse .null c.schema, orElse .null c.schemaData, .str (c.venv.getD [])⟩

/-- What the function is called with: the parameters of the object, the empty list when there are none. -/
def given (c : ObjCall) : Value := orElse (.arr []) (some c.params)

/-- The script was loaded in silence. -/
def Loads (P : Php) (c : ObjCall) : Prop := c.file ≠ [] ∧ P.isFile c.file = true ∧ P.load c.file (seen c) = .returns () []

end Nts.Spec.Php
