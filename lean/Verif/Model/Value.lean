import Verif.Model.Str
/-
`serde_json::Value` with the `preserve_order` feature (Cargo.toml), i.e. objects are insertion ordered maps.
-/
set_option autoImplicit false
namespace Nts

/-- `serde_json::Number`: an integer, or a float (an opaque 64 bit pattern). -/
inductive Num where
  | int (i : Int)
  | flt (bits : Nat)
deriving DecidableEq, Repr

/-- `serde_json::Value`. -/
inductive Value where
  | null
  | bool (b : Bool)
  | num (n : Num)
  | str (s : Str)
  | arr (a : List Value)
  | obj (o : List (Str × Value))

/-- A JSON object: insertion ordered association list (keys are unique, see `Value.WF`). -/
abbrev Obj := List (Str × Value)

/-- `Map::get`. -/
def Obj.get? (k : Str) : Obj → Option Value
  | [] => none
  | (k', v) :: r => if k' = k then some v else Obj.get? k r

/-- `Map::insert`: replace in place, or append. -/
def Obj.insert (k : Str) (v : Value) : Obj → Obj
  | [] => [(k, v)]
  | (k', v') :: r => if k' = k then (k', v) :: r else (k', v') :: Obj.insert k v r

/-- `Value::get(&str)`: objects only. -/
def Value.get? (v : Value) (k : Str) : Option Value :=
  match v with
  | .obj o => Obj.get? k o
  | _ => none

/-- `&v["k"]` (serde_json `Index`): a missing key or a non-object gives `Null`. -/
def Value.index (v : Value) (k : Str) : Value := (v.get? k).getD .null

/-- `v["k"] = x` (serde_json `IndexMut`): `Null` becomes `{}`, an object gets the key, anything else panics
(`none`). -/
def Value.setIndex (v : Value) (k : Str) (x : Value) : Option Value :=
  match v with
  | .null => some (.obj [(k, x)])
  | .obj o => some (.obj (Obj.insert k x o))
  | _ => none

/-- `&mut v["k"]` passed to a function `f` (`IndexMut`, inserting `Null` when absent). -/
def Value.modIndex (v : Value) (k : Str) (f : Value → Option Value) : Option Value :=
  match v with
  | .null => (f .null).map (fun x => .obj [(k, x)])
  | .obj o => (f ((Obj.get? k o).getD .null)).map (fun x => .obj (Obj.insert k x o))
  | _ => none

/-- `Value::as_bool`. -/
def Value.asBool? : Value → Option Bool
  | .bool b => some b
  | _ => none

/-- `Value::as_str`. -/
def Value.asStr? : Value → Option Str
  | .str s => some s
  | _ => none

/-- `Value::as_u64`. -/
def Value.asU64? : Value → Option Nat
  | .num (.int i) => if 0 ≤ i then some i.toNat else none
  | _ => none

/-- `json!(string)`. -/
def jstr (s : Str) : Value := .str s

mutual
/-- Unique keys at every level: the values `serde_json` can produce. -/
def Value.WF : Value → Prop
  | .arr a => Value.WFList a
  | .obj o => Value.WFObj o
  | _ => True
def Value.WFList : List Value → Prop
  | [] => True
  | v :: r => v.WF ∧ Value.WFList r
def Value.WFObj : List (Str × Value) → Prop
  | [] => True
  | (k, v) :: r => (∀ x ∈ r, x.1 ≠ k) ∧ v.WF ∧ Value.WFObj r
end

/-- One step of `serde_json::Value::pointer`'s array index parsing: no `+`, no superfluous leading zero. -/
def pointerIndex (s : Str) : Option Nat :=
  if startsWith c!"+" s || (startsWith c!"0" s && decide (s.length ≠ 1)) then none else parseU64 s

/-- One token of `Value::pointer`. -/
def pointerStep (v : Value) (tok : Str) : Option Value :=
  match v with
  | .obj o => Obj.get? tok o
  | .arr a => (pointerIndex tok).bind (fun i => a[i]?)
  | _ => none

/-- `serde_json::Value::pointer` (RFC 6901). -/
def Value.pointer (v : Value) (p : Str) : Option Value :=
  if p.isEmpty then some v
  else if !startsWith c!"/" p then none
  else
    ((splitChar '/' p).drop 1).foldl
      (fun cur tok => cur.bind (fun c => pointerStep c (replaceAll c!"~0" c!"~" (replaceAll c!"~1" c!"/" tok))))
      (some v)

mutual
/-- Structural equality test of JSON values (used in examples). -/
def Value.beq : Value → Value → Bool
  | .null, .null => true
  | .bool a, .bool b => a == b
  | .num a, .num b => decide (a = b)
  | .str a, .str b => decide (a = b)
  | .arr a, .arr b => Value.beqList a b
  | .obj a, .obj b => Value.beqObj a b
  | _, _ => false
def Value.beqList : List Value → List Value → Bool
  | [], [] => true
  | a :: as, b :: bs => a.beq b && Value.beqList as bs
  | _, _ => false
def Value.beqObj : List (Str × Value) → List (Str × Value) → Bool
  | [], [] => true
  | (k, a) :: as, (l, b) :: bs => decide (k = l) && a.beq b && Value.beqObj as bs
  | _, _ => false
end

end Nts
