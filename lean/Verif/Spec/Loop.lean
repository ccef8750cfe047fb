import Verif.Spec.Eval
import Verif.Spec.Text
/-
What loops do: words, variables, rounds.
-/
set_option autoImplicit false
namespace Nts.Spec

/-- `Words s l`: the text `s` consists of the words `l`, separated (and possibly surrounded) by white space. -/
inductive Words : Str → List Str → Prop
  | nil {w : Str} : Blank w → Words w []
  | cons {w a r : Str} {l : List Str} : Blank w → a ≠ [] → (∀ c ∈ a, isWs c = false) →
      (∀ c, r.head? = some c → isWs c = true) → Words r l → Words (w ++ a ++ r) (a :: l)

/-- The value of the variable `k` in the data of the application (`null` when there is none). -/
def var (sh : Shared) (k : Str) : Value := ((sh.schema.index c!"data").index k)

/-- `VarSet sh k v sh'`: the data of the application is an object and gets the entry `k` with the value `v`. -/
def VarSet (sh : Shared) (k : Str) (v : Value) (sh' : Shared) : Prop :=
  ∃ sc d, sh.schema = .obj sc ∧ Obj.get? c!"data" sc = some (.obj d) ∧
    sh' = { sh with schema := .obj (Obj.insert c!"data" (.obj (Obj.insert k v d)) sc) }

/-- Evaluate `text` as a block nested in the BIF `name` (see `nested`). -/
def block (R : Rec) (scope : Bool) (sh : Shared) (inh : Inherit) (name text only : Str) : PRes :=
  match runChild ⟨sh, inh, { BifS.new with alias := name }, [], only⟩ scope
      (fun sh' inh' => parseSrc R sh' inh' text only) with
  | .ok x s => .ok x s.sh s.inh
  | .panic p => .panic p
  | .oof => .oof

/-- `Rounds R scope name code only l sh inh out sh' inh'`: for each element of `l`, in order, its variables are set and the
code is evaluated; the outputs one after the other are `out`. -/
inductive Rounds (R : Rec) (scope : Bool) (name code only : Str) :
    List (List (Str × Value)) → Shared → Inherit → Str → Shared → Inherit → Prop
  | nil (sh : Shared) (inh : Inherit) : Rounds R scope name code only [] sh inh [] sh inh
  | set {k x : Str} {v : Value} {vs : List (Str × Value)} {l : List (List (Str × Value))} {sh sh1 sh' : Shared}
      {inh inh' : Inherit} : VarSet sh k v sh1 → Rounds R scope name code only (vs :: l) sh1 inh x sh' inh' →
      Rounds R scope name code only (((k, v) :: vs) :: l) sh inh x sh' inh'
  | eval {l : List (List (Str × Value))} {sh sh1 sh' : Shared} {inh inh1 inh' : Inherit} {x y : Str} :
      block R scope sh inh name code only = .ok x sh1 inh1 → Rounds R scope name code only l sh1 inh1 y sh' inh' →
      Rounds R scope name code only ([] :: l) sh inh (x ++ y) sh' inh'

/-- The elements of a collection, with their keys: none for a value that is not an object or an array. -/
inductive Elements : Value → List (Str × Value) → Prop
  | obj (o : Obj) : Elements (.obj o) o
  | arr (a : List Value) (l : List (Str × Value)) : l.length = a.length →
      (∀ (i : Nat) (v : Value), a[i]? = some v → l[i]? = some (showNat i, v)) → Elements (.arr a) l
  | none {v : Value} : (∀ o, v ≠ .obj o) → (∀ a, v ≠ .arr a) → Elements v []

/-- The numbers from `a` to `b`, up or down, both included. -/
def span (a b : Int) : List Int :=
  (List.range ((b - a).natAbs + 1)).map (fun (i : Nat) => if a ≤ b then a + i else a - i)

end Nts.Spec
