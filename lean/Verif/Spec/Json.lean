import Verif.Model.Value
import Verif.Spec.Html
/-
Specification vocabulary for JSON values; independent of the functions of the model.
-/
set_option autoImplicit false
namespace Nts.Spec

/-- `Below v w`: `w` is `v` or a value nested anywhere inside `v`. -/
inductive Below : Value → Value → Prop
  | here (v) : Below v v
  | arr {a : List Value} {x w : Value} : x ∈ a → Below x w → Below (.arr a) w
  | obj {o : Obj} {k : Str} {x w : Value} : (k, x) ∈ o → Below x w → Below (.obj o) w

/-- The keys of an object. -/
def keys (o : Obj) : List Str := o.map (fun kv => kv.1)

mutual
/-- `Filtered f v w`: `w` is `v` with every string and every object key replaced by its image under `f`; other
scalars are the same, arrays have the same length and order, every entry of an object of `w` comes from an entry
of the object of `v`, and no key of `v` disappears. -/
def Filtered (f : Str → Str) : Value → Value → Prop
  | .null, w => w = .null
  | .bool b, w => w = .bool b
  | .num n, w => w = .num n
  | .str s, w => w = .str (f s)
  | .arr a, w => ∃ a', w = .arr a' ∧ FilteredList f a a'
  | .obj o, w => ∃ o', w = .obj o' ∧ (∀ e ∈ o', FilteredEntry f o e.1 e.2) ∧ (∀ k ∈ keys o, f k ∈ keys o')
/-- Element-wise. -/
def FilteredList (f : Str → Str) : List Value → List Value → Prop
  | [], a' => a' = []
  | v :: r, a' => ∃ w r', a' = w :: r' ∧ Filtered f v w ∧ FilteredList f r r'
/-- The entry `k', w` comes from some entry of the object. -/
def FilteredEntry (f : Str → Str) : List (Str × Value) → Str → Value → Prop
  | [], _, _ => False
  | (k, v) :: r, k', w => (k' = f k ∧ Filtered f v w) ∨ FilteredEntry f r k' w
end

end Nts.Spec
