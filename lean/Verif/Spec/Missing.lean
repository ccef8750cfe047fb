import Verif.Spec.Loop
/-
C123: which arguments are wrong, and what is said about them.
-/
set_option autoImplicit false
namespace Nts.Spec

/-- `WrongArgs env name l msg`: `l`, what the arguments of the BIF `name` print, are not the arguments it needs, and `msg` says what is
wrong. -/
inductive WrongArgs (env : Env) : Str → List Str → Str → Prop
  | fewer {name : Str} {l : List Str} : name ∈ [c!"same", c!"contains", c!"replace", c!"sum"] → l.length < 2 →
      WrongArgs env name l c!"arguments not found"
  | first {a b : Str} {l : List Str} : env.f64.parse a = none → WrongArgs env c!"sum" (a :: b :: l) c!"invalid argument 1"
  | second {a b : Str} {l : List Str} {x : Nat} : env.f64.parse a = some x → env.f64.parse b = none →
      WrongArgs env c!"sum" (a :: b :: l) c!"invalid argument 2"
  | noArray : WrongArgs env c!"join" [] c!"arguments 'array' not found"
  | noSeparator {a : Str} : WrongArgs env c!"join" [a] c!"arguments 'separator' not found"

/-- `WrongWords name l msg`: `l`, the words of what the parameters of `name` print, are not the words it needs, and `msg` says what is
wrong. -/
inductive WrongWords : Str → List Str → Str → Prop
  | eachNone : WrongWords c!"each" [] c!"arguments not found"
  | eachKey {a : Str} : WrongWords c!"each" [a] c!"arguments 'key' not found"
  | eachValue {a k : Str} : WrongWords c!"each" [a, k] c!"arguments 'value' not found"
  | eachLocal {a k v : Str} {l : List Str} : c!"local::" <+: k ∨ c!"local::" <+: v → WrongWords c!"each" (a :: k :: v :: l) c!"insecure varname"
  | forNone : WrongWords c!"for" [] c!"arguments not found"
  | forRange {v : Str} : WrongWords c!"for" [v] c!"arguments 'from' and 'to' not found"
  | forFrom {v a : Str} {l : List Str} : parseI32 a = none → WrongWords c!"for" (v :: a :: l) c!"argument is not a number"
  | forTo {v a : Str} {x : Int} : parseI32 a = some x → WrongWords c!"for" [v, a] c!"arguments 'to' not found"
  | forNumber {v a b : Str} {l : List Str} {x : Int} : parseI32 a = some x → parseI32 b = none →
      WrongWords c!"for" (v :: a :: b :: l) c!"argument is not a number"

/-- The same for `rand`. -/
inductive WrongRange : List Str → Str → Prop
  | none : WrongRange [] c!"arguments not found"
  | from_ {a : Str} {l : List Str} : parseI32 a = Option.none → WrongRange (a :: l) c!"argument is not a number"
  | one {a : Str} {x : Int} : parseI32 a = some x → WrongRange [a] c!"arguments not found"
  | to {a b : Str} {l : List Str} {x : Int} : parseI32 a = some x → parseI32 b = Option.none →
      WrongRange (a :: b :: l) c!"argument is not a number"
  | order {a b : Str} {l : List Str} {x y : Int} : parseI32 a = some x → parseI32 b = some y → y < x →
      WrongRange (a :: b :: l) c!"from > to"

end Nts.Spec
