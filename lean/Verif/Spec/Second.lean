import Verif.Spec.Compose
import Verif.Spec.Bif
/-
What of a page the second pass, that for the excluded parts, leaves as it is.
-/
set_option autoImplicit false
namespace Nts.Spec

/-- A BIF whose name, the text up to the first `;`, does not have `!cache` in it. -/
def Other (b : Str) : Prop := IsBif b ∧ ¬ c!"!cache" <:+: b.takeWhile (· ≠ ';')

/-- `Before rest a k`: the text `a`, that is followed by `rest`, has `k` BIFs, none of them with `!cache` in its name. -/
inductive Before (rest : Str) : Str → Nat → Prop
  | nil : Before rest [] 0
  | chr {a : Str} {k : Nat} (c : Char) : ¬ c!"{:" <+: c :: (a ++ rest) → ¬ c!":}" <+: c :: (a ++ rest) → Before rest a k → Before rest (c :: a) k
  | one {b a : Str} {k : Nat} : Other b → Before rest a k → Before rest (b ++ a) (k + 1)

/-- The state with `k` more BIFs counted. -/
def moreBifs (k : Nat) (sh : Shared) : Shared := { sh with count := sh.count + k }

end Nts.Spec
