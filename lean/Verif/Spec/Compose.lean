import Verif.Spec.Blocks
import Verif.Model.Interp
/-
How a template is evaluated: the text is printed as it is, and each BIF is replaced by its output, from left to right.
-/
set_option autoImplicit false
namespace Nts.Spec

/-- `Produces env R only s sh inh e y sh' inh'`: evaluating the template `s` in the state `sh`, `inh`, where each BIF is evaluated
by `runBif env R`, prints `y` and ends in the state `sh'`, `inh'`; `e` tells whether its end was reached.  When `exit` was
called and there are blocks left, nothing more is printed or evaluated.  Comments, and the BIFs of a `coalesce` after the
first that printed something, are neither evaluated nor printed. -/
inductive Produces (env : Env) (R : Rec) (only : Str) :
    Str → Shared → Inherit → Bool → Str → Shared → Inherit → Prop
  | nil (sh : Shared) (inh : Inherit) : Produces env R only [] sh inh true [] sh inh
  | stop {s : Str} {sh : Shared} {inh : Inherit} : sh.exit = true → c!"{:" <:+: s →
      Produces env R only s sh inh false [] sh inh
  | chr {s y : Str} {sh sh' : Shared} {inh inh' : Inherit} {e : Bool} (c : Char) : ¬ c!"{:" <+: c :: s →
      ¬ (sh.exit = true ∧ c!"{:" <:+: s) → Produces env R only s sh inh e y sh' inh' →
      Produces env R only (c :: s) sh inh e (c :: y) sh' inh'
  | comment {b s y : Str} {sh sh' : Shared} {inh inh' : Inherit} {e : Bool} : sh.exit = false → IsComment b →
      Produces env R only s sh inh e y sh' inh' → Produces env R only (b ++ s) sh inh e y sh' inh'
  | skipped {b s y : Str} {sh sh' : Shared} {inh inh' : Inherit} {e : Bool} : sh.exit = false → IsBif b →
      inh.alias = c!"coalesce" → inh.lastCoalesceOut = true →
      Produces env R only s sh inh e y sh' inh' → Produces env R only (b ++ s) sh inh e y sh' inh'
  | evaluated {b s x y : Str} {sh sh1 sh' : Shared} {inh inh1 inh' : Inherit} {e : Bool} : sh.exit = false → IsBif b →
      ¬ (inh.alias = c!"coalesce" ∧ inh.lastCoalesceOut = true) → runBif env R sh inh b only = .ok x sh1 inh1 →
      Produces env R only s sh1 inh1 e y sh' inh' → Produces env R only (b ++ s) sh inh e (x ++ y) sh' inh'

/-- The text returned: trimmed, unless the evaluation was stopped. -/
def ended (e : Bool) (y : Str) : Str := if e then trim y else y

/-- What a block nested in the BIF `name` inherits: it knows the BIF and is one level deeper; the rest is as outside. -/
def inside (name : Str) (inh : Inherit) : Inherit := { inh with alias := name, blockCount := inh.blockCount + 1 }

/-- `sh'` is `sh` but for the table of definitions, in which at most those of the block `k` are forgotten. -/
structure Forgets (k : Nat) (sh sh' : Shared) : Prop where
  rest : sh' = { sh with indir := sh'.indir }
  others : ∀ x, x ≠ blockId k → sh'.indir x = sh.indir x

end Nts.Spec
