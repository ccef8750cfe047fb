import Verif.Spec.Bif
import Verif.Spec.Eval
/-
What a BIF with the modifier `^` and the same BIF without it may differ in.
-/
set_option autoImplicit false
namespace Nts.Spec

/-- The same modifiers, but for `^`. -/
def SameMods (mods mods' : Str) : Prop := ∀ c, c ≠ '^' → (c ∈ mods ↔ c ∈ mods')

/-- The report of the error `msg` of a BIF written as `raw`. -/
def reportOf (time name msg file raw : Str) : Str :=
  oneLine (c!"[" ++ time ++ c!"] Error (" ++ name ++ c!") " ++ msg ++ c!" file~: (" ++ file ++ c!") src: " ++ raw)

/-- What a BIF prints: its output, with `^` after the mark, without the white space around it. -/
def marked (up : Bool) (x : Str) : Str := trim (if up then c!"&#9224" ++ x else x)

/-- `SameButMark up up' raw raw' r r'`: the results `r` and `r'` of two BIFs, written as `raw` and `raw'`, are the same but for
the mark of `^` (present or not as `up` and `up'` say) and the text of the BIF in the report of an error.  It is remembered
whether the output `x`, which does not include the mark, is empty. -/
inductive SameButMark (up up' : Bool) (raw raw' : Str) : PRes → PRes → Prop
  | shown (x : Str) (sh : Shared) (inh : Inherit) : inh.lastBifOut = decide (x ≠ []) → inh.lastCoalesceOut = decide (x ≠ []) →
      SameButMark up up' raw raw' (.ok (marked up x) sh inh) (.ok (marked up' x) sh inh)
  | failed (x time name msg file : Str) (sh : Shared) (inh : Inherit) : inh.lastBifOut = decide (x ≠ []) →
      inh.lastCoalesceOut = decide (x ≠ []) →
      SameButMark up up' raw raw' (.ok (marked up x) (pushError sh (reportOf time name msg file raw)) inh)
        (.ok (marked up' x) (pushError sh (reportOf time name msg file raw')) inh)
  | panic (p : Panic) : SameButMark up up' raw raw' (.panic p) (.panic p)
  | oof : SameButMark up up' raw raw' .oof .oof

/-- The BIFs whose text can be seen in the output: `neutral`, and in a cached block those left for the second pass. -/
def ShowsText (inCache : Bool) (mods name : Str) : Prop :=
  name = c!"neutral" ∨ (inCache = true ∧ (name = c!"exit" ∨ name = c!"moveto" ∨ name = c!"redirect" ∨
    (name = c!"cache" ∧ '!' ∈ mods)))

end Nts.Spec
