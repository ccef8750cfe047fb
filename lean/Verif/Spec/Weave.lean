import Verif.Spec.Compose
import Verif.Spec.Blocks
/-
Specification of a template as a sequence of BIFs with texts between them.
-/
set_option autoImplicit false
namespace Nts.Spec

/-- `BifsOf s l`: the template `s` is text and comments, and between them the BIFs `l`, in this order. -/
inductive BifsOf : Str → List Str → Prop
  | nil : BifsOf [] []
  | chr {s : Str} {l : List Str} (c : Char) : ¬ c!"{:" <+: c :: s → BifsOf s l → BifsOf (c :: s) l
  | comment {b s : Str} {l : List Str} : IsComment b → BifsOf s l → BifsOf (b ++ s) l
  | one {b s : Str} {l : List Str} : IsBif b → BifsOf s l → BifsOf (b ++ s) (b :: l)

/-- `Woven s xs whole y`: `y` is the text `s` without its comments, in which its BIFs are replaced by the texts `xs`.  When it is not
`whole`, the texts are those of its first BIFs, and `y` ends with the last of them. -/
inductive Woven : Str → List Str → Bool → Str → Prop
  | nil : Woven [] [] true []
  | cut {s : Str} : c!"{:" <:+: s → Woven s [] false []
  | chr {s y : Str} {xs : List Str} {whole : Bool} (c : Char) : ¬ c!"{:" <+: c :: s → ¬ (xs = [] ∧ whole = false) →
      Woven s xs whole y → Woven (c :: s) xs whole (c :: y)
  | comment {b s y : Str} {xs : List Str} {whole : Bool} : IsComment b → ¬ (xs = [] ∧ whole = false) →
      Woven s xs whole y → Woven (b ++ s) xs whole (y)
  | one {b s x y : Str} {xs : List Str} {whole : Bool} : IsBif b → Woven s xs whole y → Woven (b ++ s) (x :: xs) whole (x ++ y)

end Nts.Spec
