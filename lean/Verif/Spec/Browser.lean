import Verif.Model.Str
/-
How a browser reads escaped text (HTML standard, character references); independent of the model.
-/
set_option autoImplicit false
namespace Nts.Spec

/-- Character references of HTML: named ones, and numbers in base 16 and 10. -/
def references : List (Str × Char) :=
  [(c!"&amp;", '&'), (c!"&lt;", '<'), (c!"&gt;", '>'), (c!"&quot;", '"'), (c!"&#x27;", Char.ofNat 0x27),
   (c!"&#x2F;", Char.ofNat 0x2F), (c!"&#123;", Char.ofNat 123), (c!"&#125;", Char.ofNat 125)]

/-- The browser shows the source `s` as the text `t`. -/
inductive Displays : Str → Str → Prop
  | nil : Displays [] []
  | char (c : Char) (s t : Str) : c ≠ '&' → Displays s t → Displays (c :: s) (c :: t)
  | ref (e : Str) (c : Char) (s t : Str) : (e, c) ∈ references → Displays s t → Displays (e ++ s) (c :: t)

end Nts.Spec
