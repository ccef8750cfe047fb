import Verif.Model.Str
/-
Specification vocabulary for the escaping properties (C01-C05, C25, C44); independent of the model.
-/
set_option autoImplicit false
namespace Nts.Spec

/-- The characters that must never reach a page raw. -/
def htmlSpecial : Str := ['<', '>', '"', '\'', '/']

/-- The characters that must never reach a page raw when braces are escaped as well. -/
def special (braces : Bool) : Str := if braces then htmlSpecial ++ ['{', '}'] else htmlSpecial

/-- The entities the documentation lists for the special characters. -/
def entities (braces : Bool) : List Str :=
  [c!"&amp;", c!"&lt;", c!"&gt;", c!"&quot;", c!"&#x27;", c!"&#x2F;"] ++
    (if braces then [c!"&#123;", c!"&#125;"] else [])

/-- No special character occurs, and every `&` begins one of the entities. -/
def Clean (braces : Bool) (s : Str) : Prop :=
  (∀ c ∈ s, c ∉ special braces) ∧
  (∀ a r, s = a ++ '&' :: r → ∃ e ∈ entities braces, e <+: '&' :: r)

end Nts.Spec
