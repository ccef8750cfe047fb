import Verif.Spec.Lang
import Verif.Spec.Browser
import Verif.Spec.Html
/-
Specification of what a visitor reads of the data a page prints.
-/
set_option autoImplicit false
namespace Nts.Spec

/-- `Displayed F d l x`: the page `x` consists of the texts of `l` as they are and, at the places of its variables, of HTML texts
that a browser displays as the text of the value of the variable in `d` - the data as they were given - with the character
references in it read once, without the outer white space. -/
inductive Displayed (F : F64Ops) (d : Obj) : List Node → Str → Prop
  | nil : Displayed F d [] []
  | text {t x : Str} {l : List Node} : Displayed F d l x → Displayed F d (.text t :: l) (t ++ x)
  | var {amp : Bool} {name y x : Str} {l : List Node} :
      Displays y (trim (unescapeChars true (shownAs F (resolvePointer (.obj d) name)))) → Displayed F d l x →
      Displayed F d (.var amp name :: l) (y ++ x)

/-- The same for data without character references: the browser displays the text of the value itself. -/
inductive DisplayedExact (F : F64Ops) (d : Obj) : List Node → Str → Prop
  | nil : DisplayedExact F d [] []
  | text {t x : Str} {l : List Node} : DisplayedExact F d l x → DisplayedExact F d (.text t :: l) (t ++ x)
  | var {amp : Bool} {name y x : Str} {l : List Node} :
      Displays y (trim (shownAs F (resolvePointer (.obj d) name))) → DisplayedExact F d l x →
      DisplayedExact F d (.var amp name :: l) (y ++ x)

/-- A key of an object without `&`, special characters and separators. -/
structure TextKey (k : Str) : Prop where
  amp : '&' ∉ k
  plain : ∀ c ∈ k, c ∉ special true
  arrow : ¬ c!"->" <:+: k

/-- Texts in which no delimiter begins, and variables that are filtered or are request data under plain keys. -/
def Told (S : Site) : Node → Prop
  | .text t => ¬ c!"{:" <:+: t ∧ t.getLast? ≠ some '{'
  | .var amp name => ¬ c!"local::" <+: name ∧
      ((amp = true ∨ S.filterAll = true) ∧ ¬ c!"CONTEXT" <:+: name ∨
        ∃ ks, (∀ k ∈ ks, TextKey k) ∧ ks ≠ [] ∧ name = ((c!"CONTEXT" :: ks).intersperse c!"->").flatten)
  | _ => False

end Nts.Spec
