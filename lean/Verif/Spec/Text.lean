import Verif.Model.Str
/-
Specification of text replacement, of the marks removed from the final output, and of status codes.
-/
set_option autoImplicit false
namespace Nts.Spec

/-- `Replaced f t s r`: `r` is `s` with `t` instead of `f`, at the leftmost places, one after the other. -/
inductive Replaced (f t : Str) : Str → Str → Prop
  | done {s : Str} : ¬ f <:+: s → Replaced f t s s
  | step {a s r : Str} : (∀ a' b', a ++ f ++ s = a' ++ f ++ b' → a.length ≤ a'.length) → Replaced f t s r →
      Replaced f t (a ++ f ++ s) (a ++ t ++ r)

/-- The texts one after the other, separated by `sep`. -/
def separated (sep : Str) (l : List Str) : Str := (l.intersperse sep).flatten

/-- White space only. -/
def Blank (w : Str) : Prop := ∀ c ∈ w, isWs c = true

/-- `MarkRemoved mark s t`: `t` is `s` without the marks and without the white space right before each of them. -/
inductive MarkRemoved (mark : Str) : Str → Str → Prop
  | nil : MarkRemoved mark [] []
  | keep {s t : Str} (c : Char) : (¬ ∃ w r, Blank w ∧ c :: s = w ++ mark ++ r) → MarkRemoved mark s t →
      MarkRemoved mark (c :: s) (c :: t)
  | cut {w r t : Str} : Blank w → MarkRemoved mark r t → MarkRemoved mark (w ++ mark ++ r) t

/-- The text has no `&` other than the one of the two marks. -/
inductive MarkOnly (m1 m2 : Str) : Str → Prop
  | nil : MarkOnly m1 m2 []
  | chr {s : Str} (c : Char) : c ≠ '&' → MarkOnly m1 m2 s → MarkOnly m1 m2 (c :: s)
  | mark1 {s : Str} : MarkOnly m1 m2 s → MarkOnly m1 m2 (m1 ++ s)
  | mark2 {s : Str} : MarkOnly m1 m2 s → MarkOnly m1 m2 (m2 ++ s)

/-- The three-digit code with digits `i j k`. -/
def code3 (i j k : Nat) : Str := [digitChar i, digitChar j, digitChar k]

end Nts.Spec
