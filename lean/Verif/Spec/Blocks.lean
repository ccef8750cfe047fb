import Verif.Model.Str
/-
Specification of template structure, independent of the scanners.
-/
set_option autoImplicit false
namespace Nts.Spec

/-- The part of a text between two positions. -/
def part (src : Str) (a b : Nat) : Str := (src.take b).drop a

/-- The blocks `(start, end)` are in order and disjoint, inside the source and after position `p`; each block starts
with `{:` and ends with another `:}`. -/
def Ordered (src : Str) : Nat → List (Nat × Nat) → Prop
  | p, [] => p ≤ src.length
  | p, (s, e) :: r =>
    p ≤ s ∧ s + 4 ≤ e ∧ e ≤ src.length ∧ c!"{:" <+: part src s e ∧ c!":}" <:+ part src s e ∧ Ordered src e r

/-- The text outside the blocks, in order, starting at position `p`. -/
def outside (src : Str) : Nat → List (Nat × Nat) → List Str
  | p, [] => [part src p src.length]
  | p, (s, e) :: r => part src p s :: outside src e r

/-- Text and blocks put together again. -/
def weave (src : Str) : Nat → List (Nat × Nat) → Str
  | p, [] => part src p src.length
  | p, (s, e) :: r => part src p s ++ part src s e ++ weave src e r

/-- Position `p` is outside all the blocks. -/
def OutsideAll (p : Nat) (blocks : List (Nat × Nat)) : Prop := ∀ b ∈ blocks, p < b.1 ∨ b.2 ≤ p

/-- `Bal k s`: the text `s`, when followed by `k`, consists of characters that are not part of a delimiter and of
well nested BIFs `{: ... :}`. -/
inductive Bal : Str → Str → Prop
  | nil (k : Str) : Bal k []
  | chr {k s : Str} (c : Char) : ¬ c!"{:" <+: c :: s ++ k → ¬ c!":}" <+: c :: s ++ k → Bal k s → Bal k (c :: s)
  | nest {k b s : Str} : Bal c!":}" b → Bal k s → Bal k (c!"{:" ++ b ++ c!":}" ++ s)

/-- `CBal k s`: the text `s`, when followed by `k`, consists of characters that are not part of a comment delimiter
and of well nested comments `{:* ... *:}`. -/
inductive CBal : Str → Str → Prop
  | nil (k : Str) : CBal k []
  | chr {k s : Str} (c : Char) : ¬ c!"{:*" <+: c :: s ++ k → ¬ c!"*:}" <+: c :: s ++ k → CBal k s → CBal k (c :: s)
  | com {k b s : Str} : CBal c!"*:}" b → ¬ c!":}" <+: b ++ c!"*:}" → CBal k s →
      CBal k (c!"{:*" ++ b ++ c!"*:}" ++ s)

/-- A comment: `{:*` and `*:}` around a text in which comments are well nested. -/
def IsComment (s : Str) : Prop := ∃ b, s = c!"{:*" ++ b ++ c!"*:}" ∧ CBal c!"*:}" b ∧ ¬ c!":}" <+: b ++ c!"*:}"

/-- A BIF: `{:` and `:}` around a text in which BIFs are well nested (and that does not make it a comment). -/
def IsBif (s : Str) : Prop := ∃ b, s = c!"{:" ++ b ++ c!":}" ∧ Bal c!":}" b ∧ ¬ c!"*" <+: b

/-- `WellFormed p s blocks`: the template `s`, starting at position `p`, is plain text without delimiters
interleaved with BIFs and comments, which are at the positions `blocks`. -/
inductive WellFormed : Nat → Str → List (Nat × Nat) → Prop
  | nil (p : Nat) : WellFormed p [] []
  | chr {p : Nat} {s : Str} {l : List (Nat × Nat)} (c : Char) : ¬ c!"{:" <+: c :: s → ¬ c!":}" <+: c :: s →
      WellFormed (p + 1) s l → WellFormed p (c :: s) l
  | block {p : Nat} {b s : Str} {l : List (Nat × Nat)} : IsBif b ∨ IsComment b → WellFormed (p + b.length) s l →
      WellFormed p (b ++ s) ((p, p + b.length) :: l)

/-- `Stripped s t`: `t` is `s` without its comments: `s` is text in which `{:*` occurs only as the start of a comment. -/
inductive Stripped : Str → Str → Prop
  | nil : Stripped [] []
  | chr {s t : Str} (c : Char) : ¬ c!"{:*" <+: c :: s → Stripped s t → Stripped (c :: s) (c :: t)
  | com {b s t : Str} : IsComment b → Stripped s t → Stripped (b ++ s) t

/-- `NoSep k s`: the text `s`, when followed by `k`, has no `>>` outside its nested BIFs: it consists of characters that
are not part of a delimiter or of a `>>`, and of well nested BIFs (which may contain `>>`). -/
inductive NoSep : Str → Str → Prop
  | nil (k : Str) : NoSep k []
  | chr {k s : Str} (c : Char) : ¬ c!"{:" <+: c :: s ++ k → ¬ c!":}" <+: c :: s ++ k → ¬ c!">>" <+: c :: s ++ k →
      NoSep k s → NoSep k (c :: s)
  | nest {k b s : Str} : Bal c!":}" b → NoSep k s → NoSep k (c!"{:" ++ b ++ c!":}" ++ s)

end Nts.Spec
