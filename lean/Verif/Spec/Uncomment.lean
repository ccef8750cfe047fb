import Verif.Spec.Blocks
/-
Specification of the removal of comments for every text, well formed or not.
-/
set_option autoImplicit false
namespace Nts.Spec

/-- The number of occurrences of `p` in `s`, also overlapping ones: the number of positions of `s` where one ends. -/
def occ (p s : Str) : Nat := ((List.range (s.length + 1)).filter (fun n => decide (p <:+ s.take n))).length

/-- The comment at the start of `s` is its first `k` characters: the first `k ≥ 3` with as many `{:*` as `*:}`. -/
def Closes (s : Str) (k : Nat) : Prop :=
  3 ≤ k ∧ k ≤ s.length ∧ occ c!"{:*" (s.take k) = occ c!"*:}" (s.take k) ∧
    ∀ j, 3 ≤ j → j < k → occ c!"{:*" (s.take j) ≠ occ c!"*:}" (s.take j)

/-- What follows the last `:` (everything, if there is none). -/
def afterColon (x : Str) : Str := (x.reverse.takeWhile (fun c => decide (c ≠ ':'))).reverse

/-- `Uncommented g s r`: removing the comments of `s`, where `g` is the text since the last comment before `s`, gives `r`
(`none`: a panic). A comment that is closed is removed. At a comment that is never closed the text `g` before it is lost,
and of the rest only what follows its last `:` is kept; it panics when nothing follows that `:`. -/
inductive Uncommented : Str → Str → Option Str → Prop
  | nil (g : Str) : Uncommented g [] (some g)
  | chr {g s : Str} {r : Option Str} (c : Char) : ¬ c!"{:*" <+: c :: s → Uncommented (g ++ [c]) s r → Uncommented g (c :: s) r
  | com {g q s : Str} {r : Option Str} : c!"{:*" <+: q → Closes (q ++ s) q.length → Uncommented [] s r →
      Uncommented g (q ++ s) (r.map (fun t => g ++ t))
  | open_ {g x : Str} : (∀ k, ¬ Closes (c!"{:*" ++ x) k) →
      Uncommented g (c!"{:*" ++ x) (if c!":" <:+ x then none else some (afterColon x))

/-- Every comment of the text is closed. -/
inductive AllClosed : Str → Prop
  | nil : AllClosed []
  | chr {s : Str} (c : Char) : ¬ c!"{:*" <+: c :: s → AllClosed s → AllClosed (c :: s)
  | com {q s : Str} : c!"{:*" <+: q → Closes (q ++ s) q.length → AllClosed s → AllClosed (q ++ s)

end Nts.Spec
