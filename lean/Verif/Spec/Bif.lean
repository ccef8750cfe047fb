import Verif.Spec.Blocks
import Verif.Model.State
/-
How a BIF is written, and the state in which its body starts.
-/
set_option autoImplicit false
namespace Nts.Spec

/-- The text `{:` modifiers name `;` source `:}`. -/
def bifText (mods name src : Str) : Str := c!"{:" ++ mods ++ name ++ c!";" ++ src ++ c!":}"

/-- Modifiers are among `&`, `!`, `^`, `+`. -/
def Mods (mods : Str) : Prop := ∀ c ∈ mods, c = '&' ∨ c = '!' ∨ c = '^' ∨ c = '+'

/-- A name (possibly empty: variables): no `;`, and it does not start with a modifier or a non-ASCII character. -/
def Named (name : Str) : Prop :=
  ';' ∉ name ∧ ∀ c r, name = c :: r → c.toNat < 128 ∧ c ≠ '&' ∧ c ≠ '!' ∧ c ≠ '^' ∧ c ≠ '+'

/-- `Parts src p c`: the source `src` of a BIF consists of the parameters `p` (`none` when it has no `>>`) and the
code `c`. -/
inductive Parts : Str → Option Str → Str → Prop
  | both {src a r : Str} : NoSep (c!">>" ++ r) a → trim src = a ++ c!">>" ++ r → Parts src (some (trim a)) (trim r)
  | code {src : Str} : NoSep [] (trim src) → Parts src none (trim src)

/-- Is a BIF evaluated in this pass?  In the main pass (`only = []`) all are; in the second pass the selected ones and
those nested in them. -/
def Selected (inh : Inherit) (mods name only : Str) : Prop :=
  only = [] ∨ inh.inOnly = true ∨ only <:+: mods ++ name

/-- The state in which the body of `{:mods name; src :}` starts. -/
def start (sh : Shared) (inh : Inherit) (mods name src only : Str) : St where
  sh := { sh with count := sh.count + 1 }
  inh := { inh with bifCount := sh.count + 1, inOnly := true }
  b := { BifS.new with
    src := trim src, name := name, alias := name
    modFilter := decide ('&' ∈ mods), modNegate := decide ('!' ∈ mods)
    modUpline := decide ('^' ∈ mods), modScope := decide ('+' ∈ mods) }
  raw := bifText mods name src
  only := only

end Nts.Spec
