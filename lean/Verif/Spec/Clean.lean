import Verif.Model.Clean
/-
What the script that removes old entries of the cache may remove.
-/
set_option autoImplicit false
namespace Nts.Clean.Spec

/-- Hexadecimal digits. -/
def Hexes (s : Str) : Prop := ∀ c ∈ s, c ∈ c!"0123456789abcdefABCDEF"

/-- Decimal digits. -/
def Decs (s : Str) : Prop := ∀ c ∈ s, c ∈ c!"0123456789"

/-- The name of a directory of the cache: three hexadecimal digits. -/
def DirName (n : Str) : Prop := n.length = 3 ∧ Hexes n

/-- The name of an entry: hexadecimal digits, a dash, the digits `d` of the lifetime. -/
def EntryName (n d : Str) : Prop := ∃ h, n = h ++ c!"-" ++ d ∧ h ≠ [] ∧ Hexes h ∧ d ≠ [] ∧ Decs d

/-- What a numeral is worth. -/
def worth (base : Nat) : Str → Nat
  | [] => 0
  | c :: r => (c.toNat - '0'.toNat) * base ^ r.length + worth base r

/-- The 64-bit integer a number is taken for. -/
def Wraps (n : Nat) (i : Int) : Prop := -(2 ^ 63) ≤ i ∧ i < 2 ^ 63 ∧ ∃ k : Int, (n : Int) = i + k * 2 ^ 64

/-- The number of seconds the shell reads: octal after a leading zero (when the digits are), decimal otherwise, in 64 bits. -/
def Reads (d : Str) (i : Int) : Prop :=
  if d.head? = some '0' then (∀ c ∈ d, c ∈ c!"01234567") ∧ Wraps (worth 8 d) i else Wraps (worth 10 d) i

/-- At the time `T` the thing `i` named `n` is an entry whose lifetime is over. -/
def Over (T : Int) (n : Str) (i : Item) : Prop :=
  ∃ content mtime d life, i = .file content mtime ∧ EntryName n d ∧ Reads d life ∧ life ≤ T - mtime

/-- Different things have different names. -/
def Names (l : List (Str × Item)) : Prop := (l.map Prod.fst).Nodup

/-- The clock gives times from `a` to `b`. -/
def Between (S : Sys) (a b : Int) : Prop := ∀ t, a ≤ S.now t ∧ S.now t ≤ b

end Nts.Clean.Spec
