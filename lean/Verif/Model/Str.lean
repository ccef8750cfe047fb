/-
Rust string primitives used by /repo/src (std `str` methods).

A Rust `&str` is modelled by the list of its Unicode scalar values.  Every delimiter searched for by the
crate is ASCII, so searching scalar values and searching UTF-8 bytes find the same places.
-/
set_option autoImplicit false
namespace Nts

/-- Rust `&str` / `String`. -/
abbrev Str := List Char

/-- `c!"abc"` is the explicit list `['a','b','c']` (so that the kernel can compute with it). -/
syntax:max "c!" str : term
macro_rules
  | `(c! $s:str) => do
    let mut r : Lean.TSyntax `term ← `(([] : Str))
    for c in s.getString.toList.reverse do
      r ← `(List.cons $(Lean.quote c) $r)
    return r

/-- Remove the prefix `p` (`str::strip_prefix`). -/
def stripPrefix? : Str → Str → Option Str
  | [], s => some s
  | _ :: _, [] => none
  | p :: ps, c :: cs => if p = c then stripPrefix? ps cs else none

/-- `str::starts_with`. -/
def startsWith (p s : Str) : Bool := (stripPrefix? p s).isSome

/-- `str::strip_suffix`. -/
def stripSuffix? (p s : Str) : Option Str := (stripPrefix? p.reverse s.reverse).map List.reverse

/-- `str::ends_with`. -/
def endsWith (p s : Str) : Bool := (stripSuffix? p s).isSome

/-- `str::split_once`: text before and after the first occurrence of `p`. -/
def splitOnce (p : Str) : Str → Option (Str × Str)
  | [] => if p = [] then some ([], []) else none
  | c :: cs =>
    match stripPrefix? p (c :: cs) with
    | some r => some ([], r)
    | none =>
      match splitOnce p cs with
      | some (a, b) => some (c :: a, b)
      | none => none

/-- `str::find`: position of the first occurrence. -/
def find (p s : Str) : Option Nat := (splitOnce p s).map (fun x => x.1.length)

/-- `str::contains`. -/
def contains (p s : Str) : Bool := (splitOnce p s).isSome

/-- Worker of `str::replace` for a non-empty pattern; the counter skips the rest of a match. -/
def replGo (f t : Str) : Nat → Str → Str
  | _, [] => []
  | k + 1, _ :: cs => replGo f t k cs
  | 0, c :: cs =>
    if (stripPrefix? f (c :: cs)).isSome then t ++ replGo f t (f.length - 1) cs
    else c :: replGo f t 0 cs

/-- `str::replace(from, to)`.  With an empty pattern Rust inserts `to` at every boundary. -/
def replaceAll (f t s : Str) : Str :=
  if f = [] then t ++ s.flatMap (fun c => c :: t) else replGo f t 0 s

/-- `char::is_whitespace` (the Unicode `White_Space` property; the same set as regex `\s`). -/
def isWs (c : Char) : Bool :=
  let n := c.toNat
  (9 ≤ n && n ≤ 13) || n == 32 || n == 0x85 || n == 0xA0 || n == 0x1680 || (0x2000 ≤ n && n ≤ 0x200A)
    || n == 0x2028 || n == 0x2029 || n == 0x202F || n == 0x205F || n == 0x3000

/-- `str::trim_start`. -/
def trimStart (s : Str) : Str := s.dropWhile isWs
/-- `str::trim_end`. -/
def trimEnd (s : Str) : Str := (s.reverse.dropWhile isWs).reverse
/-- `str::trim`. -/
def trim (s : Str) : Str := trimEnd (trimStart s)

/-- Worker of `splitChar`: `acc` is the current piece, reversed. -/
def splitCharGo (d : Char) : Str → Str → List Str
  | acc, [] => [acc.reverse]
  | acc, c :: cs => if c = d then acc.reverse :: splitCharGo d [] cs else splitCharGo d (c :: acc) cs

/-- `str::split(char)`. -/
def splitChar (d : Char) (s : Str) : List Str := splitCharGo d [] s

/-- Worker of `splitWhitespace`. -/
def splitWsGo : Str → Str → List Str
  | acc, [] => if acc.isEmpty then [] else [acc.reverse]
  | acc, c :: cs =>
    if isWs c then (if acc.isEmpty then splitWsGo [] cs else acc.reverse :: splitWsGo [] cs)
    else splitWsGo (c :: acc) cs

/-- `str::split_whitespace`. -/
def splitWhitespace (s : Str) : List Str := splitWsGo [] s

/-- `[String]::join(sep)`. -/
def joinStr (sep : Str) : List Str → Str
  | [] => []
  | [x] => x
  | x :: y :: r => x ++ sep ++ joinStr sep (y :: r)

/-- `&s[a..b]` (character positions). -/
def slice (s : Str) (a b : Nat) : Str := (s.drop a).take (b - a)

/-- Number of UTF-8 bytes. -/
def byteLen (s : Str) : Nat := (s.map (fun c => c.utf8Size)).sum

/-- A decimal digit. -/
def digitChar (n : Nat) : Char := Char.ofNat (48 + n)

/-- Worker of `showNat`. -/
def digitsGo : Nat → Nat → Str → Str
  | 0, _, acc => acc
  | f + 1, n, acc =>
    if n / 10 = 0 then digitChar (n % 10) :: acc else digitsGo f (n / 10) (digitChar (n % 10) :: acc)

/-- `to_string()` of an unsigned integer. -/
def showNat (n : Nat) : Str := digitsGo (n + 1) n []

/-- `to_string()` of a signed integer. -/
def showInt (i : Int) : Str := if i < 0 then '-' :: showNat i.natAbs else showNat i.natAbs

/-- Value of an ASCII digit. -/
def digitVal? (c : Char) : Option Nat :=
  let n := c.toNat
  if 48 ≤ n && n ≤ 57 then some (n - 48) else none

/-- Decimal digits to a number, most significant first. -/
def parseDigits : Nat → Str → Option Nat
  | acc, [] => some acc
  | acc, c :: cs =>
    match digitVal? c with
    | some d => parseDigits (acc * 10 + d) cs
    | none => none

/-- One or more decimal digits. -/
def parseNat1 (s : Str) : Option Nat := if s.isEmpty then none else parseDigits 0 s

/-- `str::parse::<u64>()` / `parse::<usize>()` (64 bit): an optional `+`, digits, range check. -/
def parseU64 (s : Str) : Option Nat :=
  let body := match s with
    | c :: cs => if c = '+' then cs else c :: cs
    | [] => []
  match parseNat1 body with
  | some n => if n < 2 ^ 64 then some n else none
  | none => none

/-- `str::parse::<i32>()`. -/
def parseI32 (s : Str) : Option Int :=
  let r : Option Int := match s with
    | [] => none
    | c :: cs =>
      if c = '-' then (parseNat1 cs).map (fun (n : Nat) => -(n : Int))
      else if c = '+' then (parseNat1 cs).map (fun (n : Nat) => (n : Int))
      else (parseNat1 (c :: cs)).map (fun (n : Nat) => (n : Int))
  match r with
  | some i => if -(2 ^ 31) ≤ i ∧ i < 2 ^ 31 then some i else none
  | none => none

/-- Lexicographic order on strings (Rust `Ord for str`; UTF-8 byte order is scalar-value order). -/
def strLe : Str → Str → Bool
  | [], _ => true
  | _ :: _, [] => false
  | a :: as, b :: bs => if a.toNat < b.toNat then true else if a = b then strLe as bs else false

end Nts
