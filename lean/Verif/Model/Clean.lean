import Verif.Model.Str
/-
The script that removes old entries of the cache (cache-utils/clean-cache, bash).

Modelled: the whole script: the argument, the check of the directory, the names, the ages as bash computes them (64-bit
arithmetic, octal numbers, errors), the removals and what is printed on the standard output.  Simplified: a directory is the
list of its entries in the order of the shell's `*` (symbolic links stand for what they point to); the clock is read once per
candidate; nothing else changes the directory while the script runs (for that see Model/CacheFs.lean); no name has a line break
in it and the argument is not an option of `echo`; the locale is `C`.
-/
set_option autoImplicit false
namespace Nts.Clean

/-- What is in a directory: files with their modification time, directories, other things (sockets, broken links, ...). -/
inductive Item
  | file (content : Str) (mtime : Int)
  | dir (items : List (Str × Item))
  | other

/-- What the script asks the system: `date +%s` (by the number of the question), and whether `rm` and `rmdir` work on a path. -/
structure Sys where
  now : Nat → Int
  rm : Str → Bool
  rmdir : Str → Bool

/-- A hexadecimal digit (cache-utils/clean-cache:5, 11). -/
def hex (c : Char) : Bool := ('0' ≤ c && c ≤ '9') || ('a' ≤ c && c ≤ 'f') || ('A' ≤ c && c ≤ 'F')

/-- A decimal digit (cache-utils/clean-cache:11). -/
def dec (c : Char) : Bool := '0' ≤ c && c ≤ '9'

/-- `is_hex_3chars` (cache-utils/clean-cache:4-6). -/
def isHex3 (name : Str) : Bool := name.length == 3 && name.all hex

/-- The match of `^[0-9a-fA-F]+-[0-9]+$` with the text after the last `-` (cache-utils/clean-cache:11-12).  The class before
the `-` has no `-` in it, so the match is unique. -/
def lifeOf (name : Str) : Option Str :=
  match splitOnce c!"-" name with
  | none => none
  | some (h, d) => if !h.isEmpty && h.all hex && !d.isEmpty && d.all dec then some d else none

/-- A number in a base. -/
def valueIn (base : Nat) (d : Str) : Nat := d.foldl (fun n c => n * base + (c.toNat - 48)) 0

/-- Signed 64-bit wrap around. -/
def wrap (n : Nat) : Int := if n % 2 ^ 64 < 2 ^ 63 then ((n % 2 ^ 64 : Nat) : Int) else ((n % 2 ^ 64 : Nat) : Int) - 2 ^ 64

/-- How `[[ … -ge $x ]]` reads a number (cache-utils/clean-cache:16): a leading `0` is octal, and then `8` and `9` are an error;
no overflow check. -/
def bashNum (d : Str) : Option Int :=
  if d.head? = some '0' then (if d.all (fun c => '0' ≤ c && c ≤ '7') then some (wrap (valueIn 8 d)) else none)
  else some (wrap (valueIn 10 d))

/-- `is_expired` (cache-utils/clean-cache:9-20); an error in the comparison is a failed test. -/
def isExpired (now : Int) (name : Str) (mtime : Int) : Bool :=
  match lifeOf name with
  | none => false
  | some d =>
    match bashNum d with
    | none => false
    | some life => decide (now - mtime ≥ life)

/-- `remove_trailing_slash` (cache-utils/clean-cache:22-25). -/
def noSlash (dir : Str) : Str := (dir.reverse.dropWhile (· == '/')).reverse

/-- Is the name matched by `*`? (cache-utils/clean-cache:36, 38) -/
def visible (name : Str) : Bool := name.head? != some '.'

/-- The inner loop (cache-utils/clean-cache:38-43): the entries of a directory that are left, the number of questions asked to the
clock, the lines printed.  What `rm` cannot remove is reported as removed. -/
def sweep (S : Sys) (path : Str) : Nat → List (Str × Item) → List (Str × Item) × Nat × List Str
  | t, [] => ([], t, [])
  | t, (n, i) :: l =>
    match i with
    | .file _ mtime =>
      if visible n then
        let r := sweep S path (t + 1) l
        if isExpired (S.now t) n mtime then
          (if S.rm (path ++ c!"/" ++ n) then r.1 else (n, i) :: r.1, r.2.1, (c!"Expired file deleted: " ++ path ++ c!"/" ++ n) :: r.2.2)
        else ((n, i) :: r.1, r.2.1, r.2.2)
      else
        let r := sweep S path t l
        ((n, i) :: r.1, r.2.1, r.2.2)
    | _ =>
      let r := sweep S path t l
      ((n, i) :: r.1, r.2.1, r.2.2)

/-- The outer loop (cache-utils/clean-cache:36-50). -/
def outer (S : Sys) (base : Str) : Nat → List (Str × Item) → List (Str × Item) × Nat × List Str
  | t, [] => ([], t, [])
  | t, (n, i) :: l =>
    match i with
    | .dir items =>
      if visible n && isHex3 n then
        let path := base ++ c!"/" ++ n
        let x := sweep S path t items
        let r := outer S base x.2.1 l
        if x.1.isEmpty then
          (if S.rmdir path then r.1 else (n, .dir []) :: r.1, r.2.1, x.2.2 ++ (c!"Empty subdirectory deleted: " ++ path) :: r.2.2)
        else ((n, .dir x.1) :: r.1, r.2.1, x.2.2 ++ r.2.2)
      else
        let r := outer S base t l
        ((n, i) :: r.1, r.2.1, r.2.2)
    | _ =>
      let r := outer S base t l
      ((n, i) :: r.1, r.2.1, r.2.2)

/-- What a run of the script leaves: the contents of the directory, the exit status, the lines printed. -/
structure Result where
  left : List (Str × Item)
  status : Nat
  lines : List Str

/-- The script (cache-utils/clean-cache:27-52): `items` is what is in the directory (nothing when there is none). -/
def run (S : Sys) (arg : Str) (items : List (Str × Item)) : Result :=
  let base := noSlash arg
  if !contains c!"neutral-cache" base then
    ⟨items, 1, [c!"Invalid directory. For security reasons, it must contain 'neutral-cache' in its name."]⟩
  else
    let r := outer S base 0 items
    ⟨r.1, 0, c!"clean-cache start" :: r.2.2 ++ [c!"clean-cache end"]⟩

end Nts.Clean
