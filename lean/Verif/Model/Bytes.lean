import Verif.Model.Interp
/-
The functions of /repo/src that address strings by bytes, written as the code writes them: `while` loops over byte
positions, `str::find` on the rest of the string, byte indexing and slicing with their panics.  The rest of the model works on
characters (Model/Utils.lean, Model/Interp.lean); Props/Bytes.lean proves that both are the same program.

A `&str` is here the list of its bytes.  Loops take a counter of rounds; running out of it is the separate result `fuel`,
proved unreachable.
-/
set_option autoImplicit false
namespace Nts.B

/-- The bytes of a `&str`. -/
abbrev Bytes := List UInt8

/-- UTF-8. -/
def utf8 (s : Str) : Bytes := s.flatMap String.utf8EncodeChar

/-- Why an execution does not give a value. -/
inductive Stop where
  /-- a Rust panic: index out of bounds, or slice not at a character boundary -/
  | panic
  /-- the counter of rounds ran out -/
  | fuel
deriving DecidableEq

/-- The result of an execution. -/
abbrev M := Except Stop

/-- `str::is_char_boundary`: both ends, and every byte that is not a continuation byte (`0b10xxxxxx`). -/
def isBoundary (b : Bytes) (i : Nat) : Bool :=
  match i with
  | 0 => true
  | i => match b[i]? with
    | some x => decide (x.toNat < 128) || decide (192 ≤ x.toNat)
    | none => i == b.length

/-- `&s[i..]`. -/
def sliceFrom (b : Bytes) (i : Nat) : M Bytes :=
  if isBoundary b i then .ok (b.drop i) else .error .panic

/-- `&s[i..j]`. -/
def sliceB (b : Bytes) (i j : Nat) : M Bytes :=
  if decide (i ≤ j) && isBoundary b i && isBoundary b j then .ok ((b.drop i).take (j - i)) else .error .panic

/-- `s.as_bytes()[i]`. -/
def byteAt (b : Bytes) (i : Nat) : M UInt8 :=
  match b[i]? with
  | some x => .ok x
  | none => .error .panic

/-- `str::find(pattern)`: the first byte position at which the bytes of the pattern are found. -/
def findB (p : Bytes) : Bytes → Option Nat
  | [] => if p = [] then some 0 else none
  | b :: bs => if p <+: (b :: bs) then some 0 else (findB p bs).map (· + 1)

/-! ### extract_blocks -/

/-- `while let Some(delim_pos_rel) = raw_source[search_pos..].find(':')` for a BIF (src/utils.rs:211-236). -/
def bifLoop (src : Bytes) : Nat → Nat → Nat → M (Option Nat)
  | 0, _, _ => .error .fuel
  | f + 1, nested, searchPos => do
    match findB (utf8 c!":") (← sliceFrom src searchPos) with
    | none => .ok none
    | some rel =>
      let delim := searchPos + rel
      if 0 < delim ∧ delim + 1 < src.length then
        let prev ← byteAt src (delim - 1)
        let next ← byteAt src (delim + 1)
        if prev.toNat = '{'.toNat then bifLoop src f (nested + 1) (delim + 1)
        else if 0 < nested ∧ next.toNat = '}'.toNat then bifLoop src f (nested - 1) (delim + 1)
        else if next.toNat = '}'.toNat then .ok (some (delim + 2))
        else bifLoop src f nested (delim + 1)
      else bifLoop src f nested (delim + 1)

/-- The same loop for a comment (src/utils.rs:184-209). -/
def commentLoop (src : Bytes) : Nat → Nat → Nat → M (Option Nat)
  | 0, _, _ => .error .fuel
  | f + 1, nested, searchPos => do
    match findB (utf8 c!":") (← sliceFrom src searchPos) with
    | none => .ok none
    | some rel =>
      let delim := searchPos + rel
      if 0 < delim ∧ delim + 1 < src.length then
        let prev ← byteAt src (delim - 1)
        let next ← byteAt src (delim + 1)
        if prev.toNat = '{'.toNat ∧ next.toNat = '*'.toNat then commentLoop src f (nested + 1) (delim + 1)
        else if 0 < nested ∧ prev.toNat = '*'.toNat ∧ next.toNat = '}'.toNat then
          commentLoop src f (nested - 1) (delim + 1)
        else if prev.toNat = '*'.toNat ∧ next.toNat = '}'.toNat then .ok (some (delim + 2))
        else commentLoop src f nested (delim + 1)
      else commentLoop src f nested (delim + 1)

/-- `curr_pos < len_src && bytes[curr_pos] == BIF_COMMENT_B` (src/utils.rs:183). -/
def isStar (src : Bytes) (i : Nat) : M Bool :=
  if i < src.length then do
    let x ← byteAt src i
    pure (decide (x.toNat = '*'.toNat))
  else pure false

/-- The two branches of src/utils.rs:183-237. -/
def blockLoop (src : Bytes) (startBody : Nat) : M (Option Nat) := do
  let star ← isStar src startBody
  if star then commentLoop src (src.length + 1) 0 startBody else bifLoop src (src.length + 1) 0 startBody

/-- `while let Some(pos) = raw_source[curr_pos..].find(BIF_OPEN)` (src/utils.rs:178-238). -/
def blocksLoop (src : Bytes) : Nat → Nat → M (List (Nat × Nat))
  | 0, _ => .error .fuel
  | f + 1, curr => do
    match findB (utf8 c!"{:") (← sliceFrom src curr) with
    | none => .ok []
    | some rel =>
      let openPos := curr + rel
      let startBody := openPos + 2
      let r ← blockLoop src startBody
      match r with
      | some e => do
        let l ← blocksLoop src f e
        pure ((openPos, e) :: l)
      | none => blocksLoop src f startBody

/-- `for (start, end) in &blocks` and the check of the rest (src/utils.rs:240-250). -/
def gapsLoop (src : Bytes) (prevEnd : Nat) : List (Nat × Nat) → M (Option Nat)
  | [] => do
    let x ← sliceFrom src prevEnd
    .ok ((findB (utf8 c!":}") x).map (fun p => prevEnd + p))
  | (s, e) :: r => do
    let x ← sliceB src prevEnd s
    match findB (utf8 c!":}") x with
    | some p => .ok (some (prevEnd + p))
    | none => gapsLoop src e r

/-- `extract_blocks` (src/utils.rs:172-253). -/
def extractBlocks (src : Bytes) : M (Except Nat (List (Nat × Nat))) := do
  let blocks ← blocksLoop src (src.length + 1) 0
  match ← gapsLoop src 0 blocks with
  | some p => .ok (.error p)
  | none => .ok (.ok blocks)

/-! ### remove_comments -/

/-- `bytes[curr_pos - 1] == BIF_OPEN0 && bytes[curr_pos + 1] == BIF_COMMENT_B` (src/utils.rs:521). -/
def opensAt (src : Bytes) (cur : Nat) : M Bool := do
  let prev ← byteAt src (cur - 1)
  if prev.toNat = '{'.toNat then do
    let n ← byteAt src (cur + 1)
    pure (decide (n.toNat = '*'.toNat))
  else pure false

/-- `bytes[curr_pos + 1] == BIF_CLOSE1 && bytes[curr_pos - 1] == BIF_COMMENT_B` (src/utils.rs:527-528, 534). -/
def closesAt (src : Bytes) (cur : Nat) : M Bool := do
  let n ← byteAt src (cur + 1)
  if n.toNat = '}'.toNat then do
    let p ← byteAt src (cur - 1)
    pure (decide (p.toNat = '*'.toNat))
  else pure false

/-- `nested_comment > 0 && …` (src/utils.rs:526-528). -/
def innerAt (src : Bytes) (nested cur : Nat) : M Bool := if 0 < nested then closesAt src cur else pure false

/-- `while let Some(delim_pos_rel) = raw_source[curr_pos..].find(BIF_DELIM)` (src/utils.rs:514-541): the final
`nested_comment` and `curr_pos`, and whether the comment was closed.  The operands of `&&` are evaluated in order. -/
def rcLoop (src : Bytes) : Nat → Nat → Nat → M (Nat × Nat × Bool)
  | 0, _, _ => .error .fuel
  | f + 1, nested, cur => do
    match findB (utf8 c!":") (← sliceFrom src cur) with
    | none => .ok (nested, cur, false)
    | some rel =>
      let cur := cur + rel
      if src.length ≤ cur then .ok (nested, cur, false)
      else
        let opens ← opensAt src cur
        if opens then rcLoop src f (nested + 1) (cur + 1)
        else
          let inner ← innerAt src nested cur
          if inner then rcLoop src f (nested - 1) (cur + 1)
          else
            let closes ← closesAt src cur
            if closes then .ok (nested, cur + 2, true) else rcLoop src f nested (cur + 1)

/-- `while let Some(rel_pos) = raw_source[curr_pos..].find(BIF_COMMENT_OPEN)` (src/utils.rs:509-542): the comments and
the final `curr_pos`. -/
def rcsLoop (src : Bytes) : Nat → Nat → Nat → M (List (Nat × Nat) × Nat)
  | 0, _, _ => .error .fuel
  | f + 1, nested, cur => do
    match findB (utf8 c!"{:*") (← sliceFrom src cur) with
    | none => .ok ([], cur)
    | some rel =>
      let openPos := cur + rel
      let r ← rcLoop src (src.length + 1) nested (openPos + 3)
      if r.2.2 then do
        let l ← rcsLoop src f r.1 r.2.1
        pure ((openPos, r.2.1) :: l.1, l.2)
      else rcsLoop src f r.1 r.2.1

/-- `for (start, end) in &blocks { result.push_str(&raw_source[prev_end..*start]); … }` (src/utils.rs:544-548). -/
def keptLoop (src : Bytes) (prevEnd : Nat) : List (Nat × Nat) → M Bytes
  | [] => .ok []
  | (s, e) :: r => do
    let x ← sliceB src prevEnd s
    let y ← keptLoop src e r
    pure (x ++ y)

/-- `remove_comments` (src/utils.rs:498-552). -/
def removeComments (src : Bytes) : M Bytes := do
  let r ← rcsLoop src (src.length + 1) 0 0
  let x ← keptLoop src 0 r.1
  let y ← sliceFrom src r.2
  pure (x ++ y)

/-! ### get_code_position -/

/-- `while i + 1 < len` (src/utils.rs:474-492). -/
def codeLoop (src : Bytes) : Nat → Int → Nat → M (Option Nat)
  | 0, _, _ => .error .fuel
  | f + 1, level, i => do
    if i + 1 < src.length then
      let b0 ← byteAt src i
      let b1 ← byteAt src (i + 1)
      if b0.toNat = '{'.toNat ∧ b1.toNat = ':'.toNat then codeLoop src f (level + 1) (i + 2)
      else if b0.toNat = ':'.toNat ∧ b1.toNat = '}'.toNat then codeLoop src f (level - 1) (i + 2)
      else if b0.toNat = '>'.toNat ∧ b1.toNat = '>'.toNat then
        if level = 0 then .ok (some i) else codeLoop src f level (i + 2)
      else codeLoop src f level (i + 1)
    else .ok none

/-- `get_code_position` (src/utils.rs:464-495). -/
def getCodePosition (src : Bytes) : M (Option Nat) :=
  if (findB (utf8 c!">>") src).isNone then .ok none else codeLoop src (src.length + 1) 0 0

/-- The split of `extract_params_code` (src/bif/mod.rs:367-376) before trimming: parameters and code. -/
def splitCode (src : Bytes) : M (Option Bytes × Bytes) := do
  match ← getCodePosition src with
  | some p => do
    let a ← sliceB src 0 p
    let b ← sliceFrom src (p + 2)
    pure (some a, b)
  | none => pure (none, src)

/-! ### set_modifiers -/

/-- `while index < self.name.len()` (src/bif/mod.rs:252-270): the modifiers and the final index. -/
def modLoop (name : Bytes) : Nat → BifS → Nat → M (BifS × Nat)
  | 0, _, _ => .error .fuel
  | f + 1, b, index => do
    if index < name.length then
      let start ← sliceB name index (index + 1)
      if start = utf8 c!"&" then modLoop name f { b with modFilter := true } (index + 1)
      else if start = utf8 c!"!" then modLoop name f { b with modNegate := true } (index + 1)
      else if start = utf8 c!"^" then modLoop name f { b with modUpline := true } (index + 1)
      else if start = utf8 c!"+" then modLoop name f { b with modScope := true } (index + 1)
      else .ok (b, index)
    else .ok (b, index)

/-- `set_modifiers` (src/bif/mod.rs:250-273). -/
def setModifiers (b : BifS) (name : Bytes) : M (BifS × Bytes) := do
  let r ← modLoop name (name.length + 1) b 0
  let x ← sliceFrom name r.2
  pure (r.1, x)

/-! ### resolve_pointer -/

/-- `map.get(part)`. -/
def lookupB (part : Bytes) : List (Str × Value) → Option Value
  | [] => none
  | (k, v) :: r => if utf8 k = part then some v else lookupB part r

/-- `part.parse::<usize>()` on the digits. -/
def digitsB : Nat → Bytes → Option Nat
  | acc, [] => some acc
  | acc, x :: xs => if 48 ≤ x.toNat ∧ x.toNat ≤ 57 then digitsB (acc * 10 + (x.toNat - 48)) xs else none

/-- `part.parse::<usize>()`: an optional `+`, one or more digits, below 2^64. -/
def parseUsizeB (p : Bytes) : Option Nat :=
  let body := match p with
    | x :: xs => if x.toNat = '+'.toNat then xs else x :: xs
    | [] => []
  if body.isEmpty then none
  else match digitsB 0 body with
    | some n => if n < 2 ^ 64 then some n else none
    | none => none

/-- One segment (src/utils.rs:416-423, 439-446). -/
def stepB (cur : Value) (part : Bytes) : Option Value :=
  match cur with
  | .obj o => lookupB part o
  | .arr a => (parseUsizeB part).bind (fun i => a[i]?)
  | _ => none

/-- `while i < len` (src/utils.rs:408-435), then the last segment (src/utils.rs:437-447). -/
def pointerLoop (key : Bytes) : Nat → Value → Nat → Nat → M (Option Value)
  | 0, _, _, _ => .error .fuel
  | f + 1, cur, start, i => do
    if i < key.length then
      let c ← byteAt key i
      let isSlash := decide (c.toNat = '/'.toNat)
      let isArrow := !isSlash && decide (i + 2 ≤ key.length) && decide ((key.drop i).take 2 = utf8 c!"->")
      if isSlash || isArrow then
        let part ← sliceB key start i
        let next : Option Value := if part.isEmpty then some cur else stepB cur part
        match next with
        | none => .ok none
        | some v => if isSlash then pointerLoop key f v (i + 1) (i + 1) else pointerLoop key f v (i + 2) (i + 2)
      else pointerLoop key f cur start (i + 1)
    else if start < key.length then
      let part ← sliceFrom key start
      .ok (stepB cur part)
    else .ok (some cur)

/-- `resolve_pointer` (src/utils.rs:394-450). -/
def resolvePointer (schema : Value) (key : Bytes) : M (Option Value) :=
  if (findB (utf8 c!"->") key).isNone && (findB (utf8 c!"/") key).isNone then
    .ok (match schema with
      | .obj o => lookupB key o
      | _ => none)
  else pointerLoop key (key.length + 1) schema 0 0

/-! ### find_tag_position -/

/-- `find_tag_position` (src/utils.rs:622-634). -/
def findTagPosition (text tag : Bytes) : M (Option Nat) :=
  match findB tag text with
  | none => .ok none
  | some p =>
    if !decide (utf8 c!"</" <+: tag) then do
      match findB (utf8 c!">") (← sliceFrom text p) with
      | some q => .ok (some (p + q + 1))
      | none => .ok none
    else .ok (some p)

/-- `String::insert_str`: a panic when the position is not a character boundary. -/
def insertStr (s : Bytes) (i : Nat) (t : Bytes) : M Bytes :=
  if isBoundary s i then .ok (s.take i ++ t ++ s.drop i) else .error .panic

/-- The tag searched by `set_moveto` (src/template.rs:523-530): `tag[..tag.len() - 1]` is a byte slice. -/
def movetoTag (key : Bytes) : M Bytes := do
  let tag := if !decide (utf8 c!"<" <+: key) then utf8 c!"<" ++ key else key
  if utf8 c!">" <:+ tag then sliceB tag 0 (tag.length - 1) else pure tag

/-- One insertion of `set_moveto` (src/template.rs:518-539). -/
def movetoInsert (out key text : Bytes) : M Bytes := do
  let tag ← movetoTag key
  match ← findTagPosition out tag with
  | some p => insertStr out p text
  | none => pure out

/-! ### extract_http_body -/

/-- `extract_http_body` (src/bif/exec_php.rs:443-451). -/
def extractHttpBody (stdout : Bytes) : M Bytes :=
  match findB (utf8 c!"\r\n\r\n") stdout with
  | some p => sliceFrom stdout (p + 4)
  | none => match findB (utf8 c!"\n\n") stdout with
    | some p => sliceFrom stdout (p + 2)
    | none => .ok stdout

end Nts.B
