import Verif.Model.Bytes
/-
How many bytes the scanners of /repo/src/utils.rs look at: the loops of Model/Bytes.lean with their work counted.  Looking for a text
(`str::find`) looks at every position up to where it is found, or at all of them; reading a byte is one more.  Props/ScanCost.lean proves
that the loops give the same results as those of Model/Bytes.lean.
-/
set_option autoImplicit false
namespace Nts.B

/-- The positions `str::find` looks at: those up to the one where the text is found, or all and the end. -/
def findCost (p b : Bytes) : Nat :=
  match findB p b with
  | some i => i + 1
  | none => b.length + 1

/-- More work. -/
def add {α : Type} (c : Nat) (r : Nat × α) : Nat × α := (c + r.1, r.2)

/-- `while let Some(delim_pos_rel) = raw_source[search_pos..].find(':')` for a BIF (src/utils.rs:211-236), with its work: in each round the
search and two bytes. -/
def bifLoopT (src : Bytes) : Nat → Nat → Nat → Nat × M (Option Nat)
  | 0, _, _ => (0, .error .fuel)
  | f + 1, nested, searchPos =>
    match sliceFrom src searchPos with
    | .error e => (0, .error e)
    | .ok rest =>
      match findB (utf8 c!":") rest with
      | none => (findCost (utf8 c!":") rest, .ok none)
      | some rel =>
        let delim := searchPos + rel
        let c := findCost (utf8 c!":") rest + 2
        if 0 < delim ∧ delim + 1 < src.length then
          match byteAt src (delim - 1), byteAt src (delim + 1) with
          | .ok prev, .ok next =>
            if prev.toNat = '{'.toNat then add c (bifLoopT src f (nested + 1) (delim + 1))
            else if 0 < nested ∧ next.toNat = '}'.toNat then add c (bifLoopT src f (nested - 1) (delim + 1))
            else if next.toNat = '}'.toNat then (c, .ok (some (delim + 2)))
            else add c (bifLoopT src f nested (delim + 1))
          | .error e, _ => (c, .error e)
          | _, .error e => (c, .error e)
        else add c (bifLoopT src f nested (delim + 1))

/-- The same loop for a comment (src/utils.rs:184-209), with its work. -/
def commentLoopT (src : Bytes) : Nat → Nat → Nat → Nat × M (Option Nat)
  | 0, _, _ => (0, .error .fuel)
  | f + 1, nested, searchPos =>
    match sliceFrom src searchPos with
    | .error e => (0, .error e)
    | .ok rest =>
      match findB (utf8 c!":") rest with
      | none => (findCost (utf8 c!":") rest, .ok none)
      | some rel =>
        let delim := searchPos + rel
        let c := findCost (utf8 c!":") rest + 2
        if 0 < delim ∧ delim + 1 < src.length then
          match byteAt src (delim - 1), byteAt src (delim + 1) with
          | .ok prev, .ok next =>
            if prev.toNat = '{'.toNat ∧ next.toNat = '*'.toNat then add c (commentLoopT src f (nested + 1) (delim + 1))
            else if 0 < nested ∧ prev.toNat = '*'.toNat ∧ next.toNat = '}'.toNat then
              add c (commentLoopT src f (nested - 1) (delim + 1))
            else if prev.toNat = '*'.toNat ∧ next.toNat = '}'.toNat then (c, .ok (some (delim + 2)))
            else add c (commentLoopT src f nested (delim + 1))
          | .error e, _ => (c, .error e)
          | _, .error e => (c, .error e)
        else add c (commentLoopT src f nested (delim + 1))

/-- The two branches of src/utils.rs:183-237, with their work. -/
def blockLoopT (src : Bytes) (startBody : Nat) : Nat × M (Option Nat) :=
  match isStar src startBody with
  | .error e => (1, .error e)
  | .ok star =>
    add 1 (if star then commentLoopT src (src.length + 1) 0 startBody else bifLoopT src (src.length + 1) 0 startBody)

/-- `while let Some(pos) = raw_source[curr_pos..].find(BIF_OPEN)` (src/utils.rs:178-238), with its work and how many `{:` are not closed. -/
def blocksLoopT (src : Bytes) : Nat → Nat → Nat × Nat × M (List (Nat × Nat))
  | 0, _ => (0, 0, .error .fuel)
  | f + 1, curr =>
    match sliceFrom src curr with
    | .error e => (0, 0, .error e)
    | .ok rest =>
      match findB (utf8 c!"{:") rest with
      | none => (findCost (utf8 c!"{:") rest, 0, .ok [])
      | some rel =>
        let openPos := curr + rel
        let startBody := openPos + 2
        let r := blockLoopT src startBody
        match r.2 with
        | .error e => (findCost (utf8 c!"{:") rest + r.1, 0, .error e)
        | .ok (some e) =>
          let l := blocksLoopT src f e
          (findCost (utf8 c!"{:") rest + r.1 + l.1, l.2.1, (do pure ((openPos, e) :: (← l.2.2))))
        | .ok none =>
          let l := blocksLoopT src f startBody
          (findCost (utf8 c!"{:") rest + r.1 + l.1, l.2.1 + 1, l.2.2)

/-- `for (start, end) in &blocks` and the check of the rest (src/utils.rs:240-250), with its work. -/
def gapsLoopT (src : Bytes) (prevEnd : Nat) : List (Nat × Nat) → Nat × M (Option Nat)
  | [] =>
    match sliceFrom src prevEnd with
    | .error e => (0, .error e)
    | .ok x => (findCost (utf8 c!":}") x, .ok ((findB (utf8 c!":}") x).map (fun p => prevEnd + p)))
  | (s, e) :: r =>
    match sliceB src prevEnd s with
    | .error e => (0, .error e)
    | .ok x =>
      match findB (utf8 c!":}") x with
      | some p => (findCost (utf8 c!":}") x, .ok (some (prevEnd + p)))
      | none => add (findCost (utf8 c!":}") x) (gapsLoopT src e r)

/-- `extract_blocks` (src/utils.rs:172-253), with its work and how many `{:` are not closed. -/
def extractBlocksT (src : Bytes) : Nat × Nat × M (Except Nat (List (Nat × Nat))) :=
  let b := blocksLoopT src (src.length + 1) 0
  match b.2.2 with
  | .error e => (b.1, b.2.1, .error e)
  | .ok blocks =>
    let g := gapsLoopT src 0 blocks
    (b.1 + g.1, b.2.1, (do
      match ← g.2 with
      | some p => .ok (.error p)
      | none => .ok (.ok blocks)))

/-! ### remove_comments -/

/-- `while let Some(delim_pos_rel) = raw_source[curr_pos..].find(BIF_DELIM)` (src/utils.rs:514-541), with its work: in each round the search
and at most six bytes. -/
def rcLoopT (src : Bytes) : Nat → Nat → Nat → Nat × M (Nat × Nat × Bool)
  | 0, _, _ => (0, .error .fuel)
  | f + 1, nested, cur =>
    match sliceFrom src cur with
    | .error e => (0, .error e)
    | .ok rest =>
      match findB (utf8 c!":") rest with
      | none => (findCost (utf8 c!":") rest, .ok (nested, cur, false))
      | some rel =>
        let c := findCost (utf8 c!":") rest + 6
        let cur := cur + rel
        if src.length ≤ cur then (c, .ok (nested, cur, false))
        else
          match opensAt src cur with
          | .error e => (c, .error e)
          | .ok opens =>
            if opens then add c (rcLoopT src f (nested + 1) (cur + 1))
            else
              match innerAt src nested cur with
              | .error e => (c, .error e)
              | .ok inner =>
                if inner then add c (rcLoopT src f (nested - 1) (cur + 1))
                else
                  match closesAt src cur with
                  | .error e => (c, .error e)
                  | .ok closes => if closes then (c, .ok (nested, cur + 2, true)) else add c (rcLoopT src f nested (cur + 1))

/-- `while let Some(rel_pos) = raw_source[curr_pos..].find(BIF_COMMENT_OPEN)` (src/utils.rs:509-542), with its work. -/
def rcsLoopT (src : Bytes) : Nat → Nat → Nat → Nat × M (List (Nat × Nat) × Nat)
  | 0, _, _ => (0, .error .fuel)
  | f + 1, nested, cur =>
    match sliceFrom src cur with
    | .error e => (0, .error e)
    | .ok rest =>
      match findB (utf8 c!"{:*") rest with
      | none => (findCost (utf8 c!"{:*") rest, .ok ([], cur))
      | some rel =>
        let c := findCost (utf8 c!"{:*") rest
        let openPos := cur + rel
        let r := rcLoopT src (src.length + 1) nested (openPos + 3)
        match r.2 with
        | .error e => (c + r.1, .error e)
        | .ok x =>
          let l := rcsLoopT src f x.1 x.2.1
          (c + r.1 + l.1, (if x.2.2 then do
            let y ← l.2
            pure ((openPos, x.2.1) :: y.1, y.2)
          else l.2))

/-- `remove_comments` (src/utils.rs:498-552), with the work of its searches; copying the kept text (src/utils.rs:544-550) is not counted. -/
def removeCommentsT (src : Bytes) : Nat × M Bytes :=
  let r := rcsLoopT src (src.length + 1) 0 0
  (r.1, (do
    let l ← r.2
    let x ← keptLoop src 0 l.1
    let y ← sliceFrom src l.2
    pure (x ++ y)))

/-! ### get_code_position -/

/-- `while i + 1 < len` (src/utils.rs:474-492), with its work: two bytes in each round. -/
def codeLoopT (src : Bytes) : Nat → Int → Nat → Nat × M (Option Nat)
  | 0, _, _ => (0, .error .fuel)
  | f + 1, level, i =>
    if i + 1 < src.length then
      match byteAt src i, byteAt src (i + 1) with
      | .ok b0, .ok b1 =>
        if b0.toNat = '{'.toNat ∧ b1.toNat = ':'.toNat then add 2 (codeLoopT src f (level + 1) (i + 2))
        else if b0.toNat = ':'.toNat ∧ b1.toNat = '}'.toNat then add 2 (codeLoopT src f (level - 1) (i + 2))
        else if b0.toNat = '>'.toNat ∧ b1.toNat = '>'.toNat then
          if level = 0 then (2, .ok (some i)) else add 2 (codeLoopT src f level (i + 2))
        else add 2 (codeLoopT src f level (i + 1))
      | .error e, _ => (2, .error e)
      | _, .error e => (2, .error e)
    else (0, .ok none)

/-- `get_code_position` (src/utils.rs:464-495), with its work. -/
def getCodePositionT (src : Bytes) : Nat × M (Option Nat) :=
  if (findB (utf8 c!">>") src).isNone then (findCost (utf8 c!">>") src, .ok none)
  else add (findCost (utf8 c!">>") src) (codeLoopT src (src.length + 1) 0 0)

end Nts.B
