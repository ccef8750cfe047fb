import Verif.Model.Utils
/-
How many calls `wildcard_match` makes (src/utils.rs:566-608): the same recursion as `matchRec` in Model/Utils.lean, with the calls
of `match_recursive` counted.  `&&` and `||` evaluate their second operand only if it is needed.
-/
set_option autoImplicit false
namespace Nts

/-- The branch of `*` (src/utils.rs:592-595): the rest of the pattern is tried on the text and on every suffix of it, until one
matches; each try is a call for `*` and the calls for the rest. -/
def starCost (rest : Str → Bool × Nat) : Str → Bool × Nat
  | [] =>
    let r := rest []
    (r.1, r.2 + 1)
  | c :: cs =>
    let r := rest (c :: cs)
    if r.1 then (true, r.2 + 1)
    else
      let s := starCost rest cs
      (s.1, r.2 + s.2 + 1)

/-- `match_recursive` (src/utils.rs:570-605): the result and the number of calls, this one included. -/
def matchCost : Str → Str → Bool × Nat
  | [], t => (t.isEmpty, 1)
  | p :: rest, t =>
    if p = '\\' then
      match rest, t with
      | [], _ => (false, 1)
      | _, [] => (false, 1)
      | e :: rest', c :: cs =>
        let r := matchCost rest' cs
        (r.1 && decide (c = e), r.2 + 1)
    else if p = '.' then
      let r := matchCost rest t
      if r.1 then (true, r.2 + 1)
      else match t with
        | [] => (false, r.2 + 1)
        | _ :: cs =>
          let s := matchCost rest cs
          (s.1, r.2 + s.2 + 1)
    else if p = '?' then
      match t with
      | [] => (false, 1)
      | _ :: cs =>
        let r := matchCost rest cs
        (r.1, r.2 + 1)
    else if p = '*' then starCost (matchCost rest) t
    else if p = '~' then (t.isEmpty, 1)
    else
      match t with
      | [] => (false, 1)
      | c :: cs =>
        if p ≠ c then (false, 1)
        else
          let r := matchCost rest cs
          (r.1, r.2 + 1)

end Nts
