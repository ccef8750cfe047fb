import Verif.Spec.Page
/-
Pages that end early: with `exit` or with `redirect`.
-/
set_option autoImplicit false
namespace Nts.Spec

/-- How a page ends early. -/
inductive Ending
  /-- `{:exit; l :}` or `{:exit; p >> l :}` -/
  | exit (p : Option Str) (l : List Node)
  /-- `{:redirect; l :}` or `{:redirect; p >> l :}` -/
  | redirect (p : Option Str) (l : List Node)

def Ending.name : Ending → Str
  | .exit _ _ => c!"exit"
  | .redirect _ _ => c!"redirect"

def Ending.param : Ending → Option Str
  | .exit p _ => p
  | .redirect p _ => p

def Ending.body : Ending → List Node
  | .exit _ l => l
  | .redirect _ l => l

/-- How it is written. -/
def Ending.print (x : Ending) : Str :=
  bifText [] x.name (match x.param with
    | none => c!" " ++ printAll x.body ++ c!" "
    | some p => c!" " ++ p ++ c!" >> " ++ printAll x.body ++ c!" ")

/-- What is inside is as required. -/
def Ending.Ok (S : Site) (x : Ending) : Prop := (∀ p, x.param = some p → NameOk p) ∧ AllOk S x.name x.body

/-- What the inside means, at this point of the page: its text, and the data after it. -/
def Ending.inside (S : Site) (x : Ending) (m : Mem) : Str × Mem := blockOf false (meansAll S x.name x.body) { m with bifs := m.bifs + 1 }

/-- The answer: status, parameter, and the page of a JavaScript redirection. -/
structure Answer where
  status : Str
  param : Str
  page : Option Str

/-- What a page that prints `text` answers: with the status 400 to 599 a line with the status, with the status of a redirection such a
line and the target, and otherwise the page of the JavaScript redirection or the text. -/
def Answer.says (a : Answer) (code : Nat) (text : Str) : Str :=
  if 400 ≤ code ∧ code ≤ 599 then a.status ++ c!" " ++ statusTextOf a.status
  else if code ∈ [301, 302, 303, 307, 308] then a.status ++ c!" " ++ statusTextOf a.status ++ c!"\n" ++ a.param
  else a.page.getD text

/-- The text of a page that prints `a` until it ends and of which `rest` is what follows: when there is a BIF in the rest, `a`;
otherwise the rest is printed, too. -/
def textUntil (a rest : Str) : Str := if c!"{:" <:+: rest then a else trim (a ++ rest)

end Nts.Spec
