import Verif.Spec.Bif
import Verif.Model.Interp
/-
What the evaluation of a BIF does with the texts inside it, said without reference to the bodies of the BIFs.
-/
set_option autoImplicit false
namespace Nts.Spec

/-- Evaluate `text` as a block nested in the BIF `name` (a text without `{:` stands for itself).  `scope` tells whether
what the block defines stays visible afterwards. -/
def nested (R : Rec) (scope : Bool) (sh : Shared) (inh : Inherit) (name text only : Str) : PRes :=
  if contains c!"{:" text then
    match runChild ⟨sh, inh, { BifS.new with alias := name }, [], only⟩ scope
        (fun sh' inh' => parseSrc R sh' inh' text only) with
    | .ok x s => .ok x s.sh s.inh
    | .panic p => .panic p
    | .oof => .oof
  else .ok text sh inh

/-- Evaluate the parameters of a BIF: the flags are collected anew. -/
def evalParams (R : Rec) (sh : Shared) (inh : Inherit) (name text only : Str) : PRes :=
  nested R false (if contains c!"{:" text then { sh with flags := [] } else sh) inh name text only

/-- The flags given by the parameters. -/
def flagsOf (sh : Shared) (text : Str) : Str := if contains c!"{:" text then sh.flags else []

/-- `ArgsGive R name only l sh inh l' sh' inh'`: evaluating the arguments `l` one after the other gives `l'`. -/
inductive ArgsGive (R : Rec) (name only : Str) :
    List Str → Shared → Inherit → List Str → Shared → Inherit → Prop
  | nil (sh : Shared) (inh : Inherit) : ArgsGive R name only [] sh inh [] sh inh
  | cons {a x : Str} {l l' : List Str} {sh sh1 sh2 : Shared} {inh inh1 inh2 : Inherit} :
      nested R false sh inh name a only = .ok x sh1 inh1 → ArgsGive R name only l sh1 inh1 l' sh2 inh2 →
      ArgsGive R name only (a :: l) sh inh (x :: l') sh2 inh2

/-- The shared state when the body of a BIF starts: it has been counted. -/
def counted (sh : Shared) : Shared := { sh with count := sh.count + 1 }
/-- The inherited state when the body of a BIF starts. -/
def entered (sh : Shared) (inh : Inherit) : Inherit := { inh with bifCount := sh.count + 1, inOnly := true }

/-- A BIF that ends with the text `x`: it is trimmed (after the upline mark, if requested), and whether it is empty is
remembered for `else` and `coalesce`. -/
def finish (up : Bool) (x : Str) (sh : Shared) (inh : Inherit) : PRes :=
  .ok (trim (if up then c!"&#9224" ++ x else x)) sh
    { inh with lastBifOut := !x.isEmpty, lastCoalesceOut := !x.isEmpty }

/-- A BIF that shows its code `c`, evaluated as a nested block. -/
def shown (R : Rec) (mods name c only : Str) (sh : Shared) (inh : Inherit) : PRes :=
  match nested R (decide ('+' ∈ mods)) sh inh name c only with
  | .ok x sh' inh' => finish (decide ('^' ∈ mods)) x sh' inh'
  | .panic p => .panic p
  | .oof => .oof

/-- A BIF that shows nothing and evaluates nothing (more). -/
def hidden (mods : Str) (sh : Shared) (inh : Inherit) : PRes := finish (decide ('^' ∈ mods)) [] sh inh

/-- A BIF that fails with a message: no output, and one more entry in the list of errors. -/
def failed (env : Env) (mods name raw msg : Str) (sh : Shared) (inh : Inherit) : PRes :=
  match showErrors sh with
  | none => .panic .unwrap
  | some _ => finish (decide ('^' ∈ mods)) []
      (pushError { sh with w := { sh.w with tick := sh.w.tick + 1 } }
        (errorLine (env.localTime sh.w.tick) { msg := msg, name := name, file := inh.currentFile, src := raw })) inh

end Nts.Spec
