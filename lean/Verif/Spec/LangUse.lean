import Verif.Spec.Lang
import Verif.Spec.Html
/-
What templates of the language (Spec/Lang.lean) have in them: texts, loop variables, names; and what outputs are made of.
-/
set_option autoImplicit false
namespace Nts.Spec

mutual
/-- The texts of a template that can be printed (those of the arguments of a comparison are not, nor those of
the test of an `eval` that does not share its definitions, nor those of a hash). -/
def Node.texts : Node → List Str
  | .text t => [t]
  | .var _ _ => []
  | .cond _ _ _ _ body => textsAll body
  | .cmp _ _ _ _ _ body => textsAll body
  | .els _ _ body => textsAll body
  | .coalesce _ body => textsAll body
  | .code _ body => textsAll body
  | .each _ _ _ _ body => textsAll body
  | .range _ _ _ _ body => textsAll body
  | .param _ => []
  | .setParam _ body => textsAll body
  | .trans _ body => textsAll body
  | .incl _ body => textsAll body
  | .snippet _ _ body => textsAll body
  | .leaf k => match k with
    | .mark => [c!"&#0;"]
    | .up => [c!"&#9224&#0;"]
    | .load _ _ _ => [c!"&#0;"]
    | _ => []
  | .replace _ _ body => textsAll body
  | .allow _ _ body => textsAll body
  | .eval _ plus test body => (if plus then textsAll test else []) ++ textsAll body
  | .hash _ => []
/-- Of all. -/
def textsAll : List Node → List Str
  | [] => []
  | x :: l => Node.texts x ++ textsAll l
end

mutual
/-- Every variable that can be printed is filtered (and nothing is joined, or replaced in the output, nor are translations read
from files; hashes have no special characters). -/
def Node.Filters (S : Site) : Node → Prop
  | .text _ => True
  | .var amp _ => amp = true ∨ S.filterAll = true
  | .cond _ _ _ _ body => AllFilter S body
  | .cmp _ _ _ _ _ body => AllFilter S body
  | .els _ _ body => AllFilter S body
  | .coalesce _ body => AllFilter S body
  | .code _ body => AllFilter S body
  | .each _ _ _ _ body => AllFilter S body
  | .range _ _ _ _ body => AllFilter S body
  | .param _ => True
  | .setParam _ body => AllFilter S body
  | .trans _ body => AllFilter S body
  | .incl _ body => AllFilter S body
  | .snippet _ _ body => AllFilter S body
  | .leaf k => match k with
    | .lang => Clean true S.lang
    | .mark => True
    | .up => True
    | .join _ _ _ => False
    | .load locale _ _ => locale = false
  | .replace _ _ _ => False
  | .allow _ _ body => AllFilter S body
  | .eval _ plus test body => (plus = true → AllFilter S test) ∧ AllFilter S body
  | .hash _ => ∀ t, Clean true (S.md5 t)
/-- In all. -/
def AllFilter (S : Site) : List Node → Prop
  | [] => True
  | x :: l => Node.Filters S x ∧ AllFilter S l
end

mutual
/-- The variables set by the loops and the `eval`s of a template. -/
def Node.binds : Node → List Str
  | .text _ => []
  | .var _ _ => []
  | .cond _ _ _ _ body => bindsAll body
  | .cmp _ _ _ a b body => bindsAll a ++ (bindsAll b ++ bindsAll body)
  | .els _ _ body => bindsAll body
  | .coalesce _ body => bindsAll body
  | .code _ body => bindsAll body
  | .each _ _ key val body => key :: val :: bindsAll body
  | .range _ v _ _ body => v :: bindsAll body
  | .param _ => []
  | .setParam _ body => bindsAll body
  | .trans _ body => bindsAll body
  | .incl _ body => bindsAll body
  | .snippet _ _ body => bindsAll body
  | .leaf _ => []
  | .replace a b body => bindsAll a ++ (bindsAll b ++ bindsAll body)
  | .allow _ _ body => bindsAll body
  | .eval _ _ test body => c!"__eval__" :: (bindsAll test ++ bindsAll body)
  | .hash body => bindsAll body
/-- Of all. -/
def bindsAll : List Node → List Str
  | [] => []
  | x :: l => Node.binds x ++ bindsAll l
end

mutual
/-- The variables that are given back as texts: those of the loops over numbers and of `eval`. -/
def Node.counters : Node → List Str
  | .text _ => []
  | .var _ _ => []
  | .cond _ _ _ _ body => countersAll body
  | .cmp _ _ _ a b body => countersAll a ++ (countersAll b ++ countersAll body)
  | .els _ _ body => countersAll body
  | .coalesce _ body => countersAll body
  | .code _ body => countersAll body
  | .each _ _ _ _ body => countersAll body
  | .range _ v _ _ body => v :: countersAll body
  | .param _ => []
  | .setParam _ body => countersAll body
  | .trans _ body => countersAll body
  | .incl _ body => countersAll body
  | .snippet _ _ body => countersAll body
  | .leaf _ => []
  | .replace a b body => countersAll a ++ (countersAll b ++ countersAll body)
  | .allow _ _ body => countersAll body
  | .eval _ _ test body => c!"__eval__" :: (countersAll test ++ countersAll body)
  | .hash body => countersAll body
/-- Of all. -/
def countersAll : List Node → List Str
  | [] => []
  | x :: l => Node.counters x ++ countersAll l
end

mutual
/-- The names of the variables of a template. -/
def Node.names : Node → List Str
  | .text _ => []
  | .var _ name => [name]
  | .cond _ _ _ name body => name :: namesAll body
  | .cmp _ _ _ a b body => namesAll a ++ (namesAll b ++ namesAll body)
  | .els _ _ body => namesAll body
  | .coalesce _ body => namesAll body
  | .code _ body => namesAll body
  | .each _ coll _ _ body => coll :: namesAll body
  | .range _ _ _ _ body => namesAll body
  | .param _ => []
  | .setParam _ body => namesAll body
  | .trans _ body => namesAll body
  | .incl _ body => namesAll body
  | .snippet _ _ body => namesAll body
  | .leaf k => match k with
    | .join _ name _ => [name]
    | _ => []
  | .replace a b body => namesAll a ++ (namesAll b ++ namesAll body)
  | .allow _ _ body => namesAll body
  | .eval _ _ test body => namesAll test ++ namesAll body
  | .hash body => namesAll body
/-- Of all. -/
def namesAll : List Node → List Str
  | [] => []
  | x :: l => Node.names x ++ namesAll l
end

/-- The first key of a name: up to the first separator (`->` or `/`). -/
def firstKey : Str → Str
  | [] => []
  | c :: r => if c = '/' ∨ c!"->" <+: c :: r then [] else c :: firstKey r

/-- The entry of the data a name is looked up in (none for local data). -/
def reads (name : Str) : List Str := if c!"local::" <+: name then [] else [firstKey name]

mutual
/-- The entries of the data a template reads, other than those that a loop or an `eval` around sets. -/
def Node.free : Node → List Str
  | .text _ => []
  | .var _ name => reads name
  | .cond _ _ _ name body => reads name ++ freeAll body
  | .cmp _ _ _ a b body => freeAll a ++ (freeAll b ++ freeAll body)
  | .els _ _ body => freeAll body
  | .coalesce _ body => freeAll body
  | .code _ body => freeAll body
  | .each _ coll key val body => reads coll ++ (freeAll body).filter (fun k => decide (k ≠ key ∧ k ≠ val))
  | .range _ v _ _ body => (freeAll body).filter (fun k => decide (k ≠ v))
  | .param _ => []
  | .setParam _ body => freeAll body
  | .trans _ body => freeAll body
  | .incl _ body => freeAll body
  | .snippet _ _ body => freeAll body
  | .leaf k => match k with
    | .join _ name _ => reads name
    | _ => []
  | .replace a b body => freeAll a ++ (freeAll b ++ freeAll body)
  | .allow _ _ body => freeAll body
  | .eval _ _ test body => freeAll test ++ (freeAll body).filter (fun k => decide (k ≠ c!"__eval__"))
  | .hash body => freeAll body
/-- Of all. -/
def freeAll : List Node → List Str
  | [] => []
  | x :: l => Node.free x ++ freeAll l
end

/-- `MadeOf T out`: `out` is made of whole texts that satisfy `T`, up to their outer white space, and of clean texts (in
which no special character occurs, and `&` only begins an entity). -/
inductive MadeOf (T : Str → Prop) : Str → Prop
  | nil : MadeOf T []
  | text {a w b out : Str} : T (a ++ (w ++ b)) → (∀ c ∈ a, isWs c = true) → (∀ c ∈ b, isWs c = true) → MadeOf T out → MadeOf T (w ++ out)
  | clean {x out : Str} : Clean true x → MadeOf T out → MadeOf T (x ++ out)

mutual
/-- The same template with the files and the snippets written where they are used. -/
def Node.inlined : Node → Node
  | .text t => .text t
  | .var amp name => .var amp name
  | .cond neg plus kind name body => .cond neg plus kind name (inlineAll body)
  | .cmp neg plus kind a b body => .cmp neg plus kind (inlineAll a) (inlineAll b) (inlineAll body)
  | .els neg plus body => .els neg plus (inlineAll body)
  | .coalesce plus body => .coalesce plus (inlineAll body)
  | .code plus body => .code plus (inlineAll body)
  | .each plus coll key val body => .each plus coll key val (inlineAll body)
  | .range plus v a b body => .range plus v a b (inlineAll body)
  | .param name => .param name
  | .setParam name body => .setParam name (inlineAll body)
  | .trans neg body => .trans neg (inlineAll body)
  | .incl _ body => .code true (inlineAll body)
  | .snippet _ _ body => .code (decide (c!"{:snip" <:+: trim (printAll body))) (inlineAll body)
  | .leaf k => .leaf k
  | .replace a b body => .replace (inlineAll a) (inlineAll b) (inlineAll body)
  | .allow neg name body => .allow neg name (inlineAll body)
  | .eval neg plus test body => .eval neg plus (inlineAll test) (inlineAll body)
  | .hash body => .hash (inlineAll body)
/-- All of them. -/
def inlineAll : List Node → List Node
  | [] => []
  | x :: l => Node.inlined x :: inlineAll l
end

end Nts.Spec
