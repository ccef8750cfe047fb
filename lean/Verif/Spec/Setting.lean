import Verif.Spec.LangUse
/-
What, other than the data, a template of the language (Spec/Lang.lean) reads: the language, the translations, the parameters, the
local data, the option `filter_all`, the hash and the lists of words.
-/
set_option autoImplicit false
namespace Nts.Spec

/-- What can be read. -/
inductive Thing
  | lang
  | translations
  | params
  | locals
  | filter
  | hash
  | words (name : Str)
  deriving DecidableEq

/-- The name of a variable of the local data. -/
def localOf (name : Str) : List Thing := if c!"local::" <+: name then [.locals] else []

mutual
/-- What a template reads. -/
def Node.things : Node → List Thing
  | .text _ => []
  | .var amp name => (if amp then [] else [.filter]) ++ localOf name
  | .cond _ _ _ name body => localOf name ++ thingsAll body
  | .cmp _ _ _ a b body => thingsAll a ++ (thingsAll b ++ thingsAll body)
  | .els _ _ body => thingsAll body
  | .coalesce _ body => thingsAll body
  | .code _ body => thingsAll body
  | .each _ coll _ _ body => localOf coll ++ thingsAll body
  | .range _ _ _ _ body => thingsAll body
  | .param _ => [.params]
  | .setParam _ body => thingsAll body
  | .trans _ body => [.lang, .translations] ++ thingsAll body
  | .incl _ body => thingsAll body
  | .snippet _ _ body => thingsAll body
  | .leaf k => match k with
    | .lang => [.lang]
    | .join _ name _ => localOf name
    | _ => []
  | .replace a b body => thingsAll a ++ (thingsAll b ++ thingsAll body)
  | .allow _ name body => .words name :: thingsAll body
  | .eval _ _ test body => thingsAll test ++ thingsAll body
  | .hash body => .hash :: thingsAll body
/-- Of all. -/
def thingsAll : List Node → List Thing
  | [] => []
  | x :: l => x.things ++ thingsAll l
end

/-- Two sites and two definitions have the same of it. -/
def SameThing (S1 S2 : Site) (defs1 defs2 : Obj) : Thing → Prop
  | .lang => S1.lang = S2.lang
  | .translations => entry defs1 c!"locale" = entry defs2 c!"locale"
  | .params => entry defs1 c!"params" = entry defs2 c!"params"
  | .locals => entry defs1 c!"data" = entry defs2 c!"data"
  | .filter => S1.filterAll = S2.filterAll ∧ S1.sanitize = S2.sanitize
  | .hash => S1.md5 = S2.md5
  | .words name => wordsOf S1 name = wordsOf S2 name

end Nts.Spec
