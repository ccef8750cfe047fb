import Verif.Spec.LangUse
/-
Renaming of the variables of a template of the language (Spec/Lang.lean).
-/
set_option autoImplicit false
namespace Nts.Spec

/-- A renaming: different names stay different; names without separators (`->`, `/`) go to such names; the data of the request, the
variable of `eval` and the local data keep their names. -/
structure Renaming (ρ : Str → Str) : Prop where
  inj : ∀ a b, ρ a = ρ b → a = b
  plain : ∀ k, firstKey k = k → k ≠ [] → firstKey (ρ k) = ρ k ∧ ρ k ≠ []
  context : ρ c!"CONTEXT" = c!"CONTEXT"
  eval : ρ c!"__eval__" = c!"__eval__"
  loc : ∀ k, c!"local::" <+: ρ k ↔ c!"local::" <+: k

/-- The name of a variable, renamed: `x->y` names the member `y` of the renamed `x`. -/
def nameAs (ρ : Str → Str) (name : Str) : Str :=
  if c!"local::" <+: name then name else ρ (firstKey name) ++ name.drop (firstKey name).length

mutual
/-- The template with its variables renamed. -/
def Node.renamed (ρ : Str → Str) : Node → Node
  | .text t => .text t
  | .var amp name => .var amp (nameAs ρ name)
  | .cond neg plus kind name body => .cond neg plus kind (nameAs ρ name) (renameAll ρ body)
  | .cmp neg plus kind a b body => .cmp neg plus kind (renameAll ρ a) (renameAll ρ b) (renameAll ρ body)
  | .els neg plus body => .els neg plus (renameAll ρ body)
  | .coalesce plus body => .coalesce plus (renameAll ρ body)
  | .code plus body => .code plus (renameAll ρ body)
  | .each plus coll key val body => .each plus (nameAs ρ coll) (ρ key) (ρ val) (renameAll ρ body)
  | .range plus v a b body => .range plus (ρ v) a b (renameAll ρ body)
  | .param name => .param name
  | .setParam name body => .setParam name (renameAll ρ body)
  | .trans neg body => .trans neg (renameAll ρ body)
  | .incl path body => .incl path (renameAll ρ body)
  | .snippet kind name body => .snippet kind name (renameAll ρ body)
  | .leaf k => .leaf (match k with
    | .join keys name sep => .join keys (nameAs ρ name) sep
    | k => k)
  | .replace a b body => .replace (renameAll ρ a) (renameAll ρ b) (renameAll ρ body)
  | .allow neg name body => .allow neg name (renameAll ρ body)
  | .eval neg plus test body => .eval neg plus (renameAll ρ test) (renameAll ρ body)
  | .hash body => .hash (renameAll ρ body)
/-- All of them. -/
def renameAll (ρ : Str → Str) : List Node → List Node
  | [] => []
  | x :: l => Node.renamed ρ x :: renameAll ρ l
end

/-- The same but for the files and the snippets. -/
structure SameSite (S1 S2 : Site) : Prop where
  F : S1.F = S2.F
  filterAll : S1.filterAll = S2.filterAll
  sanitize : S1.sanitize = S2.sanitize
  lang : S1.lang = S2.lang
  md5 : S1.md5 = S2.md5
  declared : S1.declared = S2.declared

/-- Two names exchanged. -/
def exchanged (a b : Str) (k : Str) : Str := if k = a then b else if k = b then a else k

end Nts.Spec
