import Verif.Spec.Nest
/-
Requests that the cache need not tell apart: the kinds of requests, what a page shows to a request of a kind, and histories of such requests.
-/
set_option autoImplicit false
namespace Nts.Spec

/-- A kind of requests: a site, the data and the definitions that requests of this kind can have, and what each template, in the BIF with
a name, shows to all of them. -/
structure Kind where
  S : Site
  data : Obj → Prop
  defs : Obj → Prop
  text : Str → List Node → Str

/-- The template shows the same text whenever it is evaluated for a request of the kind, and leaves it a request of the kind. -/
def Kind.Steady (k : Kind) (al : Str) (l : List Node) : Prop :=
  ∀ m : Mem, k.data m.data → k.defs m.defs →
    (meansAll k.S al l m).1 = k.text al l ∧ k.data (meansAll k.S al l m).2.data ∧ k.defs (meansAll k.S al l m).2.defs

mutual
/-- All templates of a part are so. -/
def Kind.SteadyIn (k : Kind) (al : Str) : Chunk → Prop
  | .plain l => k.Steady al l
  | .cached _ _ _ body => k.SteadyAll c!"cache" body
/-- Those of a page. -/
def Kind.SteadyAll (k : Kind) (al : Str) : List Chunk → Prop
  | [] => True
  | x :: l => k.SteadyIn al x ∧ k.SteadyAll al l
end

mutual
/-- What a part shows if there is no cache. -/
def Kind.shows (k : Kind) (al : Str) : Chunk → Str
  | .plain l => k.text al l
  | .cached _ _ _ body => trim (k.showsAll c!"cache" body)
/-- What a page shows if there is no cache. -/
def Kind.showsAll (k : Kind) (al : Str) : List Chunk → Str
  | [] => []
  | x :: l => k.shows al x ++ k.showsAll al l
end

/-- Parts that share an entry show the same: whatever cached parts and whatever requests of the kinds. -/
def Faithful (env : Env) (C : Caching) (known : Chunk → Prop) (kinds : Kind → Prop) : Prop :=
  ∀ e i o body e' i' o' body', known (.cached e i o body) → known (.cached e' i' o' body') →
    ∀ k k' data data', kinds k → kinds k' → k.data data → k'.data data' →
      pieceFile env k.S C data e i o body = pieceFile env k'.S C data' e' i' o' body' →
      trim (k.showsAll c!"cache" body) = trim (k'.showsAll c!"cache" body')

/-- Histories of a cache: requests of the kinds, for pages of known parts, and between them anything that leaves the entries as they are, or removes
some of them. -/
inductive Served (env : Env) (C : Caching) (known : Chunk → Prop) (kinds : Kind → Prop) (w0 : World) : World → Prop
  | start : Served env C known kinds w0 w0
  | ask {w : World} (k : Kind) (l : List Chunk) (m : Mem) : Served env C known kinds w0 w → kinds k → (∀ x ∈ l, known x) → k.SteadyAll [] l →
      k.data m.data → k.defs m.defs → Served env C known kinds w0 (piecesMean env k.S C [] l m w).2.2
  | other {w w' : World} : Served env C known kinds w0 w →
      (∀ text expires, w'.fs (entryFile env C.dir C.pre text expires) = w.fs (entryFile env C.dir C.pre text expires) ∨
        w'.fs (entryFile env C.dir C.pre text expires) = none) →
      Served env C known kinds w0 w'

/-- The kind of the requests of one site with the same data and the same definitions. -/
def kindOf (S : Site) (data defs : Obj) : Kind := ⟨S, (· = data), (· = defs), fun al l => (meansAll S al l ⟨data, defs, false, false, 0⟩).1⟩

/-- Is it a BIF? -/
def Node.active : Node → Bool
  | .text _ => false
  | _ => true

mutual
/-- In the BIF `al`, the template does not look at what was remembered of a BIF before it, unless that is `b` known (whether the last BIF gave
output, for `else`) or `c` known (for a `coalesce`). -/
def Node.settled (al : Str) (b c : Bool) : Node → Bool
  | .text _ => true
  | .var _ _ => decide (al ≠ c!"coalesce") || c
  | .cond _ _ kind _ body => (decide (al ≠ c!"coalesce") || c) && settledAll kind b c body
  | .cmp _ _ kind x y body =>
    (decide (al ≠ c!"coalesce") || c) && (settledAll kind b c x && (settledAll kind b c y && settledAll kind b c body))
  | .els _ _ body => (decide (al ≠ c!"coalesce") || c) && (b && settledAll c!"else" b c body)
  | .coalesce _ body => (decide (al ≠ c!"coalesce") || c) && settledAll c!"coalesce" b true body
  | .code _ body => (decide (al ≠ c!"coalesce") || c) && settledAll c!"code" b c body
  | .each _ _ _ _ body => (decide (al ≠ c!"coalesce") || c) && settledAll c!"each" b c body
  | .range _ _ _ _ body => (decide (al ≠ c!"coalesce") || c) && settledAll c!"for" b c body
  | .param _ => decide (al ≠ c!"coalesce") || c
  | .setParam _ body => (decide (al ≠ c!"coalesce") || c) && settledAll c!"param" b c body
  | .trans _ body => (decide (al ≠ c!"coalesce") || c) && settledAll c!"trans" b c body
  | .incl _ body => (decide (al ≠ c!"coalesce") || c) && settledAll c!"include" b c body
  | .snippet _ _ body => (decide (al ≠ c!"coalesce") || c) && settledAll c!"snippet" b c body
  | .leaf _ => decide (al ≠ c!"coalesce") || c
  | .replace x y body => (decide (al ≠ c!"coalesce") || c) &&
    (settledAll c!"replace" b c x && (settledAll c!"replace" b c y && settledAll c!"replace" b c body))
  | .allow _ _ body => (decide (al ≠ c!"coalesce") || c) && settledAll c!"allow" b c body
  | .eval _ _ test body => (decide (al ≠ c!"coalesce") || c) && (settledAll c!"eval" b c test && settledAll c!"eval" b c body)
  | .hash body => (decide (al ≠ c!"coalesce") || c) && settledAll c!"hash" b c body
/-- One after the other: after a BIF, both are known. -/
def settledAll (al : Str) (b c : Bool) : List Node → Bool
  | [] => true
  | x :: l => x.settled al b c && settledAll al (b || (x.active && decide (al ≠ c!"coalesce"))) (c || x.active) l
end

mutual
/-- The template has nothing that sets data (`each`, `for`, `eval`). -/
def Node.keepsData : Node → Bool
  | .text _ | .var _ _ | .param _ | .leaf _ => true
  | .each _ _ _ _ _ | .range _ _ _ _ _ | .eval _ _ _ _ => false
  | .cond _ _ _ _ body | .els _ _ body | .coalesce _ body | .code _ body | .setParam _ body | .trans _ body | .incl _ body
  | .snippet _ _ body | .allow _ _ body | .hash body => keepsDataAll body
  | .cmp _ _ _ x y body | .replace x y body => keepsDataAll x && (keepsDataAll y && keepsDataAll body)
/-- One after the other. -/
def keepsDataAll : List Node → Bool
  | [] => true
  | x :: l => x.keepsData && keepsDataAll l
end

mutual
/-- The template has nothing that sets definitions (`param` with a text, files of data or of translations), except in blocks of
their own. -/
def Node.keepsDefs : Node → Bool
  | .text _ | .var _ _ | .param _ | .trans _ _ | .replace _ _ _ | .allow _ _ _ | .hash _ => true
  | .setParam _ _ => false
  | .leaf (.load _ _ _) => false
  | .leaf _ => true
  | .cond _ plus _ _ body | .cmp _ plus _ _ _ body | .els _ plus body | .coalesce plus body | .code plus body | .each plus _ _ _ body
  | .range plus _ _ _ body => !plus || keepsDefsAll body
  | .eval _ plus test body => !plus || (keepsDefsAll test && keepsDefsAll body)
  | .incl _ body | .snippet _ _ body => keepsDefsAll body
/-- One after the other. -/
def keepsDefsAll : List Node → Bool
  | [] => true
  | x :: l => x.keepsDefs && keepsDefsAll l
end

end Nts.Spec
