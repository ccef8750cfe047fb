import Verif.Spec.Invisible
import Verif.Spec.Holes
/-
Pages with cached parts and excluded parts, for requests that the cache need not tell apart: what they leave, and what they show without a cache.
-/
set_option autoImplicit false
namespace Nts.Spec

/-- The pieces without the white space at their start. -/
def trimLeft : List Seg → List Seg
  | [] => []
  | .text t :: s => if trimStart t = [] then trimLeft s else .text (trimStart t) :: s
  | .hole l :: s => .hole l :: s

/-- The pieces without the white space at their end. -/
def trimRight : List Seg → List Seg
  | [] => []
  | .text t :: s => (if trimEnd (segText s) = [] then .text (trimEnd t) else .text t) :: trimRight s
  | .hole l :: s => .hole l :: trimRight s

/-- The pieces without the white space around them. -/
def trimSegs (s : List Seg) : List Seg := trimRight (trimLeft s)

/-- The characters that are not white space. -/
def inked (s : Str) : Str := s.filter (fun c => !isWs c)

mutual
/-- All templates of a part are steady. -/
def Kind.SteadyItem (k : Kind) (al : Str) : Item → Prop
  | .plain l => k.Steady al l
  | .cached _ _ _ body => k.SteadyItems c!"cache" body
  | .hole body => k.SteadyItems c!"cache" body
/-- Those of a page. -/
def Kind.SteadyItems (k : Kind) (al : Str) : List Item → Prop
  | [] => True
  | x :: l => k.SteadyItem al x ∧ k.SteadyItems al l
end

mutual
/-- What a part shows if there is no cache: a cached part and an excluded part are blocks. -/
def Kind.bare (k : Kind) (al : Str) : Item → Str
  | .plain l => k.text al l
  | .cached _ _ _ body => trim (k.bareAll c!"cache" body)
  | .hole body => trim (k.bareAll c!"cache" body)
/-- What a page shows. -/
def Kind.bareAll (k : Kind) (al : Str) : List Item → Str
  | [] => []
  | x :: l => k.bare al x ++ k.bareAll al l
end

mutual
/-- What a part leaves when it is evaluated; `c` tells whether it is in a cached part, where excluded parts stay. -/
def Kind.leaves (k : Kind) (al : Str) (c : Bool) : Item → List Seg
  | .plain l => [.text (k.text al l)]
  | .cached _ _ _ body => trimSegs (k.leavesAll c!"cache" true body)
  | .hole body => if c then [.hole body] else trimSegs (k.leavesAll c!"cache" false body)
/-- What a page leaves. -/
def Kind.leavesAll (k : Kind) (al : Str) (c : Bool) : List Item → List Seg
  | [] => []
  | x :: l => k.leaves al c x ++ k.leavesAll al c l
end

/-- A pass over the excluded parts that are left. -/
def Kind.pass (k : Kind) : List Seg → List Seg
  | [] => []
  | .text t :: s => .text t :: k.pass s
  | .hole l :: s => trimSegs (k.leavesAll c!"cache" false l) ++ k.pass s

/-- After some passes. -/
def Kind.after (k : Kind) : Nat → List Seg → List Seg
  | 0, y => y
  | n + 1, y => k.after n (trimSegs (k.pass y))

/-- It takes `j` passes to complete the pieces; the texts of the pieces have no BIFs. -/
def Kind.Takes (k : Kind) (j : Nat) (y : List Seg) : Prop :=
  (∀ i < j, segHoles (k.after i y) ≠ [] ∧ CalmSegs (k.after i y)) ∧ segHoles (k.after j y) = [] ∧ ¬ c!"{:!cache;" <:+: segText (k.after j y)

/-- The passes do not reach the limit of BIFs. -/
def Kind.Within (k : Kind) (env : Env) (C : Caching) (max : Nat) : Nat → List Seg → Mem → World → Prop
  | 0, _, _, _ => True
  | j + 1, y, m, w => (holesShow env k.S C (segRest y) (again m) w).2.1.bifs ≤ max ∧
      k.Within env C max j (trimSegs (k.pass y)) (holesShow env k.S C (segRest y) (again m) w).2.1 (holesShow env k.S C (segRest y) (again m) w).2.2

/-- Parts that share an entry leave the same, whatever requests of the kinds; and the cache is on for these requests. -/
structure FaithfulItems (env : Env) (C : Caching) (known : Item → Prop) (kinds : Kind → Prop) : Prop where
  on : ∀ k, kinds k → ∀ data, k.data data → C.on data
  inner : ∀ e i o body, known (.cached e i o body) → ∀ x ∈ body, known x
  excluded : ∀ body, known (.hole body) → ∀ x ∈ body, known x
  entries : ∀ e i o body e' i' o' body', known (.cached e i o body) → known (.cached e' i' o' body') →
    ∀ k k' data data', kinds k → kinds k' → k.data data → k'.data data' →
      itemFile env k.S C data e i o body = itemFile env k'.S C data' e' i' o' body' →
      trim (segText (k.leavesAll c!"cache" true body)) = trim (segText (k'.leavesAll c!"cache" true body'))

/-- Histories of a cache: the first passes of requests of the kinds, further passes over excluded parts that are left, in any order, and between them anything
that leaves the entries as they are, or removes some of them. -/
inductive ServedItems (env : Env) (C : Caching) (known : Item → Prop) (kinds : Kind → Prop) (w0 : World) : World → Prop
  | start : ServedItems env C known kinds w0 w0
  | ask {w : World} (k : Kind) (l : List Item) (m : Mem) : ServedItems env C known kinds w0 w → kinds k → (∀ x ∈ l, known x) → k.SteadyItems [] l →
      k.data m.data → k.defs m.defs → ServedItems env C known kinds w0 (itemsMean env k.S C [] false l m w).2.2
  | complete {w : World} (k : Kind) (rest : List (List Item × Str)) (m : Mem) : ServedItems env C known kinds w0 w → kinds k →
      (∀ x ∈ rest, known (.hole x.1) ∧ k.SteadyItems c!"cache" x.1) → k.data m.data → k.defs m.defs →
      ServedItems env C known kinds w0 (holesShow env k.S C rest m w).2.2
  | other {w w' : World} : ServedItems env C known kinds w0 w →
      (∀ text expires, w'.fs (entryFile env C.dir C.pre text expires) = w.fs (entryFile env C.dir C.pre text expires) ∨
        w'.fs (entryFile env C.dir C.pre text expires) = none) →
      ServedItems env C known kinds w0 w'

end Nts.Spec
