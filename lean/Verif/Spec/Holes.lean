import Verif.Spec.Nest
/-
Pages with cached parts that have excluded parts, `{:!cache; code :}`: how they are written and what they mean for a request.
-/
set_option autoImplicit false
namespace Nts.Spec

/-- The parts of a page. -/
inductive Item
  /-- a template, evaluated where it stands -/
  | plain (l : List Node)
  /-- `{:cache; /expires/id/only/ >> body :}` -/
  | cached (expires id only : Str) (body : List Item)
  /-- `{:!cache; body :}` -/
  | hole (body : List Item)

mutual
/-- How a part is written. -/
def Item.print : Item → Str
  | .plain l => printAll l
  | .cached expires id only body =>
    bifText [] c!"cache" (c!" " ++ (c!"/" ++ expires ++ c!"/" ++ id ++ c!"/" ++ only ++ c!"/") ++ c!" >> " ++ printItems body ++ c!" ")
  | .hole body => bifText c!"!" c!"cache" (c!" " ++ printItems body ++ c!" ")
/-- One after the other. -/
def printItems : List Item → Str
  | [] => []
  | x :: l => x.print ++ printItems l
end

/-- How an excluded part is written. -/
def holeText (l : List Item) : Str := bifText c!"!" c!"cache" (c!" " ++ printItems l ++ c!" ")

/-- The file of the entry of a cached part, for a request with these data. -/
def itemFile (env : Env) (S : Site) (C : Caching) (data : Obj) (expires id only : Str) (body : List Item) : Str :=
  entryFile env C.dir C.pre (idOf env S data expires id only (trim (printItems body))) expires

/-- An excluded part that is evaluated: its code, as a block. -/
def holeIn (run : Mem → World → Str × Mem × World) (m : Mem) (w : World) : Str × Mem × World :=
  let r := blockIn run { m with bifs := m.bifs + 1 } w
  (trim r.1, { r.2.1 with last := !r.1.isEmpty, lastC := !r.1.isEmpty }, r.2.2)

mutual
/-- What a part gives when the page is evaluated; `al` is the name of the BIF it is in, `inC` tells whether it is in a part that is
being stored in the cache.  There, an excluded part gives its own text. -/
def Item.means (env : Env) (S : Site) (C : Caching) (al : Str) (inC : Bool) : Item → Mem → World → Str × Mem × World
  | .plain l, m, w => ((meansAll S al l m).1, (meansAll S al l m).2, w)
  | .cached expires id only body, m, w =>
    let r := cachedIn env C expires (itemFile env S C m.data expires id only body)
      (itemsMean env S C c!"cache" (inC || decide (C.on m.data)) body) { m with bifs := m.bifs + 1 } w
    (trim r.1, { r.2.1 with last := !r.1.isEmpty, lastC := !r.1.isEmpty }, r.2.2)
  | .hole body, m, w =>
    if inC then (holeText body, { m with bifs := m.bifs + 1, last := true, lastC := true }, w)
    else holeIn (itemsMean env S C c!"cache" false body) m w
/-- One after the other. -/
def itemsMean (env : Env) (S : Site) (C : Caching) (al : Str) (inC : Bool) : List Item → Mem → World → Str × Mem × World
  | [], m, w => ([], m, w)
  | x :: l, m, w =>
    let r := x.means env S C al inC m w
    let r' := itemsMean env S C al inC l r.2.1 r.2.2
    (r.1 ++ r'.1, r'.2.1, r'.2.2)
end

mutual
/-- The parts are as required. -/
def Item.Ok (S : Site) (al : Str) : Item → Prop
  | .plain l => AllOk S al l
  | .cached expires id only body => ArgOk expires ∧ ArgOk id ∧ ArgOk only ∧ ItemsOk S c!"cache" body
  | .hole body => ItemsOk S c!"cache" body
/-- All of them. -/
def ItemsOk (S : Site) (al : Str) : List Item → Prop
  | [] => True
  | x :: l => x.Ok S al ∧ ItemsOk S al l
end

mutual
/-- The lifetimes of a part and of the parts in it. -/
def Item.lives : Item → List Str
  | .plain _ => []
  | .cached expires _ _ body => expires :: livesItems body
  | .hole body => livesItems body
/-- Those of a page. -/
def livesItems : List Item → List Str
  | [] => []
  | x :: l => x.lives ++ livesItems l
end

/-! The page that is still to be completed: a text, and then excluded parts, each followed by a text. -/

/-- The text of excluded parts and of what follows each of them. -/
def holesText : List (List Item × Str) → Str
  | [] => []
  | (l, t) :: rest => holeText l ++ (t ++ holesText rest)

/-- A pass over the excluded parts: each is evaluated, in order, in its place. -/
def holesShow (env : Env) (S : Site) (C : Caching) : List (List Item × Str) → Mem → World → Str × Mem × World
  | [], m, w => ([], m, w)
  | (l, t) :: rest, m, w =>
    let a := holeIn (itemsMean env S C c!"cache" false l) m w
    let b := holesShow env S C rest a.2.1 a.2.2
    (a.1 ++ (t ++ b.1), b.2.1, b.2.2)

/-- The excluded parts and texts as a page. -/
def restItems : List (List Item × Str) → List Item
  | [] => []
  | (l, t) :: rest => .hole l :: .plain [.text t] :: restItems rest

/-- A text without the start or the end of a BIF. -/
def Calm (t : Str) : Prop := ¬ c!"{:" <:+: t ∧ ¬ c!":}" <:+: t

/-- The memory with which the evaluation of the excluded parts begins: that of the end of the page, where no BIF has come before. -/
def again (m : Mem) : Mem := { m with last := false, lastC := false }

/-- `Completes … page m w k text m' w'`: the text of a page, with excluded parts, is completed to `text` in `k` passes, each of which evaluates
the excluded parts it finds.  There can be several passes because an excluded part may have a cached part in it that has excluded parts.  `exps` are
lifetimes of cached parts, `max` is the limit of BIFs. -/
inductive Completes (env : Env) (S : Site) (C : Caching) (exps : List Str) (max : Nat) : Str → Mem → World → Nat → Str → Mem → World → Prop
  | done {t : Str} {m : Mem} {w : World} : ¬ c!"{:!cache;" <:+: t → Completes env S C exps max t m w 0 t m w
  | pass {m m' : Mem} {w w' : World} {k : Nat} {t' : Str} (first : Str) (l : List Item) (t : Str) (rest : List (List Item × Str)) : Calm first →
      (∀ x ∈ (l, t) :: rest, ItemsOk S c!"cache" x.1 ∧ (∀ e ∈ livesItems x.1, e ∈ exps) ∧ Calm x.2) →
      (holesShow env S C ((l, t) :: rest) (again m) w).2.1.bifs ≤ max →
      Completes env S C exps max (trim (first ++ (holesShow env S C ((l, t) :: rest) (again m) w).1))
        (holesShow env S C ((l, t) :: rest) (again m) w).2.1 (holesShow env S C ((l, t) :: rest) (again m) w).2.2 k t' m' w' →
      Completes env S C exps max (first ++ holesText ((l, t) :: rest)) m w (k + 1) t' m' w'

/-! What is stored, and shown, in the course of time. -/

/-- A piece of an incomplete page. -/
inductive Seg
  /-- a text -/
  | text (t : Str)
  /-- an excluded part -/
  | hole (l : List Item)

/-- The text of an incomplete page. -/
def segText : List Seg → Str
  | [] => []
  | .text t :: s => t ++ segText s
  | .hole l :: s => holeText l ++ segText s

/-- Its excluded parts. -/
def segHoles : List Seg → List (List Item)
  | [] => []
  | .text _ :: s => segHoles s
  | .hole l :: s => l :: segHoles s

/-- The text before the first excluded part. -/
def segFirst : List Seg → Str
  | [] => []
  | .text t :: s => t ++ segFirst s
  | .hole _ :: _ => []

/-- The excluded parts, each with the text up to the next. -/
def segRest : List Seg → List (List Item × Str)
  | [] => []
  | .text _ :: s => segRest s
  | .hole l :: s => (l, segFirst s) :: segRest s

/-- The same pieces without white space around them. -/
def Unpadded (s s' : List Seg) : Prop := segHoles s' = segHoles s ∧ segText s' = trim (segText s)

/-- The texts between the excluded parts have no start or end of a BIF. -/
def CalmSegs (s : List Seg) : Prop := Calm (segFirst s) ∧ ∀ x ∈ segRest s, Calm x.2

mutual
/-- The evaluations that happen when a part is shown at a request that began at the time `t`, before the page is completed. -/
def Item.evaluates (env : Env) (S : Site) (C : Caching) (t : Nat) (al : Str) (inC : Bool) : Item → Mem → World → List Evaluation
  | .plain l, m, _ => [⟨S, al, l, m, t⟩]
  | .hole body, m, w => if inC then [] else itemsEvaluate env S C t c!"cache" false body { m with bifs := m.bifs + 1 } w
  | .cached expires id only body, m, w =>
    let file := itemFile env S C m.data expires id only body
    if C.on m.data then
      match freshIn env expires file w with
      | some _ => []
      | none => itemsEvaluate env S C t c!"cache" true body { m with bifs := m.bifs + 1 } (looked file w)
    else itemsEvaluate env S C t c!"cache" inC body { m with bifs := m.bifs + 1 } w
/-- One after the other. -/
def itemsEvaluate (env : Env) (S : Site) (C : Caching) (t : Nat) (al : Str) (inC : Bool) : List Item → Mem → World → List Evaluation
  | [], _, _ => []
  | x :: l, m, w =>
    x.evaluates env S C t al inC m w ++
      itemsEvaluate env S C t al inC l (x.means env S C al inC m w).2.1 (x.means env S C al inC m w).2.2
end

/-- Histories of a cache, as `Asked`, for pages with excluded parts. -/
inductive AskedItems (env : Env) (C : Caching) (known : Item → Prop) (d : Nat) (w0 : World) : List Evaluation → World → Prop
  | start : AskedItems env C known d w0 [] w0
  | ask {vs : List Evaluation} {w : World} (S : Site) (l : List Item) (m : Mem) : AskedItems env C known d w0 vs w →
      (∀ x ∈ l, known x) →
      (∀ t, w.tick ≤ t → t ≤ (itemsMean env S C [] false l m w).2.2.tick →
        env.now w.tick ≤ env.now t ∧ env.now t ≤ env.now w.tick + d) →
      AskedItems env C known d w0 (vs ++ itemsEvaluate env S C (env.now w.tick) [] false l m w) (itemsMean env S C [] false l m w).2.2
  | other {vs : List Evaluation} {w w' : World} : AskedItems env C known d w0 vs w →
      (∀ text expires, w'.fs (entryFile env C.dir C.pre text expires) = w.fs (entryFile env C.dir C.pre text expires)) →
      AskedItems env C known d w0 vs w'

/-- Known parts: templates are known, the parts in a known cached or excluded part are known, and two cached parts that can share an entry have the same parts in
them. -/
structure SeparateItems (env : Env) (C : Caching) (known : Item → Prop) : Prop where
  plain : ∀ l, known (.plain l)
  inner : ∀ e i o body, known (.cached e i o body) → ∀ x ∈ body, known x
  excluded : ∀ body, known (.hole body) → ∀ x ∈ body, known x
  entries : ∀ e i o body e' i' o' body', known (.cached e i o body) → known (.cached e' i' o' body') →
    ∀ S data S' data', itemFile env S C data e i o body = itemFile env S' C data' e' i' o' body' → body = body'

/-- `FilledBy vs d t inC al l s`: the pieces `s` are what the parts `l` in the BIF `al` give, made of the evaluations `vs`.  Templates stand for
the text of an evaluation in a request that began at the time `t` or later.  In a part that is stored (`inC`), the excluded parts are
pieces of their own, for which there is no evaluation; elsewhere they are filled like the parts around them.  A cached part whose text is or was
stored with the lifetime `L` is filled with evaluations of requests that began at the time `t - (L + d)` or later; one that is not, because
the cache is off, is filled like the parts around it. -/
inductive FilledBy (vs : List Evaluation) (d : Nat) : Nat → Bool → Str → List Item → List Seg → Prop
  | nil (t : Nat) (c : Bool) (al : Str) : FilledBy vs d t c al [] []
  | plain {t : Nat} {c : Bool} {al : Str} {p : List Item} {s : List Seg} (v : Evaluation) : v ∈ vs → v.al = al → t ≤ v.at' →
      FilledBy vs d t c al p s → FilledBy vs d t c al (.plain v.l :: p) (.text v.text :: s)
  | hole {t : Nat} {al : Str} {p : List Item} {s : List Seg} (l : List Item) : FilledBy vs d t true al p s →
      FilledBy vs d t true al (.hole l :: p) (.hole l :: s)
  | evaluated {t : Nat} {al : Str} {body p : List Item} {x y s : List Seg} :
      FilledBy vs d t false c!"cache" body x → Unpadded x y → FilledBy vs d t false al p s →
      FilledBy vs d t false al (.hole body :: p) (y ++ s)
  | stored {t : Nat} {c : Bool} {al e i o : Str} {body p : List Item} {x y s : List Seg} :
      FilledBy vs d (t - (lifetime e + d)) true c!"cache" body x → Unpadded x y → FilledBy vs d t c al p s →
      FilledBy vs d t c al (.cached e i o body :: p) (y ++ s)
  | off {t : Nat} {c : Bool} {al e i o : Str} {body p : List Item} {x y s : List Seg} :
      FilledBy vs d t c c!"cache" body x → Unpadded x y → FilledBy vs d t c al p s →
      FilledBy vs d t c al (.cached e i o body :: p) (y ++ s)

/-- `Passes … vs y m w k vs' y' m' w'`: a page of the pieces `y` is completed, in `k` passes over the excluded parts that are left, each of which takes at
most `d` seconds.  What a pass gives is filled with evaluations, as the page itself is; the pieces are then the text before the first excluded
part, which stays, and what the pass gives.  `vs` are the evaluations before, `vs'` also those of the passes. -/
inductive Passes (env : Env) (S : Site) (C : Caching) (d max : Nat) :
    List Evaluation → List Seg → Mem → World → Nat → List Evaluation → List Seg → Mem → World → Prop
  | done {vs : List Evaluation} {y : List Seg} {m : Mem} {w : World} : ¬ c!"{:!cache;" <:+: segText y → Passes env S C d max vs y m w 0 vs y m w
  | pass {vs vs' : List Evaluation} {y z y' y'' : List Seg} {m m' : Mem} {w w' : World} {k : Nat} : segHoles y ≠ [] → CalmSegs y →
      (holesShow env S C (segRest y) (again m) w).2.1.bifs ≤ max →
      (∀ t, w.tick ≤ t → t ≤ (holesShow env S C (segRest y) (again m) w).2.2.tick → env.now w.tick ≤ env.now t ∧ env.now t ≤ env.now w.tick + d) →
      FilledBy (vs ++ itemsEvaluate env S C (env.now w.tick) [] false (restItems (segRest y)) (again m) w) d (env.now w.tick) false []
        (restItems (segRest y)) z →
      (holesShow env S C (segRest y) (again m) w).1 = segText z → Unpadded (.text (segFirst y) :: z) y' →
      Passes env S C d max (vs ++ itemsEvaluate env S C (env.now w.tick) [] false (restItems (segRest y)) (again m) w) y'
        (holesShow env S C (segRest y) (again m) w).2.1 (holesShow env S C (segRest y) (again m) w).2.2 k vs' y'' m' w' →
      Passes env S C d max vs y m w (k + 1) vs' y'' m' w'

end Nts.Spec
