import Verif.Spec.Setting
import Verif.Props.LangUse
/-
C117: what of the definitions and of the options a page depends on.
-/
set_option autoImplicit false
namespace Nts
open Spec

/-- The two evaluations are at the same place; the parts of the definitions that may be read are the same. -/
structure Even (A : Thing → Prop) (m1 m2 : Mem) : Prop where
  data : m1.data = m2.data
  last : m1.last = m2.last
  lastC : m1.lastC = m2.lastC
  bifs : m1.bifs = m2.bifs
  locale : A .translations → entry m1.defs c!"locale" = entry m2.defs c!"locale"
  params : A .params → entry m1.defs c!"params" = entry m2.defs c!"params"
  locals : A .locals → entry m1.defs c!"data" = entry m2.defs c!"data"

/-- What the sites have to have in common. -/
structure Common (A : Thing → Prop) (S1 S2 : Site) : Prop where
  F : S1.F = S2.F
  lang : A .lang → S1.lang = S2.lang
  filter : A .filter → S1.filterAll = S2.filterAll ∧ S1.sanitize = S2.sanitize
  hash : A .hash → S1.md5 = S2.md5
  words : ∀ name, A (.words name) → wordsOf S1 name = wordsOf S2 name

/-- The same text, and at the same place again. -/
def Paired (A : Thing → Prop) (run1 run2 : Mem → Str × Mem) : Prop :=
  ∀ m1 m2, Even A m1 m2 → (run1 m1).1 = (run2 m2).1 ∧ Even A (run1 m1).2 (run2 m2).2

theorem paired_block {A : Thing → Prop} {plus : Bool} {run1 run2 : Mem → Str × Mem} (h : Paired A run1 run2) :
    Paired A (blockOf plus run1) (blockOf plus run2) := by
  intro m1 m2 hm
  obtain ⟨h1, h2⟩ := h m1 m2 hm
  unfold blockOf
  refine ⟨by rw [h1], h2.data, hm.last, hm.lastC, h2.bifs, ?_, ?_, ?_⟩
  · cases plus
    · exact hm.locale
    · exact h2.locale
  · cases plus
    · exact hm.params
    · exact h2.params
  · cases plus
    · exact hm.locals
    · exact h2.locals

theorem paired_arg {A : Thing → Prop} {t : Str} {run1 run2 : Mem → Str × Mem} (h : Paired A run1 run2) :
    Paired A (argOf t run1) (argOf t run2) := by
  intro m1 m2 hm
  unfold argOf
  split
  · exact paired_block h m1 m2 hm
  · exact ⟨rfl, hm⟩

theorem paired_bif {A : Thing → Prop} {al : Str} {run1 run2 : Mem → Str × Mem} (h : Paired A run1 run2) :
    Paired A (bifOf al run1) (bifOf al run2) := by
  intro m1 m2 hm
  unfold bifOf
  by_cases hx : al = c!"coalesce" ∧ m2.lastC = true
  · rw [if_pos hx, if_pos (by rw [hm.lastC]; exact hx)]
    exact ⟨rfl, hm⟩
  · rw [if_neg hx, if_neg (by rw [hm.lastC]; exact hx)]
    obtain ⟨h1, h2⟩ := h { m1 with bifs := m1.bifs + 1 } { m2 with bifs := m2.bifs + 1 }
      ⟨hm.data, hm.last, hm.lastC, congrArg (· + 1) hm.bifs, hm.locale, hm.params, hm.locals⟩
    try dsimp only
    rw [h1]
    exact ⟨rfl, h2.data, rfl, rfl, h2.bifs, h2.locale, h2.params, h2.locals⟩

theorem Even.set {A : Thing → Prop} {m1 m2 : Mem} (h : Even A m1 m2) {d1 d2 : Obj} (hd : d1 = d2) :
    Even A { m1 with data := d1 } { m2 with data := d2 } :=
  ⟨hd, h.last, h.lastC, h.bifs, h.locale, h.params, h.locals⟩

theorem paired_loop {A : Thing → Prop} {plus : Bool} {run1 run2 : Mem → Str × Mem} (h : Paired A run1 run2) :
    ∀ (l : List (List (Str × Value))), Paired A (loopOf plus run1 l) (loopOf plus run2 l)
  | [] => fun _ _ hm => ⟨rfl, hm⟩
  | vs :: l => fun m1 m2 hm => by
    simp only [loopOf]
    obtain ⟨h1, h2⟩ := paired_block (plus := plus) h { m1 with data := setAll vs m1.data } { m2 with data := setAll vs m2.data }
      (hm.set (by rw [hm.data]))
    obtain ⟨h3, h4⟩ := paired_loop (plus := plus) h l _ _ h2
    exact ⟨by rw [h1, h3], h4⟩

theorem even_value {A : Thing → Prop} {m1 m2 : Mem} (h : Even A m1 m2) {name : Str} (hn : ∀ r ∈ localOf name, A r) :
    valueOf m1 name = valueOf m2 name := by
  unfold valueOf
  unfold localOf at hn
  split
  · next hp =>
    rw [if_pos hp] at hn
    rw [h.locals (hn _ (by simp))]
  · rw [h.data]

mutual
theorem paired_node (A : Thing → Prop) (S1 S2 : Site) (hS : Common A S1 S2) :
    ∀ (x : Node) (al : Str), x.Ok S1 al → (∀ r ∈ x.things, A r) → Paired A (x.means S1 al) (x.means S2 al)
  | .text t, al, _, _ => fun m1 m2 hm => by simp only [Node.means]; exact ⟨trivial, hm⟩
  | .var amp name, al, hc, hr => by
    intro m1 m2 hm
    simp only [Node.Ok] at hc
    simp only [Node.things, List.mem_append] at hr
    simp only [Node.means]
    refine paired_bif (fun m1 m2 hm => ?_) m1 m2 hm
    refine ⟨?_, hm⟩
    try dsimp only
    rw [even_value hm (fun r h => hr r (.inr h)), hS.F]
    cases amp with
    | true => unfold printedAs; rfl
    | false =>
      obtain ⟨h1, h2⟩ := hS.filter (hr .filter (.inl (by simp)))
      rw [h1, h2]
  | .cond neg plus kind name body, al, hc, hr => by
    intro m1 m2 hm
    simp only [Node.Ok] at hc
    simp only [Node.things, List.mem_append] at hr
    simp only [Node.means]
    refine paired_bif (fun m1 m2 hm => ?_) m1 m2 hm
    try dsimp only
    rw [even_value hm (fun r h => hr r (.inl h)), hS.F]
    split
    · exact ⟨rfl, hm⟩
    · exact paired_block (paired_all A S1 S2 hS body kind hc.2.2 (fun r h => hr r (.inr h))) m1 m2 hm
  | .cmp neg plus kind a b body, al, hc, hr => by
    intro m1 m2 hm
    simp only [Node.Ok] at hc
    simp only [Node.things, List.mem_append] at hr
    simp only [Node.means]
    refine paired_bif (fun m1 m2 hm => ?_) m1 m2 hm
    try dsimp only
    obtain ⟨h1, h2⟩ := paired_arg (t := printAll a) (paired_all A S1 S2 hS a kind hc.2.1 (fun r h => hr r (.inl h))) m1 m2 hm
    obtain ⟨h3, h4⟩ := paired_arg (t := printAll b) (paired_all A S1 S2 hS b kind hc.2.2.1 (fun r h => hr r (.inr (.inl h)))) _ _ h2
    rw [h1, h3]
    split
    · exact ⟨rfl, h4⟩
    · exact paired_block (paired_all A S1 S2 hS body kind hc.2.2.2.1 (fun r h => hr r (.inr (.inr h)))) _ _ h4
  | .els neg plus body, al, hc, hr => by
    intro m1 m2 hm
    simp only [Node.Ok] at hc
    simp only [Node.things] at hr
    simp only [Node.means]
    refine paired_bif (fun m1 m2 hm => ?_) m1 m2 hm
    try dsimp only
    rw [hm.last]
    split
    · exact paired_block (paired_all A S1 S2 hS body _ hc hr) m1 m2 hm
    · exact ⟨rfl, hm⟩
  | .coalesce plus body, al, hc, hr => by
    intro m1 m2 hm
    simp only [Node.Ok] at hc
    simp only [Node.things] at hr
    simp only [Node.means]
    refine paired_bif (fun m1 m2 hm => ?_) m1 m2 hm
    exact paired_block (paired_all A S1 S2 hS body _ hc hr) _ _ ⟨hm.data, hm.last, rfl, hm.bifs, hm.locale, hm.params, hm.locals⟩
  | .code plus body, al, hc, hr => by
    intro m1 m2 hm
    simp only [Node.Ok] at hc
    simp only [Node.things] at hr
    simp only [Node.means]
    refine paired_bif (fun m1 m2 hm => ?_) m1 m2 hm
    exact paired_block (paired_all A S1 S2 hS body _ hc hr) m1 m2 hm
  | .each plus coll key val body, al, hc, hr => by
    intro m1 m2 hm
    simp only [Node.Ok] at hc
    simp only [Node.things, List.mem_append] at hr
    simp only [Node.means]
    refine paired_bif (fun m1 m2 hm => ?_) m1 m2 hm
    try dsimp only
    rw [even_value hm (fun r h => hr r (.inl h))]
    obtain ⟨h1, h2⟩ := paired_loop (plus := plus) (paired_all A S1 S2 hS body c!"each" hc.2.2.2 (fun r h => hr r (.inr h)))
      ((elementsOf (valueOf m2 coll)).map (fun kv => [(key, .str kv.1), (val, kv.2)])) m1 m2 hm
    exact ⟨h1, h2.set (by rw [hm.data, h2.data])⟩
  | .range plus v a b body, al, hc, hr => by
    intro m1 m2 hm
    simp only [Node.Ok] at hc
    simp only [Node.things] at hr
    simp only [Node.means]
    refine paired_bif (fun m1 m2 hm => ?_) m1 m2 hm
    try dsimp only
    have hv : valueOf m1 v = valueOf m2 v := even_value hm (by
      unfold localOf
      rw [if_neg hc.1.2]
      simp)
    rw [hv, hS.F]
    obtain ⟨h1, h2⟩ := paired_loop (plus := plus) (paired_all A S1 S2 hS body c!"for" hc.2.2.2.2 hr)
      ((span a b).map (fun i => [(v, .str (showInt i))])) m1 m2 hm
    exact ⟨h1, h2.set (by rw [h2.data])⟩
  | .param name, al, hc, hr => by
    intro m1 m2 hm
    simp only [Node.Ok] at hc
    simp only [Node.things] at hr
    simp only [Node.means]
    refine paired_bif (fun m1 m2 hm => ?_) m1 m2 hm
    refine ⟨?_, hm⟩
    try dsimp only
    rw [hm.params (hr _ (by simp)), hS.F]
  | .setParam name body, al, hc, hr => by
    intro m1 m2 hm
    simp only [Node.Ok] at hc
    simp only [Node.things] at hr
    simp only [Node.means]
    refine paired_bif (fun m1 m2 hm => ?_) m1 m2 hm
    try dsimp only
    obtain ⟨h1, h2⟩ := paired_block (plus := false) (paired_all A S1 S2 hS body c!"param" hc.2.2 hr) m1 m2 hm
    refine ⟨rfl, h2.data, h2.last, h2.lastC, h2.bifs, ?_, ?_, ?_⟩
    · intro ha
      simp only [entry_insert]
      rw [if_neg (by decide), if_neg (by decide)]
      exact h2.locale ha
    · intro ha
      simp only [entry_insert, if_true]
      unfold paramsOf
      rw [h2.params ha, h1]
    · intro ha
      simp only [entry_insert]
      rw [if_neg (by decide), if_neg (by decide)]
      exact h2.locals ha
  | .trans neg body, al, hc, hr => by
    intro m1 m2 hm
    simp only [Node.Ok] at hc
    simp only [Node.things, List.mem_append] at hr
    simp only [Node.means]
    refine paired_bif (fun m1 m2 hm => ?_) m1 m2 hm
    try dsimp only
    obtain ⟨h1, h2⟩ := paired_block (plus := false) (paired_all A S1 S2 hS body c!"trans" hc (fun r h => hr r (.inr h))) m1 m2 hm
    have ht : translated S1 m1 = translated S2 m2 := by
      funext t
      unfold translated
      rw [hm.locale (hr _ (.inl (by simp))), hS.lang (hr _ (.inl (by simp))), hS.F]
    rw [h1, ht]
    exact ⟨rfl, h2⟩
  | .incl path body, al, hc, hr => by
    intro m1 m2 hm
    simp only [Node.Ok] at hc
    simp only [Node.things] at hr
    simp only [Node.means]
    refine paired_bif (fun m1 m2 hm => ?_) m1 m2 hm
    exact paired_block (paired_all A S1 S2 hS body _ hc.2.2.2 hr) m1 m2 hm
  | .snippet kind name body, al, hc, hr => by
    intro m1 m2 hm
    simp only [Node.Ok] at hc
    simp only [Node.things] at hr
    simp only [Node.means]
    refine paired_bif (fun m1 m2 hm => ?_) m1 m2 hm
    exact paired_block (paired_all A S1 S2 hS body _ hc.2.2.2 hr) m1 m2 hm
  | .leaf k, al, hc, hr => by
    intro m1 m2 hm
    simp only [Node.Ok] at hc
    simp only [Node.means]
    refine paired_bif (fun m1 m2 hm => ?_) m1 m2 hm
    cases k with
    | lang =>
      simp only [Node.things] at hr
      exact ⟨hS.lang (hr _ (by simp)), hm⟩
    | mark => exact ⟨rfl, hm⟩
    | up => exact ⟨rfl, hm⟩
    | join keys name sep =>
      simp only [Node.things] at hr
      refine ⟨?_, hm⟩
      simp only [Leaf.shown]
      rw [even_value hm hr, hS.F]
    | load locale path v =>
      refine ⟨rfl, hm.data, hm.last, hm.lastC, hm.bifs, ?_, ?_, ?_⟩
      · intro ha
        simp only [Leaf.effect, loaded]
        cases locale <;> simp only [Bool.false_eq_true, if_false, if_true, entry_insert]
        · rw [if_neg (by decide), if_neg (by decide)]
          exact hm.locale ha
        · rw [hm.locale ha]
      · intro ha
        simp only [Leaf.effect, loaded]
        cases locale <;> simp only [Bool.false_eq_true, if_false, if_true, entry_insert]
        · rw [if_neg (by decide), if_neg (by decide)]
          exact hm.params ha
        · rw [if_neg (by decide), if_neg (by decide)]
          exact hm.params ha
      · intro ha
        simp only [Leaf.effect, loaded]
        cases locale <;> simp only [Bool.false_eq_true, if_false, if_true, entry_insert]
        · rw [hm.locals ha]
        · rw [if_neg (by decide), if_neg (by decide)]
          exact hm.locals ha
  | .replace a b body, al, hc, hr => by
    intro m1 m2 hm
    simp only [Node.Ok] at hc
    simp only [Node.things, List.mem_append] at hr
    simp only [Node.means]
    refine paired_bif (fun m1 m2 hm => ?_) m1 m2 hm
    try dsimp only
    obtain ⟨h1, h2⟩ := paired_arg (t := printAll a) (paired_all A S1 S2 hS a c!"replace" hc.1 (fun r h => hr r (.inl h))) m1 m2 hm
    obtain ⟨h3, h4⟩ := paired_arg (t := printAll b) (paired_all A S1 S2 hS b c!"replace" hc.2.1 (fun r h => hr r (.inr (.inl h)))) _ _ h2
    obtain ⟨h5, h6⟩ := paired_block (plus := false) (paired_all A S1 S2 hS body c!"replace" hc.2.2.1 (fun r h => hr r (.inr (.inr h)))) _ _ h4
    rw [h1, h3, h5]
    exact ⟨rfl, h6⟩
  | .allow neg name body, al, hc, hr => by
    intro m1 m2 hm
    simp only [Node.Ok] at hc
    simp only [Node.things, List.mem_cons] at hr
    simp only [Node.means]
    refine paired_bif (fun m1 m2 hm => ?_) m1 m2 hm
    try dsimp only
    obtain ⟨h1, h2⟩ := paired_block (plus := false) (paired_all A S1 S2 hS body c!"allow" hc.2.2 (fun r h => hr r (.inr h))) m1 m2 hm
    rw [h1, hS.words name (hr _ (.inl rfl))]
    exact ⟨rfl, h2⟩
  | .eval neg plus test body, al, hc, hr => by
    intro m1 m2 hm
    simp only [Node.Ok] at hc
    simp only [Node.things, List.mem_append] at hr
    simp only [Node.means]
    refine paired_bif (fun m1 m2 hm => ?_) m1 m2 hm
    try dsimp only
    obtain ⟨h1, h2⟩ := paired_block (plus := plus) (paired_all A S1 S2 hS test c!"eval" hc.1 (fun r h => hr r (.inl h))) m1 m2 hm
    have hb := paired_block (plus := plus) (paired_all A S1 S2 hS body c!"eval" hc.2.2 (fun r h => hr r (.inr h)))
    generalize blockOf plus (meansAll S1 c!"eval" test) m1 = r1 at h1 h2 ⊢
    generalize blockOf plus (meansAll S2 c!"eval" test) m2 = r2 at h1 h2 ⊢
    have hv : valueOf r1.2 c!"__eval__" = valueOf r2.2 c!"__eval__" := even_value h2 (by
      unfold localOf
      rw [if_neg (by rintro ⟨z, hz⟩; simp at hz)]
      simp)
    rw [h1, hv, hS.F]
    split
    · split
      · obtain ⟨h3, h4⟩ := hb { r1.2 with data := Obj.insert c!"__eval__" (.str r2.1) r1.2.data }
          { r2.2 with data := Obj.insert c!"__eval__" (.str r2.1) r2.2.data } (h2.set (by rw [h2.data]))
        exact ⟨h3, h4.set (by rw [h4.data])⟩
      · exact ⟨rfl, h2⟩
    · exact ⟨rfl, h2⟩
  | .hash body, al, hc, hr => by
    intro m1 m2 hm
    simp only [Node.Ok] at hc
    simp only [Node.things, List.mem_cons] at hr
    simp only [Node.means]
    refine paired_bif (fun m1 m2 hm => ?_) m1 m2 hm
    try dsimp only
    obtain ⟨h1, h2⟩ := paired_block (plus := false) (paired_all A S1 S2 hS body c!"hash" hc.1 (fun r h => hr r (.inr h))) m1 m2 hm
    rw [h1, hS.hash (hr _ (.inl rfl))]
    exact ⟨rfl, h2⟩
theorem paired_all (A : Thing → Prop) (S1 S2 : Site) (hS : Common A S1 S2) :
    ∀ (l : List Node) (al : Str), AllOk S1 al l → (∀ r ∈ thingsAll l, A r) → Paired A (meansAll S1 al l) (meansAll S2 al l)
  | [], al, _, _ => fun m1 m2 hm => by simp only [meansAll]; exact ⟨trivial, hm⟩
  | x :: l, al, hc, hr => fun m1 m2 hm => by
    simp only [AllOk] at hc
    simp only [thingsAll, List.mem_append] at hr
    simp only [meansAll]
    obtain ⟨h1, h2⟩ := paired_node A S1 S2 hS x al hc.1 (fun r h => hr r (.inl h)) m1 m2 hm
    obtain ⟨h3, h4⟩ := paired_all A S1 S2 hS l al hc.2 (fun r h => hr r (.inr h)) _ _ h2
    exact ⟨by rw [h1, h3], h4⟩
end

theorem common_start {S1 S2 : Site} {defs1 defs2 : Obj} {l : List Node} (hF : S1.F = S2.F) :
    Common (SameThing S1 S2 defs1 defs2) S1 S2 :=
  ⟨hF, fun h => h, fun h => h, fun h => h, fun _ h => h⟩

/-- **C117.** Two renders of the same template with the same data, whose definitions and options are the same in what the template
reads - the language and the translations (`trans`, `lang`), the parameters (`param`), the local data (`local::`), `filter_all`
(variables without the filter), the hash, the lists of words - give the same output, the same status, the same number of BIFs and the
same data in the end, however different the rest of the schema, the configuration, the files, the snippets, the clock and the random
numbers are. -/
theorem C117_render (env1 env2 : Env) (n1 n2 : Nat) (w1 w2 : World) (t1 t2 : Tpl) (S1 S2 : Site) (l : List Node) (sh1 sh2 : Shared)
    (s1 s2 d defs1 defs2 : Obj)
    (hnew1 : Shared.new env1 w1 t1.schema = some sh1) (hS1 : SiteOf env1 sh1 S1)
    (hnew2 : Shared.new env2 w2 t2.schema = some sh2) (hS2 : SiteOf env2 sh2 S2)
    (hok1 : AllOk S1 [] l) (hok2 : AllOk S2 [] l) (hraw1 : t1.raw = printAll l) (hraw2 : t2.raw = printAll l) (hb : c!"{:" <:+: printAll l)
    (hs1 : t1.schema = .obj s1) (hd1 : Obj.get? c!"data" s1 = some (.obj d)) (hinh1 : Obj.get? c!"inherit" s1 = some (.obj defs1))
    (hs2 : t2.schema = .obj s2) (hd2 : Obj.get? c!"data" s2 = some (.obj d)) (hinh2 : Obj.get? c!"inherit" s2 = some (.obj defs2))
    (hdefs1 : Defs S1 defs1) (hdefs2 : Defs S2 defs2)
    (hmax1 : (meansAll S1 [] l (startMem d defs1)).2.bifs ≤ sh1.max) (hmax2 : sh1.max ≤ sh2.max)
    (hcache : ¬ c!"{:!cache;" <:+: trim (meansAll S1 [] l (startMem d defs1)).1)
    (hF : S1.F = S2.F) (hsame : ∀ r ∈ thingsAll l, SameThing S1 S2 defs1 defs2 r) :
    ∃ t1' t2' d', t1.render env1 n1 w1 = .ok t1' ∧ t2.render env2 n2 w2 = .ok t2' ∧ t1'.out = t2'.out ∧
      t1'.statusCode = t2'.statusCode ∧ t1'.statusText = t2'.statusText ∧ t1'.statusParam = t2'.statusParam ∧
      t1'.hasError = t2'.hasError ∧ t1'.shared.count = t2'.shared.count ∧
      t1'.shared.schema.index c!"data" = .obj d' ∧ t2'.shared.schema.index c!"data" = .obj d' := by
  obtain ⟨h1, h2⟩ := paired_all (SameThing S1 S2 defs1 defs2) S1 S2 (common_start (l := l) hF) l [] hok1 hsame (startMem d defs1) (startMem d defs2)
    ⟨rfl, rfl, rfl, rfl, fun h => h, fun h => h, fun h => h⟩
  have h3 := h2.bifs
  obtain ⟨r1, t1', rfl, hr1, ht1, hx1⟩ := C77_render env1 n1 w1 t1 S1 l sh1 s1 d defs1 hnew1 hS1 hok1 hraw1 hb hs1 hd1 hinh1 hdefs1 hmax1 hcache
  obtain ⟨r2, t2', rfl, hr2, ht2, hx2⟩ := C77_render env2 n2 w2 t2 S2 l sh2 s2 d defs2 hnew2 hS2 hok2 hraw2 hb hs2 hd2 hinh2 hdefs2
    (by rw [← h3]; omega) (by rw [← h1]; exact hcache)
  refine ⟨t1', t2', _, hr1, hr2, ?_, ?_, ?_, ?_, ?_, ?_, hx1, ?_⟩
  · rw [ht1.out, ht2.out, h1]
  · rw [ht1.code, ht2.code]
  · rw [ht1.text, ht2.text]
  · rw [ht1.param, ht2.param]
  · rw [ht1.noError.1, ht2.noError.1]
  · rw [ht1.ran, ht2.ran, h3]
  · rw [hx2, h2.data]

/-- A page that reads none of the definitions but a list of words. -/
def Sample.stable : List Node :=
  [.text c!"<ul>", .each false c!"l" c!"k" c!"v" [.text c!" <li>", .var true c!"v", .text c!"</li> "], .text c!"</ul>",
    .code true [.setParam c!"who" [.var true c!"x"]], .allow false c!"any" [.var true c!"x"]]

/-- Definitions in another language, with other translations, parameters and local data, and without snippets. -/
def Sample.otherDefs : Obj := [
  (c!"locale", .obj [(c!"current", .str c!"es"), (c!"trans", .obj [(c!"es", .obj [(c!"Hi", .str c!"Hola")])])]),
  (c!"snippets", .obj []), (c!"snippets_set_dir", .obj []), (c!"declare", .obj [(c!"any", .str c!"*"), (c!"more", .str c!"a")]),
  (c!"params", .obj [(c!"who", .str c!"me")]), (c!"data", .obj [])]

/-- Their site. -/
def Sample.otherSite : Site where
  F := Sample.env.f64
  filterAll := false
  sanitize := true
  lang := c!"es"
  file := fun _ => none
  json := Sample.env.jsonParse
  md5 := Sample.env.md5
  snippets := .obj []
  declared := .obj [(c!"any", .str c!"*"), (c!"more", .str c!"a")]

theorem Sample.stable_ok (S : Site) (h : wordsOf S c!"any" = [c!"*"]) : AllOk S [] Sample.stable := by
  simp only [Sample.stable, AllOk, Node.Ok, and_true, true_and]
  exact ⟨textOk_of (by decide), ⟨nameOk_of (by decide), ⟨nameOk_of (by decide), by decide⟩, ⟨nameOk_of (by decide), by decide⟩,
      textOk_of (by decide), nameOk_of (by decide), textOk_of (by decide)⟩, textOk_of (by decide),
    ⟨nameOk_of (by decide), nameOk_of (by decide)⟩, nameOk_of (by decide), by rw [h]; decide, nameOk_of (by decide)⟩

set_option maxRecDepth 10000 in
/-- The premises of C117 are met: another language, other translations, parameters, local data and snippets, another limit, no files. -/
example : ∃ t1' t2' d', (Sample.tpl (Sample.schema 1000 Sample.hostile Sample.pageDefs) (printAll Sample.stable)).render Sample.env 10
      Sample.pageWorld = .ok t1' ∧
    (Sample.tpl (Sample.schema 2000 Sample.hostile Sample.otherDefs) (printAll Sample.stable)).render Sample.env 10
      ⟨fun _ => none, 7⟩ = .ok t2' ∧ t1'.out = t2'.out ∧
      t1'.statusCode = t2'.statusCode ∧ t1'.statusText = t2'.statusText ∧ t1'.statusParam = t2'.statusParam ∧
      t1'.hasError = t2'.hasError ∧ t1'.shared.count = t2'.shared.count ∧
      t1'.shared.schema.index c!"data" = .obj d' ∧ t2'.shared.schema.index c!"data" = .obj d' :=
  C117_render Sample.env Sample.env 10 10 Sample.pageWorld ⟨fun _ => none, 7⟩ _ _ Sample.pageSite Sample.otherSite Sample.stable _ _ _ _
    Sample.hostile Sample.pageDefs Sample.otherDefs rfl
    ⟨rfl, rfl, rfl, rfl, rfl, rfl, Sample.page_file⟩ rfl ⟨rfl, rfl, rfl, rfl, rfl, rfl, fun _ _ h => nomatch h⟩
    (Sample.stable_ok _ (by decide +kernel)) (Sample.stable_ok _ (by decide +kernel)) rfl rfl (by decide +kernel) rfl rfl rfl rfl rfl rfl
    ⟨.inr ⟨_, rfl⟩, rfl, rfl⟩ ⟨.inr ⟨_, rfl⟩, rfl, rfl⟩ (by decide +kernel) (by decide) (by decide +kernel) rfl (by
      have e : thingsAll Sample.stable = [.words c!"any"] := by decide
      rw [e]
      intro r hr
      simp only [List.mem_singleton] at hr
      subst hr
      show wordsOf Sample.pageSite c!"any" = wordsOf Sample.otherSite c!"any"
      decide +kernel)

set_option maxRecDepth 10000 in
/-- **C117 (what is read matters).** With the two definitions, pages that read the language, the translations, the parameters, or the local
data differ. -/
theorem C117_reads_matter :
    (∀ p ∈ [(c!"{:lang;:}", c!"en", c!"es"), (c!"{:trans; Hi :}", c!"Hello", c!"Hola"), (c!"{:param; who :}{:else; - :}", c!"-", c!"me"),
        (c!"{:;local::y:}{:else; - :}", c!"7", c!"-")],
      Sample.outOf ((Sample.tpl (Sample.schema 1000 [] Sample.pageDefs) p.1).render Sample.env 10 Sample.pageWorld) = some (p.2.1, c!"200") ∧
      Sample.outOf ((Sample.tpl (Sample.schema 1000 [] Sample.otherDefs) p.1).render Sample.env 10 Sample.pageWorld) = some (p.2.2, c!"200")) := by
  decide +kernel

end Nts
