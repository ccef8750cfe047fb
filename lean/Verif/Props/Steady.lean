import Verif.Props.Invisible
/-
C121, the templates: those that leave no trace show the same to every request with the same data and the same definitions.
-/
set_option autoImplicit false
namespace Nts
open Spec

/-- Two memories with the same data and definitions, and the same remembered output as far as it is known. -/
structure Near (b c : Bool) (m m' : Mem) : Prop where
  data : m.data = m'.data
  defs : m.defs = m'.defs
  last : b = true → m.last = m'.last
  lastC : c = true → m.lastC = m'.lastC

/-- From near memories: the same output, and near memories. -/
def Det (b c b' c' : Bool) (run run' : Mem → Str × Mem) : Prop :=
  ∀ m m', Near b c m m' → (run m).1 = (run' m').1 ∧ Near b' c' (run m).2 (run' m').2

theorem Near.weak {b c : Bool} {m m' : Mem} (h : Near b c m m') : Near false false m m' :=
  ⟨h.data, h.defs, (fun e => nomatch e), (fun e => nomatch e)⟩

theorem Det.weak {b c b' c' : Bool} {run run' : Mem → Str × Mem} (h : Det b c b' c' run run') : Det b c false false run run' :=
  fun m m' hm => ⟨(h m m' hm).1, (h m m' hm).2.weak⟩

theorem Near.value {b c : Bool} {m m' : Mem} (h : Near b c m m') (name : Str) : valueOf m name = valueOf m' name := by
  unfold valueOf
  rw [h.data, h.defs]

theorem Near.count {b c : Bool} {m m' : Mem} (h : Near b c m m') : Near b c { m with bifs := m.bifs + 1 } { m' with bifs := m'.bifs + 1 } :=
  ⟨h.data, h.defs, h.last, h.lastC⟩

theorem det_block {b c : Bool} (plus : Bool) {run run' : Mem → Str × Mem} (h : Det b c false false run run') :
    Det b c b c (blockOf plus run) (blockOf plus run') := by
  intro m m' hm
  obtain ⟨h1, h2⟩ := h m m' hm
  refine ⟨by simp only [blockOf, h1], h2.data, ?_, hm.last, hm.lastC⟩
  simp only [blockOf]
  split
  · exact h2.defs
  · exact hm.defs

theorem det_arg {b c : Bool} (text : Str) {run run' : Mem → Str × Mem} (h : Det b c false false run run') :
    Det b c b c (argOf text run) (argOf text run') := by
  intro m m' hm
  unfold argOf
  split
  · exact det_block false h m m' hm
  · exact ⟨rfl, hm⟩

theorem det_loop {b c : Bool} (plus : Bool) {run run' : Mem → Str × Mem} (h : Det b c false false run run') :
    ∀ l, Det b c b c (loopOf plus run l) (loopOf plus run' l)
  | [], m, m', hm => ⟨rfl, hm⟩
  | vs :: l, m, m', hm => by
    obtain ⟨h1, h2⟩ := det_block plus h { m with data := setAll vs m.data } { m' with data := setAll vs m'.data }
      ⟨by rw [hm.data], hm.defs, hm.last, hm.lastC⟩
    obtain ⟨g1, g2⟩ := det_loop plus h l _ _ h2
    simp only [loopOf]
    exact ⟨by rw [h1, g1], g2⟩

theorem det_bif {b c : Bool} {al : Str} (hg : (decide (al ≠ c!"coalesce") || c) = true) {run run' : Mem → Str × Mem}
    (h : Det b c false false run run') :
    Det b c (b || (true && decide (al ≠ c!"coalesce"))) (c || true) (bifOf al run) (bifOf al run') := by
  intro m m' hm
  obtain ⟨h1, h2⟩ := h _ _ hm.count
  have hset : ∀ b' c', Near b' c'
      { (run { m with bifs := m.bifs + 1 }).2 with last := !(run { m with bifs := m.bifs + 1 }).1.isEmpty, lastC := !(run { m with bifs := m.bifs + 1 }).1.isEmpty }
      { (run' { m' with bifs := m'.bifs + 1 }).2 with last := !(run' { m' with bifs := m'.bifs + 1 }).1.isEmpty, lastC := !(run' { m' with bifs := m'.bifs + 1 }).1.isEmpty } :=
    fun _ _ => ⟨h2.data, h2.defs, fun _ => by rw [h1], fun _ => by rw [h1]⟩
  by_cases hal : al = c!"coalesce"
  · have hc : c = true := by simpa [hal] using hg
    have hl := hm.lastC hc
    unfold bifOf
    by_cases hlc : m.lastC = true
    · rw [if_pos ⟨hal, hlc⟩, if_pos ⟨hal, hl ▸ hlc⟩]
      refine ⟨rfl, hm.data, hm.defs, fun e => hm.last ?_, fun _ => hl⟩
      simpa [hal] using e
    · rw [if_neg (fun h => hlc h.2), if_neg (fun h => hlc (hl ▸ h.2))]
      exact ⟨congrArg trim h1, hset _ _⟩
  · unfold bifOf
    rw [if_neg (fun h => hal h.1), if_neg (fun h => hal h.1)]
    exact ⟨congrArg trim h1, hset _ _⟩

theorem near_entry {b c : Bool} {m m' : Mem} (h : Near b c m m') (k : Str) : entry m.defs k = entry m'.defs k := by rw [h.defs]

mutual
theorem det_node (S : Site) : ∀ (x : Node) (al : Str) (b c : Bool), x.settled al b c = true →
    Det b c (b || (x.active && decide (al ≠ c!"coalesce"))) (c || x.active) (x.means S al) (x.means S al)
  | .text t, al, b, c, _ => by
    intro m m' hm
    simp only [Node.means, Node.active, Bool.false_and, Bool.or_false]
    exact ⟨trivial, hm⟩
  | .var amp name, al, b, c, h => by
    simp only [Node.settled] at h
    refine det_bif h ?_
    intro m m' hm
    exact ⟨by simp only [hm.value], hm.weak⟩
  | .cond neg plus kind name body, al, b, c, h => by
    simp only [Node.settled, Bool.and_eq_true] at h
    refine det_bif h.1 ?_
    intro m m' hm
    simp only [hm.value]
    split
    · exact ⟨rfl, hm.weak⟩
    · exact (det_block plus (det_all S body kind b c h.2)).weak m m' hm
  | .cmp neg plus kind x y body, al, b, c, h => by
    simp only [Node.settled, Bool.and_eq_true] at h
    refine det_bif h.1 ?_
    intro m m' hm
    obtain ⟨h1, h2⟩ := det_arg (printAll x) (det_all S x kind b c h.2.1) m m' hm
    obtain ⟨g1, g2⟩ := det_arg (printAll y) (det_all S y kind b c h.2.2.1) _ _ h2
    simp only [h1, g1]
    split
    · exact ⟨rfl, g2.weak⟩
    · exact (det_block plus (det_all S body kind b c h.2.2.2)).weak _ _ g2
  | .els neg plus body, al, b, c, h => by
    simp only [Node.settled, Bool.and_eq_true] at h
    refine det_bif h.1 ?_
    intro m m' hm
    simp only [hm.last h.2.1]
    split
    · exact (det_block plus (det_all S body _ b c h.2.2)).weak m m' hm
    · exact ⟨rfl, hm.weak⟩
  | .coalesce plus body, al, b, c, h => by
    simp only [Node.settled, Bool.and_eq_true] at h
    refine det_bif h.1 ?_
    intro m m' hm
    exact (det_block plus (det_all S body _ b true h.2)).weak _ _ ⟨hm.data, hm.defs, hm.last, fun _ => rfl⟩
  | .code plus body, al, b, c, h => by
    simp only [Node.settled, Bool.and_eq_true] at h
    exact det_bif h.1 (det_block plus (det_all S body _ b c h.2)).weak
  | .each plus coll key val body, al, b, c, h => by
    simp only [Node.settled, Bool.and_eq_true] at h
    refine det_bif h.1 ?_
    intro m m' hm
    obtain ⟨h1, h2⟩ := (det_loop plus (det_all S body _ b c h.2)
      ((elementsOf (valueOf m coll)).map (fun kv => [(key, .str kv.1), (val, kv.2)]))) m m' hm
    dsimp only
    rw [hm.value] at h1 h2 ⊢
    exact ⟨h1, by simp only [h2.data, hm.data], h2.defs, (fun e => nomatch e), (fun e => nomatch e)⟩
  | .range plus v x y body, al, b, c, h => by
    simp only [Node.settled, Bool.and_eq_true] at h
    refine det_bif h.1 ?_
    intro m m' hm
    obtain ⟨h1, h2⟩ := (det_loop plus (det_all S body _ b c h.2) ((span x y).map (fun i => [(v, .str (showInt i))]))) m m' hm
    exact ⟨h1, by simp only [h2.data, hm.value], h2.defs, (fun e => nomatch e), (fun e => nomatch e)⟩
  | .param name, al, b, c, h => by
    simp only [Node.settled] at h
    refine det_bif h ?_
    intro m m' hm
    exact ⟨by simp only [near_entry hm], hm.weak⟩
  | .setParam name body, al, b, c, h => by
    simp only [Node.settled, Bool.and_eq_true] at h
    refine det_bif h.1 ?_
    intro m m' hm
    obtain ⟨h1, h2⟩ := det_block false (det_all S body _ b c h.2) m m' hm
    exact ⟨rfl, h2.data, by simp only [h1, h2.defs, paramsOf], (fun e => nomatch e), (fun e => nomatch e)⟩
  | .trans neg body, al, b, c, h => by
    simp only [Node.settled, Bool.and_eq_true] at h
    refine det_bif h.1 ?_
    intro m m' hm
    obtain ⟨h1, h2⟩ := det_block false (det_all S body _ b c h.2) m m' hm
    have ht : ∀ t, translated S m t = translated S m' t := fun t => by unfold translated; rw [near_entry hm]
    exact ⟨by simp only [h1, ht], h2.weak⟩
  | .incl path body, al, b, c, h => by
    simp only [Node.settled, Bool.and_eq_true] at h
    exact det_bif h.1 (det_block true (det_all S body _ b c h.2)).weak
  | .snippet kind name body, al, b, c, h => by
    simp only [Node.settled, Bool.and_eq_true] at h
    exact det_bif h.1 (det_block _ (det_all S body _ b c h.2)).weak
  | .leaf k, al, b, c, h => by
    simp only [Node.settled] at h
    refine det_bif h ?_
    intro m m' hm
    cases k with
    | load locale path v => exact ⟨rfl, hm.data, by simp only [Leaf.effect, hm.defs], (fun e => nomatch e), (fun e => nomatch e)⟩
    | join keys name sep => exact ⟨by simp only [Leaf.shown, hm.value], hm.weak⟩
    | _ => exact ⟨rfl, hm.weak⟩
  | .replace x y body, al, b, c, h => by
    simp only [Node.settled, Bool.and_eq_true] at h
    refine det_bif h.1 ?_
    intro m m' hm
    obtain ⟨h1, h2⟩ := det_arg (printAll x) (det_all S x _ b c h.2.1) m m' hm
    obtain ⟨g1, g2⟩ := det_arg (printAll y) (det_all S y _ b c h.2.2.1) _ _ h2
    obtain ⟨k1, k2⟩ := det_block false (det_all S body _ b c h.2.2.2) _ _ g2
    exact ⟨by simp only [h1, g1, k1], k2.weak⟩
  | .allow neg name body, al, b, c, h => by
    simp only [Node.settled, Bool.and_eq_true] at h
    refine det_bif h.1 ?_
    intro m m' hm
    obtain ⟨h1, h2⟩ := det_block false (det_all S body _ b c h.2) m m' hm
    exact ⟨by simp only [h1], h2.weak⟩
  | .eval neg plus test body, al, b, c, h => by
    simp only [Node.settled, Bool.and_eq_true] at h
    refine det_bif h.1 ?_
    intro m m' hm
    obtain ⟨h1, h2⟩ := det_block plus (det_all S test _ b c h.2.1) m m' hm
    have h3 := h2.value c!"__eval__"
    dsimp only
    revert h1 h2 h3
    generalize blockOf plus (meansAll S c!"eval" test) m = rt
    generalize blockOf plus (meansAll S c!"eval" test) m' = rt'
    intro h1 h2 h3
    simp only [h1]
    split
    · split
      · obtain ⟨g1, g2⟩ := det_block plus (det_all S body _ b c h.2.2) { rt.2 with data := Obj.insert c!"__eval__" (.str rt'.1) rt.2.data }
          { rt'.2 with data := Obj.insert c!"__eval__" (.str rt'.1) rt'.2.data } ⟨by rw [h2.data], h2.defs, h2.last, h2.lastC⟩
        exact ⟨g1, by simp only [g2.data, h3], g2.defs, (fun e => nomatch e), (fun e => nomatch e)⟩
      · exact ⟨rfl, h2.weak⟩
    · exact ⟨rfl, h2.weak⟩
  | .hash body, al, b, c, h => by
    simp only [Node.settled, Bool.and_eq_true] at h
    refine det_bif h.1 ?_
    intro m m' hm
    obtain ⟨h1, h2⟩ := det_block false (det_all S body _ b c h.2) m m' hm
    exact ⟨by simp only [h1], h2.weak⟩

theorem det_all (S : Site) : ∀ (l : List Node) (al : Str) (b c : Bool), settledAll al b c l = true →
    Det b c false false (meansAll S al l) (meansAll S al l)
  | [], al, b, c, _ => fun m m' hm => by
    simp only [meansAll]
    exact ⟨trivial, hm.weak⟩
  | x :: l, al, b, c, h => by
    simp only [settledAll, Bool.and_eq_true] at h
    intro m m' hm
    obtain ⟨h1, h2⟩ := det_node S x al b c h.1 m m' hm
    obtain ⟨g1, g2⟩ := det_all S l al _ _ h.2 _ _ h2
    simp only [meansAll]
    exact ⟨by rw [h1, g1], g2⟩
end

/-! ### What is kept -/

/-- The data are kept. -/
def KeepsData (run : Mem → Str × Mem) : Prop := ∀ m, (run m).2.data = m.data

/-- The definitions are kept. -/
def KeepsDefs (run : Mem → Str × Mem) : Prop := ∀ m, (run m).2.defs = m.defs

theorem kd_block (plus : Bool) {run : Mem → Str × Mem} (h : KeepsData run) : KeepsData (blockOf plus run) := fun m => h m

theorem kd_arg (text : Str) {run : Mem → Str × Mem} (h : KeepsData run) : KeepsData (argOf text run) := by
  intro m
  unfold argOf
  split
  · exact h m
  · rfl

theorem kd_bif (al : Str) {run : Mem → Str × Mem} (h : KeepsData run) : KeepsData (bifOf al run) := by
  intro m
  unfold bifOf
  split
  · rfl
  · exact h _

theorem kf_block (plus : Bool) {run : Mem → Str × Mem} (h : plus = true → KeepsDefs run) : KeepsDefs (blockOf plus run) := by
  intro m
  simp only [blockOf]
  split
  · rename_i hp
    exact h hp m
  · rfl

theorem kf_arg (text : Str) {run : Mem → Str × Mem} : KeepsDefs (argOf text run) := by
  intro m
  unfold argOf
  split <;> rfl

theorem kf_loop (plus : Bool) {run : Mem → Str × Mem} (h : plus = true → KeepsDefs run) : ∀ l, KeepsDefs (loopOf plus run l)
  | [], m => rfl
  | vs :: l, m => by
    simp only [loopOf]
    rw [kf_loop plus h l _]
    exact kf_block plus h _

theorem kf_bif (al : Str) {run : Mem → Str × Mem} (h : KeepsDefs run) : KeepsDefs (bifOf al run) := by
  intro m
  unfold bifOf
  split
  · rfl
  · exact h _

mutual
theorem kd_node (S : Site) : ∀ (x : Node) (al : Str), x.keepsData = true → KeepsData (x.means S al)
  | .text _, al, _ => fun m => by simp only [Node.means]
  | .var _ _, al, _ => kd_bif al (fun _ => rfl)
  | .param _, al, _ => kd_bif al (fun _ => rfl)
  | .leaf k, al, _ => kd_bif al (fun m => by cases k <;> rfl)
  | .each _ _ _ _ _, _, h => by simp [Node.keepsData] at h
  | .range _ _ _ _ _, _, h => by simp [Node.keepsData] at h
  | .eval _ _ _ _, _, h => by simp [Node.keepsData] at h
  | .cond neg plus kind name body, al, h => by
    simp only [Node.keepsData] at h
    refine kd_bif al (fun m => ?_)
    split
    · rfl
    · exact kd_block plus (kd_all S body kind h) m
  | .els neg plus body, al, h => by
    simp only [Node.keepsData] at h
    refine kd_bif al (fun m => ?_)
    split
    · exact kd_block plus (kd_all S body _ h) m
    · rfl
  | .coalesce plus body, al, h => by
    simp only [Node.keepsData] at h
    exact kd_bif al (fun m => kd_block plus (kd_all S body _ h) _)
  | .code plus body, al, h => by
    simp only [Node.keepsData] at h
    exact kd_bif al (kd_block plus (kd_all S body _ h))
  | .setParam name body, al, h => by
    simp only [Node.keepsData] at h
    exact kd_bif al (fun m => kd_block false (kd_all S body _ h) m)
  | .trans neg body, al, h => by
    simp only [Node.keepsData] at h
    exact kd_bif al (fun m => kd_block false (kd_all S body _ h) m)
  | .incl path body, al, h => by
    simp only [Node.keepsData] at h
    exact kd_bif al (kd_block true (kd_all S body _ h))
  | .snippet kind name body, al, h => by
    simp only [Node.keepsData] at h
    exact kd_bif al (kd_block _ (kd_all S body _ h))
  | .allow neg name body, al, h => by
    simp only [Node.keepsData] at h
    exact kd_bif al (fun m => kd_block false (kd_all S body _ h) m)
  | .hash body, al, h => by
    simp only [Node.keepsData] at h
    exact kd_bif al (fun m => kd_block false (kd_all S body _ h) m)
  | .cmp neg plus kind x y body, al, h => by
    simp only [Node.keepsData, Bool.and_eq_true] at h
    refine kd_bif al (fun m => ?_)
    have h1 := kd_arg (printAll x) (kd_all S x kind h.1) m
    have h2 := kd_arg (printAll y) (kd_all S y kind h.2.1) (argOf (printAll x) (meansAll S kind x) m).2
    dsimp only
    split
    · rw [h2, h1]
    · rw [kd_block plus (kd_all S body kind h.2.2), h2, h1]
  | .replace x y body, al, h => by
    simp only [Node.keepsData, Bool.and_eq_true] at h
    refine kd_bif al (fun m => ?_)
    have h1 := kd_arg (printAll x) (kd_all S x c!"replace" h.1) m
    have h2 := kd_arg (printAll y) (kd_all S y c!"replace" h.2.1) (argOf (printAll x) (meansAll S c!"replace" x) m).2
    dsimp only
    rw [kd_block false (kd_all S body c!"replace" h.2.2), h2, h1]

theorem kd_all (S : Site) : ∀ (l : List Node) (al : Str), keepsDataAll l = true → KeepsData (meansAll S al l)
  | [], al, _ => fun m => by simp only [meansAll]
  | x :: l, al, h => by
    simp only [keepsDataAll, Bool.and_eq_true] at h
    intro m
    simp only [meansAll]
    rw [kd_all S l al h.2, kd_node S x al h.1]
end

theorem or_plus {plus b : Bool} (h : (!plus || b) = true) : plus = true → b = true := by
  intro hp
  simpa [hp] using h

mutual
theorem kf_node (S : Site) : ∀ (x : Node) (al : Str), x.keepsDefs = true → KeepsDefs (x.means S al)
  | .text _, al, _ => fun m => by simp only [Node.means]
  | .var _ _, al, _ => kf_bif al (fun _ => rfl)
  | .param _, al, _ => kf_bif al (fun _ => rfl)
  | .leaf k, al, h => kf_bif al (fun m => by
      cases k with
      | load _ _ _ => simp [Node.keepsDefs] at h
      | _ => rfl)
  | .setParam _ _, _, h => by simp [Node.keepsDefs] at h
  | .trans neg body, al, _ => kf_bif al (fun m => kf_block false (fun e => nomatch e) m)
  | .allow neg name body, al, _ => kf_bif al (fun m => kf_block false (fun e => nomatch e) m)
  | .hash body, al, _ => kf_bif al (fun m => kf_block false (fun e => nomatch e) m)
  | .replace x y body, al, _ => kf_bif al (fun m => by
      dsimp only
      rw [kf_block false (fun e => nomatch e), kf_arg, kf_arg])
  | .cond neg plus kind name body, al, h => by
    simp only [Node.keepsDefs] at h
    refine kf_bif al (fun m => ?_)
    split
    · rfl
    · exact kf_block plus (fun hp => kf_all S body kind (or_plus h hp)) m
  | .cmp neg plus kind x y body, al, h => by
    simp only [Node.keepsDefs] at h
    refine kf_bif al (fun m => ?_)
    dsimp only
    split
    · rw [kf_arg, kf_arg]
    · rw [kf_block plus (fun hp => kf_all S body kind (or_plus h hp)), kf_arg, kf_arg]
  | .els neg plus body, al, h => by
    simp only [Node.keepsDefs] at h
    refine kf_bif al (fun m => ?_)
    split
    · exact kf_block plus (fun hp => kf_all S body _ (or_plus h hp)) m
    · rfl
  | .coalesce plus body, al, h => by
    simp only [Node.keepsDefs] at h
    exact kf_bif al (fun m => kf_block plus (fun hp => kf_all S body _ (or_plus h hp)) _)
  | .code plus body, al, h => by
    simp only [Node.keepsDefs] at h
    exact kf_bif al (kf_block plus (fun hp => kf_all S body _ (or_plus h hp)))
  | .each plus coll key val body, al, h => by
    simp only [Node.keepsDefs] at h
    exact kf_bif al (fun m => kf_loop plus (fun hp => kf_all S body _ (or_plus h hp)) _ m)
  | .range plus v x y body, al, h => by
    simp only [Node.keepsDefs] at h
    exact kf_bif al (fun m => kf_loop plus (fun hp => kf_all S body _ (or_plus h hp)) _ m)
  | .eval neg plus test body, al, h => by
    simp only [Node.keepsDefs] at h
    have ht := fun m => kf_block plus (run := meansAll S c!"eval" test)
      (fun hp => kf_all S test _ (by have := or_plus h hp; simp only [Bool.and_eq_true] at this; exact this.1)) m
    have hb := fun m => kf_block plus (run := meansAll S c!"eval" body)
      (fun hp => kf_all S body _ (by have := or_plus h hp; simp only [Bool.and_eq_true] at this; exact this.2)) m
    refine kf_bif al (fun m => ?_)
    dsimp only
    split
    · split
      · rw [hb]
        exact ht m
      · exact ht m
    · exact ht m
  | .incl path body, al, h => by
    simp only [Node.keepsDefs] at h
    exact kf_bif al (kf_block true (fun _ => kf_all S body _ h))
  | .snippet kind name body, al, h => by
    simp only [Node.keepsDefs] at h
    exact kf_bif al (kf_block _ (fun _ => kf_all S body _ h))

theorem kf_all (S : Site) : ∀ (l : List Node) (al : Str), keepsDefsAll l = true → KeepsDefs (meansAll S al l)
  | [], al, _ => fun m => by simp only [meansAll]
  | x :: l, al, h => by
    simp only [keepsDefsAll, Bool.and_eq_true] at h
    intro m
    simp only [meansAll]
    rw [kf_all S l al h.2, kf_node S x al h.1]
end

/-- **C121 (templates without traces).** A template that looks at no BIF before it, sets no data and sets no definitions outside blocks of their own
shows the same to every request of the site with the same data and the same definitions, and leaves them: whatever was evaluated before it. -/
theorem C121_steady (S : Site) (data defs : Obj) (al : Str) (l : List Node) (h : settledAll al false false l = true)
    (hd : keepsDataAll l = true) (hf : keepsDefsAll l = true) : (kindOf S data defs).Steady al l := by
  intro m hm hmf
  refine ⟨?_, ?_, ?_⟩
  · exact (det_all S l al false false h m ⟨data, defs, false, false, 0⟩ ⟨hm, hmf, (fun e => nomatch e), (fun e => nomatch e)⟩).1
  · show (meansAll S al l m).2.data = data
    rw [kd_all S l al hd m]
    exact hm
  · show (meansAll S al l m).2.defs = defs
    rw [kf_all S l al hf m]
    exact hmf

mutual
/-- All the templates of a part are without traces. -/
def Spec.Chunk.traceless (al : Str) : Chunk → Bool
  | .plain l => settledAll al false false l && (keepsDataAll l && keepsDefsAll l)
  | .cached _ _ _ body => tracelessAll c!"cache" body
/-- Those of a page. -/
def Spec.tracelessAll (al : Str) : List Chunk → Bool
  | [] => true
  | x :: l => x.traceless al && tracelessAll al l
end

mutual
theorem steady_chunk (S : Site) (data defs : Obj) : ∀ (x : Chunk) (al : Str), x.traceless al = true → (kindOf S data defs).SteadyIn al x
  | .plain l, al, h => by
    simp only [Chunk.traceless, Bool.and_eq_true] at h
    simp only [Kind.SteadyIn]
    exact C121_steady S data defs al l h.1 h.2.1 h.2.2
  | .cached _ _ _ body, al, h => by
    simp only [Chunk.traceless] at h
    simp only [Kind.SteadyIn]
    exact steady_chunks S data defs body _ h
theorem steady_chunks (S : Site) (data defs : Obj) : ∀ (l : List Chunk) (al : Str), tracelessAll al l = true → (kindOf S data defs).SteadyAll al l
  | [], al, _ => by simp only [Kind.SteadyAll]
  | x :: l, al, h => by
    simp only [tracelessAll, Bool.and_eq_true] at h
    simp only [Kind.SteadyAll]
    exact ⟨steady_chunk S data defs x al h.1, steady_chunks S data defs l al h.2⟩
end

/-- **C121 (repeated requests).** Requests of one site with the same data and the same definitions, for pages whose templates are without traces: in every history
of such requests from a cache without entries, whatever the lifetimes and the clock, a page shows exactly what it shows to the same request where the cache is
disabled. -/
theorem C121_repeated (env : Env) (C : Caching) (known : Chunk → Prop) (hsep : Separate env C known) (S : Site) (data defs : Obj) (w0 w : World)
    (h : Served env C known (· = kindOf S data defs) w0 w) (h0 : ∀ text expires, w0.fs (entryFile env C.dir C.pre text expires) = none)
    (l : List Chunk) (hl : ∀ x ∈ l, known x) (ht : tracelessAll [] l = true) (m : Mem) (hd : m.data = data) (hdf : m.defs = defs) (w' : World) :
    (piecesMean env S C [] l m w).1 = (piecesMean env S { C with disabled := true } [] l m w').1 := by
  have hs := steady_chunks S data defs l [] ht
  rw [C121_same env C known hsep S data defs w0 w h h0 l hl hs m hd hdf]
  exact (C121_without env { C with disabled := true } rfl (kindOf S data defs) l hs m w' hd hdf).symm

/-! Examples. -/

/-- The page in `C118` is without traces. -/
theorem Sample.nest_traceless : tracelessAll [] Sample.nestPage = true := by decide +kernel

/-- A larger template without traces: a condition with an `else`, a comparison, a `coalesce`, a translation and a parameter set in its own block. -/
example : settledAll c!"cache" false false [.text c!"<p>", .cond false false c!"filled" c!"x" [.var true c!"x"], .els false false [.text c!"-"],
      .coalesce false [.var false c!"a", .var false c!"b"], .code false [.setParam c!"p" [.text c!"1"], .param c!"p"],
      .cmp false true c!"same" [.var false c!"x"] [.text c!"A"] [.trans false [.text c!"Hi"]]] = true ∧
    keepsDataAll [.text c!"<p>", .cond false false c!"filled" c!"x" [.var true c!"x"], .els false false [.text c!"-"],
      .coalesce false [.var false c!"a", .var false c!"b"], .code false [.setParam c!"p" [.text c!"1"], .param c!"p"],
      .cmp false true c!"same" [.var false c!"x"] [.text c!"A"] [.trans false [.text c!"Hi"]]] = true ∧
    keepsDefsAll [.text c!"<p>", .cond false false c!"filled" c!"x" [.var true c!"x"], .els false false [.text c!"-"],
      .coalesce false [.var false c!"a", .var false c!"b"], .code false [.setParam c!"p" [.text c!"1"], .param c!"p"],
      .cmp false true c!"same" [.var false c!"x"] [.text c!"A"] [.trans false [.text c!"Hi"]]] = true := by decide +kernel

/-- The first request. -/
theorem Sample.nest_served (x : Str) : Served Sample.envC Sample.caching Sample.nestKnown
    (· = kindOf Sample.pageSite (startMem [(c!"x", .str x)] Sample.pageDefs).data Sample.pageDefs) Sample.pageWorld
    (piecesMean Sample.envC Sample.pageSite Sample.caching [] Sample.nestPage (startMem [(c!"x", .str x)] Sample.pageDefs) Sample.pageWorld).2.2 :=
  .ask (kindOf Sample.pageSite (startMem [(c!"x", .str x)] Sample.pageDefs).data Sample.pageDefs) Sample.nestPage (startMem [(c!"x", .str x)] Sample.pageDefs)
    .start rfl (fun x hx => .inl (by simpa [Sample.nestPage] using hx)) (steady_chunks _ _ _ _ _ Sample.nest_traceless) rfl rfl

set_option maxRecDepth 10000 in
/-- The second request finds the outer entry (it counts one BIF, the first counted four), and shows the same as without the cache. -/
example : ∃ w, w = (piecesMean Sample.envC Sample.pageSite Sample.caching [] Sample.nestPage (startMem [(c!"x", .str c!"A")] Sample.pageDefs)
      Sample.pageWorld).2.2 ∧
    (piecesMean Sample.envC Sample.pageSite Sample.caching [] Sample.nestPage (startMem [(c!"x", .str c!"A")] Sample.pageDefs) w).2.1.bifs = 1 ∧
    (piecesMean Sample.envC Sample.pageSite Sample.caching [] Sample.nestPage (startMem [(c!"x", .str c!"A")] Sample.pageDefs) w).1 =
      (piecesMean Sample.envC Sample.pageSite { Sample.caching with disabled := true } [] Sample.nestPage (startMem [(c!"x", .str c!"A")] Sample.pageDefs) w).1 ∧
    (piecesMean Sample.envC Sample.pageSite { Sample.caching with disabled := true } [] Sample.nestPage (startMem [(c!"x", .str c!"A")] Sample.pageDefs) w).2.1.bifs = 4 :=
  ⟨_, rfl, by decide +kernel,
    C121_repeated Sample.envC Sample.caching Sample.nestKnown Sample.nest_separate Sample.pageSite _ Sample.pageDefs _ _ (Sample.nest_served c!"A")
      Sample.no_entries Sample.nestPage (fun x hx => .inl (by simpa [Sample.nestPage] using hx)) Sample.nest_traceless _ rfl rfl _,
    by decide +kernel⟩

set_option maxRecDepth 10000 in
/-- The render of the first request: the premises of `C121_render` are met. -/
example : ∃ t', Sample.askNest Sample.nestPage c!"X" Sample.pageWorld = .ok t' ∧ t'.out = c!"X <b>X</b>" := by
  obtain ⟨t', h1, h2, _⟩ := C121_render Sample.envC 10 Sample.pageWorld Sample.pageWorld
    (Sample.tpl (Sample.schema 1000 [(c!"x", .str c!"X")] Sample.pageDefs) (printPieces Sample.nestPage))
    (kindOf Sample.pageSite (startMem [(c!"x", .str c!"X")] Sample.pageDefs).data Sample.pageDefs) Sample.caching Sample.nestPage _ _
    [(c!"x", .str c!"X")] Sample.pageDefs rfl (Sample.page_site rfl).1 (Sample.page_site rfl).2
    ⟨fun _ _ => rfl, fun _ _ => rfl, fun _ _ => rfl⟩ Sample.page_apart Sample.nest_sane Sample.nestPage_ok rfl (by decide +kernel) rfl rfl rfl
    ⟨.inr ⟨_, rfl⟩, rfl, rfl⟩ (by decide +kernel) Sample.nestKnown (· = kindOf Sample.pageSite (startMem [(c!"x", .str c!"X")] Sample.pageDefs).data Sample.pageDefs)
    (by
      rintro e i o body e' i' o' body' h1 h2 k k' data data' rfl rfl _ _ hfile
      rw [Sample.nest_separate.entries _ _ _ _ _ _ _ _ h1 h2 _ _ _ _ hfile])
    Sample.nest_separate.inner .start Sample.no_entries rfl (fun x hx => .inl (by simpa [Sample.nestPage] using hx))
    (steady_chunks _ _ _ _ _ Sample.nest_traceless) rfl rfl (by decide +kernel)
  exact ⟨t', h1, h2.trans (by decide +kernel)⟩

/-- A page with a cached part that leaves a trace: the variable of its loop is defined afterwards. -/
def Sample.tracePage : Str := c!"{:cache; /100/ >> {:for; i 1..3 >> {:;i:} :} :}{:defined; i >> yes :}"

/-- A request for it. -/
def Sample.askTrace (w : World) : RRes :=
  (Sample.tpl (Sample.schema 1000 [(c!"x", .str c!"A")] Sample.pageDefs) Sample.tracePage).render Sample.envC 10 w

set_option maxRecDepth 10000 in
/-- **C121 (what is needed).** For templates that leave traces the cache is visible, to requests with the same data: a page that looks at a variable set in a
cached part shows something else when the part comes from its entry. -/
theorem C121_needed : (Sample.outOf (Sample.askTrace Sample.pageWorld)).map (·.1) = some c!"123yes" ∧
    (Sample.outOf (Sample.askTrace (Sample.after 2 (Sample.askTrace Sample.pageWorld)))).map (·.1) = some c!"123" ∧
    keepsDataAll [.range false c!"i" 1 3 [.var false c!"i"]] = false := by decide +kernel

/-- A page with a cached part that ends with an excluded part, and the same page without the cache. -/
def Sample.endPage : Str := c!"({:cache; /100/ >> A {:!cache; {:;none:} :} :})"
/-- The same with the cache disabled: the option, and otherwise the same schema. -/
def Sample.endOff : Value :=
  mergeSchema (Sample.schema 1000 [(c!"x", .str c!"A")] Sample.pageDefs) (.obj [(c!"config", .obj [(c!"cache_disable", .bool true)])])

set_option maxRecDepth 10000 in
/-- **C122 (excluded parts).** For pages with excluded parts the cache is visible in the white space: what is stored of a cached part is trimmed with the
excluded parts in it still to be evaluated, so white space before one that shows nothing stays, at the first request and later; without the cache it is
taken out. -/
theorem C122_spaces : (Sample.outOf ((Sample.tpl (Sample.schema 1000 [(c!"x", .str c!"A")] Sample.pageDefs) Sample.endPage).render Sample.envC 10
      Sample.pageWorld)).map (·.1) = some c!"(A )" ∧
    (Sample.outOf ((Sample.tpl Sample.endOff Sample.endPage).render Sample.envC 10 Sample.pageWorld)).map (·.1) = some c!"(A)" := by decide +kernel

end Nts
