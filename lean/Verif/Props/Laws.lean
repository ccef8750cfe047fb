import Verif.Spec.Laws
import Verif.Props.LangUse
/-
C113: parts of templates that can be exchanged anywhere.
-/
set_option autoImplicit false
namespace Nts
open Spec

/-! ### memories that differ only in the number of BIFs -/

structure Like (m1 m2 : Mem) : Prop where
  data : m1.data = m2.data
  defs : m1.defs = m2.defs
  last : m1.last = m2.last
  lastC : m1.lastC = m2.lastC

/-- The same data and definitions. -/
structure Core (m1 m2 : Mem) : Prop where
  data : m1.data = m2.data
  defs : m1.defs = m2.defs

theorem Like.core {m1 m2 : Mem} (h : Like m1 m2) : Core m1 m2 := ⟨h.1, h.2⟩
theorem Core.symm {m1 m2 : Mem} (h : Core m1 m2) : Core m2 m1 := ⟨h.1.symm, h.2.symm⟩
theorem Core.trans {m1 m2 m3 : Mem} (h : Core m1 m2) (h' : Core m2 m3) : Core m1 m3 := ⟨h.1.trans h'.1, h.2.trans h'.2⟩
theorem Like.refl (m : Mem) : Like m m := ⟨rfl, rfl, rfl, rfl⟩
theorem Like.symm {m1 m2 : Mem} (h : Like m1 m2) : Like m2 m1 := ⟨h.1.symm, h.2.symm, h.3.symm, h.4.symm⟩
theorem Like.trans {m1 m2 m3 : Mem} (h : Like m1 m2) (h' : Like m2 m3) : Like m1 m3 :=
  ⟨h.1.trans h'.1, h.2.trans h'.2, h.3.trans h'.3, h.4.trans h'.4⟩

/-- The same value of a variable. -/
theorem core_value {m1 m2 : Mem} (h : Core m1 m2) (name : Str) : valueOf m1 name = valueOf m2 name := by
  unfold valueOf
  rw [h.1, h.2]

theorem core_translated {m1 m2 : Mem} (h : Core m1 m2) (S : Site) (t : Str) : translated S m1 t = translated S m2 t := by
  unfold translated
  rw [h.2]

theorem core_params {m1 m2 : Mem} (h : Core m1 m2) : paramsOf m1 = paramsOf m2 := by
  unfold paramsOf
  rw [h.2]

/-- Two functions that print the same from alike memories, and leave the same data and definitions. -/
def Inside (f g : Mem → Str × Mem) : Prop := ∀ m1 m2, Like m1 m2 → (f m1).1 = (g m2).1 ∧ Core (f m1).2 (g m2).2

/-- The same as blocks. -/
def SameBlock (f g : Mem → Str × Mem) : Prop := ∀ m1 m2, Like m1 m2 → trim (f m1).1 = trim (g m2).1 ∧ Core (f m1).2 (g m2).2

/-- The same, and alike for what follows. -/
def SameThen (f g : Mem → Str × Mem) : Prop := ∀ m1 m2, Like m1 m2 → (f m1).1 = (g m2).1 ∧ Like (f m1).2 (g m2).2

theorem SameThen.block {f g : Mem → Str × Mem} (h : SameThen f g) : SameBlock f g :=
  fun m1 m2 hm => ⟨congrArg trim (h m1 m2 hm).1, (h m1 m2 hm).2.core⟩

theorem bifOf_run {al : Str} {f : Mem → Str × Mem} {m : Mem} (h : ¬ (al = c!"coalesce" ∧ m.lastC = true)) :
    bifOf al f m = (trim (f { m with bifs := m.bifs + 1 }).1,
      { (f { m with bifs := m.bifs + 1 }).2 with last := !(f { m with bifs := m.bifs + 1 }).1.isEmpty, lastC := !(f { m with bifs := m.bifs + 1 }).1.isEmpty }) := by
  unfold bifOf
  rw [if_neg h]

theorem bifOf_same {al : Str} {f g : Mem → Str × Mem} (h : Inside f g) : SameThen (bifOf al f) (bifOf al g) := by
  intro m1 m2 hm
  by_cases hk : al = c!"coalesce" ∧ m1.lastC = true
  · have hk2 : al = c!"coalesce" ∧ m2.lastC = true := ⟨hk.1, hm.lastC ▸ hk.2⟩
    unfold bifOf
    rw [if_pos hk, if_pos hk2]
    exact ⟨rfl, hm⟩
  · have hk2 : ¬ (al = c!"coalesce" ∧ m2.lastC = true) := fun h => hk ⟨h.1, hm.lastC.symm ▸ h.2⟩
    rw [bifOf_run hk, bifOf_run hk2]
    obtain ⟨h1, h2⟩ := h { m1 with bifs := m1.bifs + 1 } { m2 with bifs := m2.bifs + 1 } ⟨hm.1, hm.2, hm.3, hm.4⟩
    exact ⟨congrArg trim h1, h2.1, h2.2, by simp only [h1], by simp only [h1]⟩

theorem blockOf_same {f g : Mem → Str × Mem} (plus : Bool) (h : SameBlock f g) {m1 m2 : Mem} (hm : Like m1 m2) :
    (blockOf plus f m1).1 = (blockOf plus g m2).1 ∧ Like (blockOf plus f m1).2 (blockOf plus g m2).2 := by
  obtain ⟨h1, h2⟩ := h m1 m2 hm
  refine ⟨h1, h2.1, ?_, hm.last, hm.lastC⟩
  show (if plus then (f m1).2.defs else m1.defs) = (if plus then (g m2).2.defs else m2.defs)
  rw [h2.2, hm.defs]

theorem blockOf_inside {f g : Mem → Str × Mem} (plus : Bool) (h : SameBlock f g) : Inside (blockOf plus f) (blockOf plus g) :=
  fun _ _ hm => ⟨(blockOf_same plus h hm).1, (blockOf_same plus h hm).2.core⟩

theorem loopOf_same {f g : Mem → Str × Mem} (plus : Bool) (h : SameBlock f g) (vs : List (List (Str × Value))) :
    ∀ m1 m2, Like m1 m2 → (loopOf plus f vs m1).1 = (loopOf plus g vs m2).1 ∧ Like (loopOf plus f vs m1).2 (loopOf plus g vs m2).2 := by
  induction vs with
  | nil => exact fun m1 m2 hm => ⟨rfl, hm⟩
  | cons v l ih =>
    intro m1 m2 hm
    obtain ⟨h1, h2⟩ := blockOf_same plus h (m1 := { m1 with data := setAll v m1.data }) (m2 := { m2 with data := setAll v m2.data })
      ⟨by show setAll v m1.data = setAll v m2.data; rw [hm.data], hm.defs, hm.last, hm.lastC⟩
    obtain ⟨h3, h4⟩ := ih _ _ h2
    exact ⟨by simp only [loopOf]; rw [h1, h3], h4⟩

theorem argOf_same {f g : Mem → Str × Mem} {a b : Str} (h : SameBlock f g)
    (hab : a = b ∨ (c!"{:" <:+: a ∧ c!"{:" <:+: b)) {m1 m2 : Mem} (hm : Like m1 m2) :
    (argOf a f m1).1 = (argOf b g m2).1 ∧ Like (argOf a f m1).2 (argOf b g m2).2 := by
  unfold argOf
  by_cases hc : c!"{:" <:+: a
  · have hb : c!"{:" <:+: b := by
      rcases hab with e | h
      · exact e ▸ hc
      · exact h.2
    rw [if_pos hc, if_pos hb]
    exact blockOf_same false h hm
  · rcases hab with e | h'
    · subst e
      rw [if_neg hc, if_neg hc]
      exact ⟨rfl, hm⟩
    · exact absurd h'.1 hc

/-! ### each BIF with exchanged parts -/

section
variable {S : Site}

/-- The blocks of two templates are the same. -/
abbrev Bl (S : Site) (k : Str) (a b : List Node) : Prop := SameBlock (meansAll S k a) (meansAll S k b)

/-- The function inside `bifOf`. -/
def innerOf (S : Site) : Node → Mem → Str × Mem
  | .text t, m => (t, m)
  | .var amp name, m => (printedAs (amp || S.filterAll) S.sanitize name (shownAs S.F (valueOf m name)), m)
  | .cond neg plus kind name body, m => 
      if truth S.F kind (valueOf m name) = neg then ([], m) else blockOf plus (meansAll S kind body) m
  | .cmp neg plus kind a b body, m => 
      let ra := argOf (printAll a) (meansAll S kind a) m
      let rb := argOf (printAll b) (meansAll S kind b) ra.2
      if compare kind ra.1 rb.1 = neg then ([], rb.2) else blockOf plus (meansAll S kind body) rb.2
  | .els neg plus body, m => 
      if m.last = neg then blockOf plus (meansAll S c!"else" body) m else ([], m)
  | .coalesce plus body, m => blockOf plus (meansAll S c!"coalesce" body) { m with lastC := false }
  | .code plus body, m => blockOf plus (meansAll S c!"code" body) m
  | .each plus coll key val body, m => 
      let r := loopOf plus (meansAll S c!"each" body)
        ((elementsOf (valueOf m coll)).map (fun kv => [(key, .str kv.1), (val, kv.2)])) m
      (r.1, { r.2 with data := Obj.insert val (entry m.data val) (Obj.insert key (entry m.data key) r.2.data) })
  | .range plus v a b body, m => 
      let r := loopOf plus (meansAll S c!"for" body) ((span a b).map (fun i => [(v, .str (showInt i))])) m
      (r.1, { r.2 with data := Obj.insert v (.str (shownAs S.F (valueOf m v))) r.2.data })
  | .param name, m => (shownAs S.F (resolvePointer (entry m.defs c!"params") name), m)
  | .setParam name body, m => 
      let r := blockOf false (meansAll S c!"param" body) m
      ([], { r.2 with defs := Obj.insert c!"params" (.obj (Obj.insert name (.str r.1) (paramsOf r.2))) r.2.defs })
  | .trans neg body, m => 
      let r := blockOf false (meansAll S c!"trans" body) m
      (if translated S m r.1 = [] then (if neg then [] else r.1) else translated S m r.1, r.2)
  | .incl _ body, m => blockOf true (meansAll S c!"include" body) m
  | .snippet _ _ body, m => blockOf (decide (c!"{:snip" <:+: trim (printAll body))) (meansAll S c!"snippet" body) m
  | .leaf k, m => (k.shown S m, k.effect m)
  | .replace a b body, m => 
      let ra := argOf (printAll a) (meansAll S c!"replace" a) m
      let rb := argOf (printAll b) (meansAll S c!"replace" b) ra.2
      let rc := blockOf false (meansAll S c!"replace" body) rb.2
      (replaceAll ra.1 rb.1 rc.1, rc.2)
  | .allow neg name body, m => 
      let r := blockOf false (meansAll S c!"allow" body) m
      (if (wordsOf S name).any (wildcardMatch r.1) = neg then [] else r.1, r.2)
  | .eval neg plus test body, m => 
      let rt := blockOf plus (meansAll S c!"eval" test) m
      if rt.1.isEmpty = neg then
        (if c!"{:" <:+: printAll body then
          let r := blockOf plus (meansAll S c!"eval" body) { rt.2 with data := Obj.insert c!"__eval__" (.str rt.1) rt.2.data }
          (r.1, { r.2 with data := Obj.insert c!"__eval__" (.str (shownAs S.F (valueOf rt.2 c!"__eval__"))) r.2.data })
        else (trim (printAll body), rt.2))
      else ([], rt.2)
  | .hash body, m => 
      let r := blockOf false (meansAll S c!"hash" body) m
      (S.md5 r.1, r.2)

theorem means_inner (S : Site) (al : Str) (x : Node) (m : Mem) (hx : ∀ t, x ≠ .text t) : x.means S al m = bifOf al (innerOf S x) m := by
  cases x with
  | text t => exact absurd rfl (hx t)
  | _ => rfl

theorem ins_cond (neg plus : Bool) (kind name : Str) {a b : List Node} (h : Bl S kind a b) :
    Inside (innerOf S (.cond neg plus kind name a)) (innerOf S (.cond neg plus kind name b)) := by
  intro m1 m2 hm
  simp only [innerOf]
  rw [core_value hm.core name]
  by_cases ht : truth S.F kind (valueOf m2 name) = neg
  · rw [if_pos ht, if_pos ht]; exact ⟨rfl, hm.core⟩
  · rw [if_neg ht, if_neg ht]
    exact blockOf_inside plus h _ _ hm

theorem ins_cmp (neg plus : Bool) (kind : Str) {x x' y y' a b : List Node} (hx : Bl S kind x x')
    (hxx : printAll x = printAll x' ∨ (c!"{:" <:+: printAll x ∧ c!"{:" <:+: printAll x')) (hy : Bl S kind y y')
    (hyy : printAll y = printAll y' ∨ (c!"{:" <:+: printAll y ∧ c!"{:" <:+: printAll y')) (h : Bl S kind a b) :
    Inside (innerOf S (.cmp neg plus kind x y a)) (innerOf S (.cmp neg plus kind x' y' b)) := by
  intro m1 m2 hm
  obtain ⟨e1, l1⟩ := argOf_same hx hxx hm
  obtain ⟨e2, l2⟩ := argOf_same hy hyy l1
  simp only [innerOf]
  rw [e1, e2]
  split
  · exact ⟨rfl, l2.core⟩
  · exact blockOf_inside plus h _ _ l2

theorem ins_els (neg plus : Bool) {a b : List Node} (h : Bl S c!"else" a b) :
    Inside (innerOf S (.els neg plus a)) (innerOf S (.els neg plus b)) := by
  intro m1 m2 hm
  simp only [innerOf]
  rw [hm.last]
  split
  · exact blockOf_inside plus h _ _ hm
  · exact ⟨rfl, hm.core⟩

theorem ins_coalesce (plus : Bool) {a b : List Node} (h : Bl S c!"coalesce" a b) :
    Inside (innerOf S (.coalesce plus a)) (innerOf S (.coalesce plus b)) :=
  fun _ _ hm => blockOf_inside plus h _ _ ⟨hm.1, hm.2, hm.3, rfl⟩

theorem ins_each (plus : Bool) (coll key val : Str) {a b : List Node} (h : Bl S c!"each" a b) :
    Inside (innerOf S (.each plus coll key val a)) (innerOf S (.each plus coll key val b)) := by
  intro m1 m2 hm
  simp only [innerOf]
  rw [core_value hm.core coll]
  obtain ⟨h1, h2⟩ := loopOf_same plus h ((elementsOf (valueOf m2 coll)).map (fun kv => [(key, .str kv.1), (val, kv.2)])) m1 m2 hm
  exact ⟨h1, by simp only [hm.data, h2.data], h2.defs⟩

theorem ins_range (plus : Bool) (v : Str) (i j : Int) {a b : List Node} (h : Bl S c!"for" a b) :
    Inside (innerOf S (.range plus v i j a)) (innerOf S (.range plus v i j b)) := by
  intro m1 m2 hm
  simp only [innerOf]
  rw [core_value hm.core v]
  obtain ⟨h1, h2⟩ := loopOf_same plus h ((span i j).map (fun i => [(v, .str (showInt i))])) m1 m2 hm
  exact ⟨h1, by simp only [h2.data], h2.defs⟩

theorem ins_setParam (name : Str) {a b : List Node} (h : Bl S c!"param" a b) :
    Inside (innerOf S (.setParam name a)) (innerOf S (.setParam name b)) := by
  intro m1 m2 hm
  obtain ⟨h1, h2⟩ := blockOf_same false h hm
  simp only [innerOf]
  refine ⟨trivial, h2.data, ?_⟩
  simp only [h1, core_params h2.core, h2.defs]

theorem ins_trans (neg : Bool) {a b : List Node} (h : Bl S c!"trans" a b) :
    Inside (innerOf S (.trans neg a)) (innerOf S (.trans neg b)) := by
  intro m1 m2 hm
  obtain ⟨h1, h2⟩ := blockOf_same false h hm
  simp only [innerOf]
  refine ⟨?_, h2.core⟩
  simp only [h1, core_translated hm.core]

theorem ins_replace {x x' y y' a b : List Node} (hx : Bl S c!"replace" x x')
    (hxx : printAll x = printAll x' ∨ (c!"{:" <:+: printAll x ∧ c!"{:" <:+: printAll x')) (hy : Bl S c!"replace" y y')
    (hyy : printAll y = printAll y' ∨ (c!"{:" <:+: printAll y ∧ c!"{:" <:+: printAll y')) (h : Bl S c!"replace" a b) :
    Inside (innerOf S (.replace x y a)) (innerOf S (.replace x' y' b)) := by
  intro m1 m2 hm
  obtain ⟨e1, l1⟩ := argOf_same hx hxx hm
  obtain ⟨e2, l2⟩ := argOf_same hy hyy l1
  obtain ⟨e3, l3⟩ := blockOf_same false h l2
  simp only [innerOf]
  exact ⟨by rw [e1, e2, e3], l3.core⟩

theorem ins_allow (neg : Bool) (name : Str) {a b : List Node} (h : Bl S c!"allow" a b) :
    Inside (innerOf S (.allow neg name a)) (innerOf S (.allow neg name b)) := by
  intro m1 m2 hm
  obtain ⟨h1, h2⟩ := blockOf_same false h hm
  simp only [innerOf]
  exact ⟨by simp only [h1], h2.core⟩

theorem ins_hash {a b : List Node} (h : Bl S c!"hash" a b) : Inside (innerOf S (.hash a)) (innerOf S (.hash b)) := by
  intro m1 m2 hm
  obtain ⟨h1, h2⟩ := blockOf_same false h hm
  simp only [innerOf]
  exact ⟨by simp only [h1], h2.core⟩

theorem ins_eval (neg plus : Bool) {t t' a b : List Node} (ht : Bl S c!"eval" t t') (h : Bl S c!"eval" a b)
    (hab : printAll a = printAll b ∨ (c!"{:" <:+: printAll a ∧ c!"{:" <:+: printAll b)) :
    Inside (innerOf S (.eval neg plus t a)) (innerOf S (.eval neg plus t' b)) := by
  intro m1 m2 hm
  obtain ⟨h1, h2⟩ := blockOf_same plus ht hm
  simp only [innerOf]
  rw [h1]
  by_cases he : (blockOf plus (meansAll S c!"eval" t') m2).1.isEmpty = neg
  · rw [if_pos he, if_pos he]
    by_cases hc : c!"{:" <:+: printAll a
    · have hb : c!"{:" <:+: printAll b := by
        rcases hab with e | h
        · exact e ▸ hc
        · exact h.2
      rw [if_pos hc, if_pos hb]
      obtain ⟨h3, h4⟩ := blockOf_same plus h
        (m1 := { (blockOf plus (meansAll S c!"eval" t) m1).2 with data := Obj.insert c!"__eval__" (.str (blockOf plus (meansAll S c!"eval" t') m2).1) (blockOf plus (meansAll S c!"eval" t) m1).2.data })
        (m2 := { (blockOf plus (meansAll S c!"eval" t') m2).2 with data := Obj.insert c!"__eval__" (.str (blockOf plus (meansAll S c!"eval" t') m2).1) (blockOf plus (meansAll S c!"eval" t') m2).2.data })
        ⟨by simp only [h2.data], h2.defs, h2.last, h2.lastC⟩
      refine ⟨h3, ?_, h4.defs⟩
      simp only [core_value h2.core, h4.data]
    · rcases hab with e | h
      · rw [if_neg hc, if_neg (e ▸ hc), e]
        exact ⟨rfl, h2.core⟩
      · exact absurd h.1 hc
  · rw [if_neg he, if_neg he]
    exact ⟨rfl, h2.core⟩

theorem node_same (al : Str) {x y : Node} (hx : ∀ t, x ≠ .text t) (hy : ∀ t, y ≠ .text t) (h : Inside (innerOf S x) (innerOf S y)) :
    SameThen (x.means S al) (y.means S al) := by
  intro m1 m2 hm
  rw [means_inner S al x m1 hx, means_inner S al y m2 hy]
  exact bifOf_same h m1 m2 hm

theorem cons_same {al : Str} {x y : Node} {l l' : List Node} (h : SameThen (x.means S al) (y.means S al))
    (h' : SameThen (meansAll S al l) (meansAll S al l')) : SameThen (meansAll S al (x :: l)) (meansAll S al (y :: l')) := by
  intro m1 m2 hm
  obtain ⟨e1, l1⟩ := h m1 m2 hm
  obtain ⟨e2, l2⟩ := h' _ _ l1
  simp only [meansAll]
  exact ⟨by rw [e1, e2], l2⟩

end

mutual
/-- The count does not matter to a BIF. -/
theorem blind_node (S : Site) : (x : Node) → (al : Str) → SameThen (x.means S al) (x.means S al)
  | .text t, al => fun m1 m2 hm => ⟨rfl, hm⟩
  | .var amp name, al => node_same al (by simp) (by simp) (fun m1 m2 hm => by simp only [innerOf, core_value hm.core]; exact ⟨trivial, hm.core⟩)
  | .cond neg plus kind name body, al => node_same al (by simp) (by simp) (ins_cond neg plus kind name (blind_all S body kind).block)
  | .cmp neg plus kind a b body, al => node_same al (by simp) (by simp)
      (ins_cmp neg plus kind (blind_all S a kind).block (.inl rfl) (blind_all S b kind).block (.inl rfl) (blind_all S body kind).block)
  | .els neg plus body, al => node_same al (by simp) (by simp) (ins_els neg plus (blind_all S body _).block)
  | .coalesce plus body, al => node_same al (by simp) (by simp) (ins_coalesce plus (blind_all S body _).block)
  | .code plus body, al => node_same al (by simp) (by simp) (blockOf_inside plus (blind_all S body _).block)
  | .each plus coll key val body, al => node_same al (by simp) (by simp) (ins_each plus coll key val (blind_all S body _).block)
  | .range plus v a b body, al => node_same al (by simp) (by simp) (ins_range plus v a b (blind_all S body _).block)
  | .param name, al => node_same al (by simp) (by simp) (fun m1 m2 hm => by simp only [innerOf, hm.defs]; exact ⟨trivial, hm.core⟩)
  | .setParam name body, al => node_same al (by simp) (by simp) (ins_setParam name (blind_all S body _).block)
  | .trans neg body, al => node_same al (by simp) (by simp) (ins_trans neg (blind_all S body _).block)
  | .incl path body, al => node_same al (by simp) (by simp) (blockOf_inside true (blind_all S body _).block)
  | .snippet kind name body, al => node_same al (by simp) (by simp) (blockOf_inside _ (blind_all S body _).block)
  | .leaf k, al => node_same al (by simp) (by simp) (fun m1 m2 hm => by
      cases k with
      | join keys name sep => simp only [innerOf, Leaf.shown, Leaf.effect, core_value hm.core]; exact ⟨trivial, hm.core⟩
      | load locale path v => simp only [innerOf, Leaf.shown, Leaf.effect, hm.defs]; exact ⟨trivial, hm.data, rfl⟩
      | _ => exact ⟨rfl, hm.core⟩)
  | .replace a b body, al => node_same al (by simp) (by simp)
      (ins_replace (blind_all S a _).block (.inl rfl) (blind_all S b _).block (.inl rfl) (blind_all S body _).block)
  | .allow neg name body, al => node_same al (by simp) (by simp) (ins_allow neg name (blind_all S body _).block)
  | .eval neg plus test body, al => node_same al (by simp) (by simp)
      (ins_eval neg plus (blind_all S test _).block (blind_all S body _).block (.inl rfl))
  | .hash body, al => node_same al (by simp) (by simp) (ins_hash (blind_all S body _).block)
theorem blind_all (S : Site) : (l : List Node) → (al : Str) → SameThen (meansAll S al l) (meansAll S al l)
  | [], al => fun m1 m2 hm => ⟨rfl, hm⟩
  | x :: l, al => cons_same (blind_node S x al) (blind_all S l al)
end

/-! ### the laws -/

theorem test_ne {kind : Str} (h : IsTest kind) : kind ≠ c!"coalesce" := by
  rintro rfl
  revert h
  unfold IsTest
  decide

/-- A block with one BIF in it. -/
theorem block_bif (S : Site) (p : Bool) {al : Str} {x : Node} {m : Mem} (hx : ∀ t, x ≠ .text t) (h : ¬ (al = c!"coalesce" ∧ m.lastC = true)) :
    blockOf p (meansAll S al [x]) m = (trim (innerOf S x { m with bifs := m.bifs + 1 }).1, { m with
      data := (innerOf S x { m with bifs := m.bifs + 1 }).2.data
      defs := if p then (innerOf S x { m with bifs := m.bifs + 1 }).2.defs else m.defs
      bifs := (innerOf S x { m with bifs := m.bifs + 1 }).2.bifs }) := by
  unfold blockOf
  simp only [meansAll]
  rw [means_inner S al x m hx, bifOf_run h]
  simp only [List.append_nil, trim_idem]

theorem trim_blockOf (p : Bool) (f : Mem → Str × Mem) (m : Mem) : trim (blockOf p f m).1 = (blockOf p f m).1 := trim_idem _

/-- A block in a block. -/
theorem block_block (S : Site) (p q : Bool) {al k : Str} {x : Node} {body : List Node} {m1 m2 : Mem} (hm : Like m1 m2)
    (hx : ∀ t, x ≠ .text t) (h : ¬ (al = c!"coalesce" ∧ m1.lastC = true))
    (hin : innerOf S x { m1 with bifs := m1.bifs + 1 } = blockOf q (meansAll S k body) { m1 with bifs := m1.bifs + 1 }) :
    (blockOf p (meansAll S al [x]) m1).1 = (blockOf (p && q) (meansAll S k body) m2).1 ∧
    Core (blockOf p (meansAll S al [x]) m1).2 (blockOf (p && q) (meansAll S k body) m2).2 := by
  rw [block_bif S p hx h, hin]
  obtain ⟨h1, h2⟩ := blockOf_same q (blind_all S body k).block (m1 := { m1 with bifs := m1.bifs + 1 }) (m2 := m2) ⟨hm.1, hm.2, hm.3, hm.4⟩
  refine ⟨(trim_blockOf _ _ _).trans h1, h2.data, ?_⟩
  have hd := h2.defs
  show (if p then (blockOf q (meansAll S k body) { m1 with bifs := m1.bifs + 1 }).2.defs else m1.defs) =
    (if p && q then (meansAll S k body m2).2.defs else m2.defs)
  rw [hd, hm.defs]
  show (if p then (if q then (meansAll S k body m2).2.defs else m2.defs) else m2.defs) = _
  cases p <;> cases q <;> rfl

theorem single_same {S : Site} {al : Str} {x y : Node} (h : SameThen (x.means S al) (y.means S al)) :
    SameThen (meansAll S al [x]) (meansAll S al [y]) := cons_same h (fun _ _ hm => ⟨rfl, hm⟩)

theorem bif_same {S : Site} (al : Str) {x y : Node} (hx : ∀ t, x ≠ .text t) (hy : ∀ t, y ≠ .text t) (h : Inside (innerOf S x) (innerOf S y)) :
    SameThen (meansAll S al [x]) (meansAll S al [y]) := single_same (node_same al hx hy h)

theorem truth_none (F : F64Ops) (k : Str) : truth F k none = false ∧ truth F k (some .null) = false := by
  unfold truth
  split
  · exact ⟨rfl, rfl⟩
  · split
    · exact ⟨rfl, rfl⟩
    · split
      · exact ⟨rfl, rfl⟩
      · exact ⟨rfl, rfl⟩

theorem truth_implies {F : F64Ops} {k1 k2 : Str} (h : Implies k1 k2) {v : Option Value} (ht : truth F k1 v = true) : truth F k2 v = true := by
  rcases h with rfl | ⟨rfl, rfl⟩ | rfl
  · cases v with
    | none => rw [(truth_none F k1).1] at ht; cases ht
    | some v => cases v with
      | null => rw [(truth_none F k1).2] at ht; cases ht
      | _ => rfl
  · cases v with
    | none => cases ht
    | some v => cases v with
      | null => cases ht
      | str s => cases s with
        | nil => cases ht
        | cons c s => rfl
      | arr a => cases a with
        | nil => cases ht
        | cons c s => rfl
      | obj a => cases a with
        | nil => cases ht
        | cons c s => rfl
      | _ => rfl
  · exact ht

theorem visible_trim {t : Str} (h : Visible t) : (trim t).isEmpty = false := by
  obtain ⟨c, hc, hw⟩ := h
  cases ht : trim t with
  | cons a l => rfl
  | nil =>
    obtain ⟨w1, w2, e, b1, b2⟩ := trim_parts t
    rw [ht, List.nil_append] at e
    rw [e, List.mem_append] at hc
    rcases hc with hc | hc
    · rw [b1 c hc] at hw; cases hw
    · rw [b2 c hc] at hw; cases hw

/-- A test with a text in it. -/
theorem cond_text (S : Site) (neg p : Bool) (kind name t : Str) (m : Mem) : innerOf S (.cond neg p kind name [.text t]) m =
    if truth S.F kind (valueOf m name) = neg then ([], m) else (trim t, m) := by
  simp only [innerOf]
  split
  · rfl
  · simp only [blockOf, meansAll, Node.means, List.append_nil]
    cases p <;> rfl

theorem law_codeCode (S : Site) (p q : Bool) (body : List Node) :
    Inside (innerOf S (.code p [.code q body])) (innerOf S (.code (p && q) body)) :=
  fun _ _ hm => block_block S p q hm (by simp) (fun h => absurd h.1 (by decide)) rfl

theorem law_implied (S : Site) (p q : Bool) (k1 k2 name : Str) (body : List Node) (h1 : IsTest k1) (h : Implies k1 k2) :
    Inside (innerOf S (.cond false p k1 name [.cond false q k2 name body])) (innerOf S (.cond false (p && q) k1 name body)) := by
  have hk2 : k2 ≠ c!"coalesce" := by
    rcases h with rfl | ⟨_, rfl⟩ | rfl
    · decide
    · decide
    · exact test_ne h1
  intro m1 m2 hm
  simp only [innerOf]
  rw [core_value hm.core name]
  by_cases ht : truth S.F k1 (valueOf m2 name) = false
  · rw [if_pos ht, if_pos ht]; exact ⟨rfl, hm.core⟩
  · rw [if_neg ht, if_neg ht]
    have ht2 : truth S.F k2 (valueOf m1 name) = true := by
      rw [core_value hm.core name]
      exact truth_implies h (by simpa using ht)
    have e : meansAll S k1 body = meansAll S k2 body := funext fun m => all_al S (test_ne h1) hk2 body m
    rw [e]
    refine block_block S p q hm (by simp) (fun h => test_ne h1 h.1) ?_
    simp only [innerOf]
    rw [if_neg]
    rw [show valueOf { m1 with bifs := m1.bifs + 1 } name = valueOf m1 name from rfl, ht2]
    decide

theorem law_twice (S : Site) (p q : Bool) (kind name : Str) (body : List Node) (hk : IsTest kind) :
    Inside (innerOf S (.cond true p kind name [.cond true q kind name body])) (innerOf S (.cond true (p && q) kind name body)) := by
  intro m1 m2 hm
  simp only [innerOf]
  rw [core_value hm.core name]
  by_cases ht : truth S.F kind (valueOf m2 name) = true
  · rw [if_pos ht, if_pos ht]; exact ⟨rfl, hm.core⟩
  · rw [if_neg ht, if_neg ht]
    refine block_block S p q hm (by simp) (fun h => test_ne hk h.1) ?_
    simp only [innerOf]
    rw [if_neg]
    rw [show valueOf { m1 with bifs := m1.bifs + 1 } name = valueOf m1 name from rfl, core_value hm.core name]
    exact ht

theorem law_opposite (S : Site) (neg p q : Bool) (kind name : Str) (body : List Node) (hk : IsTest kind) :
    Inside (innerOf S (.cond neg p kind name [.cond (!neg) q kind name body])) (innerOf S (.cond neg p kind name [])) := by
  intro m1 m2 hm
  have e1 : innerOf S (.cond neg p kind name [.cond (!neg) q kind name body]) m1 =
      if truth S.F kind (valueOf m1 name) = neg then ([], m1) else blockOf p (meansAll S kind [.cond (!neg) q kind name body]) m1 := rfl
  have e2 : innerOf S (.cond neg p kind name []) m2 =
      if truth S.F kind (valueOf m2 name) = neg then ([], m2) else blockOf p (meansAll S kind []) m2 := rfl
  rw [e1, e2, core_value hm.core name]
  by_cases ht : truth S.F kind (valueOf m2 name) = neg
  · rw [if_pos ht, if_pos ht]; exact ⟨rfl, hm.core⟩
  · rw [if_neg ht, if_neg ht, block_bif S p (by simp) (fun h => test_ne hk h.1)]
    have ht2 : truth S.F kind (valueOf m1 name) = !neg := by
      rw [core_value hm.core name]
      revert ht
      cases truth S.F kind (valueOf m2 name) <;> cases neg <;> decide
    have hin : innerOf S (.cond (!neg) q kind name body) { m1 with bifs := m1.bifs + 1 } = ([], { m1 with bifs := m1.bifs + 1 }) := by
      simp only [innerOf]
      rw [if_pos]
      exact ht2
    rw [hin]
    refine ⟨rfl, hm.data, ?_⟩
    show (if p then m1.defs else m1.defs) = (if p then m2.defs else m2.defs)
    rw [hm.defs]

theorem law_elseElse (S : Site) (neg p q : Bool) (body : List Node) :
    Inside (innerOf S (.els neg p [.els neg q body])) (innerOf S (.els neg (p && q) body)) := by
  intro m1 m2 hm
  have e1 : innerOf S (.els neg p [.els neg q body]) m1 =
      if m1.last = neg then blockOf p (meansAll S c!"else" [.els neg q body]) m1 else ([], m1) := rfl
  have e2 : innerOf S (.els neg (p && q) body) m2 =
      if m2.last = neg then blockOf (p && q) (meansAll S c!"else" body) m2 else ([], m2) := rfl
  rw [e1, e2, hm.last]
  by_cases hn : m2.last = neg
  · rw [if_pos hn, if_pos hn]
    refine block_block S p q hm (by simp) (fun h => absurd h.1 (by decide)) ?_
    simp only [innerOf]
    rw [if_pos]
    rw [hm.last]; exact hn
  · rw [if_neg hn, if_neg hn]
    exact ⟨rfl, hm.core⟩

theorem law_sameText (S : Site) (t : Str) (p : Bool) (body : List Node) (h : ¬ c!"{:" <:+: t) :
    Inside (innerOf S (.cmp false p c!"same" [.text t] [.text t] body)) (innerOf S (.code p body)) := by
  intro m1 m2 hm
  have ha : ∀ m, argOf (printAll [.text t]) (meansAll S c!"same" [.text t]) m = (t, m) := by
    intro m
    unfold argOf
    have : printAll [.text t] = t := by simp [printAll, Node.print]
    rw [this, if_neg h]
  have e1 : innerOf S (.cmp false p c!"same" [.text t] [.text t] body) m1 = blockOf p (meansAll S c!"same" body) m1 := by
    simp only [innerOf, ha]
    rw [if_neg]
    simp [Spec.compare]
  have e2 : innerOf S (.code p body) m2 = blockOf p (meansAll S c!"same" body) m2 := by
    have : meansAll S c!"same" body = meansAll S c!"code" body := funext fun m => all_al S (by decide) (by decide) body m
    rw [this]; rfl
  rw [e1, e2]
  exact blockOf_inside p (blind_all S body _).block _ _ hm

theorem law_coalesceOne (S : Site) (p amp : Bool) (name : Str) :
    Inside (innerOf S (.coalesce p [.var amp name])) (innerOf S (.code p [.var amp name])) := by
  intro m1 m2 hm
  have e1 : innerOf S (.coalesce p [.var amp name]) m1 = blockOf p (meansAll S c!"coalesce" [.var amp name]) { m1 with lastC := false } := rfl
  have e2 : innerOf S (.code p [.var amp name]) m2 = blockOf p (meansAll S c!"code" [.var amp name]) m2 := rfl
  rw [e1, e2, block_bif S p (by simp) (fun h => by cases h.2), block_bif S p (by simp) (fun h => absurd h.1 (by decide))]
  have hv : valueOf m1 name = valueOf m2 name := core_value hm.core name
  refine ⟨?_, hm.data, ?_⟩
  · show trim (printedAs _ _ _ (shownAs _ (valueOf m1 name))) = trim (printedAs _ _ _ (shownAs _ (valueOf m2 name)))
    rw [hv]
  · show (if p then m1.defs else m1.defs) = (if p then m2.defs else m2.defs)
    rw [hm.defs]

theorem law_coalesceTwice (S : Site) (p q : Bool) (body : List Node) :
    Inside (innerOf S (.coalesce p [.coalesce q body])) (innerOf S (.coalesce (p && q) body)) := by
  intro m1 m2 hm
  exact block_block S p q (m1 := { m1 with lastC := false }) (m2 := { m2 with lastC := false }) ⟨hm.1, hm.2, hm.3, rfl⟩ (by simp)
    (fun h => by cases h.2) rfl

theorem law_code (S : Site) (p : Bool) {k : Str} (hk : k ≠ c!"coalesce") (body : List Node) :
    Inside (blockOf p (meansAll S k body)) (innerOf S (.code p body)) := by
  have : meansAll S k body = meansAll S c!"code" body := funext fun m => all_al S hk (by decide) body m
  rw [this]
  exact blockOf_inside p (blind_all S body _).block

/-- Two BIFs one after the other. -/
theorem pair_run (S : Site) {al : Str} (ha : al ≠ c!"coalesce") {x y : Node} (hx : ∀ t, x ≠ .text t) (hy : ∀ t, y ≠ .text t) (m : Mem) :
    meansAll S al [x, y] m =
      (trim (innerOf S x { m with bifs := m.bifs + 1 }).1 ++ ((bifOf al (innerOf S y) (bifOf al (innerOf S x) m).2).1 ++ []),
        (bifOf al (innerOf S y) (bifOf al (innerOf S x) m).2).2) := by
  simp only [meansAll]
  rw [means_inner S al x m hx, means_inner S al y _ hy]
  rw [bifOf_run (m := m) (fun h => ha h.1)]

theorem law_opposed (S : Site) {al : Str} (neg p q : Bool) (kind name t : Str) (body : List Node) (h : Visible t) (ha : al ≠ c!"coalesce")
    (hk : IsTest kind) :
    SameThen (meansAll S al [.cond neg p kind name [.text t], .els false q body])
      (meansAll S al [.cond neg p kind name [.text t], .cond (!neg) q kind name body]) := by
  have hE : meansAll S c!"else" body = meansAll S kind body := funext fun m => all_al S (by decide) (test_ne hk) body m
  have key : ∀ m, meansAll S al [.cond neg p kind name [.text t], .els false q body] m =
      meansAll S al [.cond neg p kind name [.text t], .cond (!neg) q kind name body] m := by
    intro m
    rw [pair_run S ha (by simp) (by simp), pair_run S ha (by simp) (by simp)]
    rw [bifOf_run (m := m) (fun h => ha h.1), cond_text]
    rw [show valueOf { m with bifs := m.bifs + 1 } name = valueOf m name from rfl]
    by_cases ht : truth S.F kind (valueOf m name) = neg
    · simp only [if_pos ht]
      have e : ∀ m', valueOf m' name = valueOf m name → m'.last = false → bifOf al (innerOf S (.els false q body)) m' =
          bifOf al (innerOf S (.cond (!neg) q kind name body)) m' := by
        intro m' hv hl
        rw [bifOf_run (fun h => ha h.1), bifOf_run (fun h => ha h.1)]
        have e1 : innerOf S (.els false q body) { m' with bifs := m'.bifs + 1 } = blockOf q (meansAll S kind body) { m' with bifs := m'.bifs + 1 } := by
          simp only [innerOf]; rw [if_pos hl, hE]
        have e2 : innerOf S (.cond (!neg) q kind name body) { m' with bifs := m'.bifs + 1 } = blockOf q (meansAll S kind body) { m' with bifs := m'.bifs + 1 } := by
          simp only [innerOf]
          rw [if_neg]
          rw [show valueOf { m' with bifs := m'.bifs + 1 } name = valueOf m' name from rfl, hv, ht]
          cases neg <;> decide
        rw [e1, e2]
      rw [e ⟨m.data, m.defs, !([] : Str).isEmpty, !([] : Str).isEmpty, m.bifs + 1⟩ rfl rfl]
    · simp only [if_neg ht]
      have e : ∀ m', valueOf m' name = valueOf m name → m'.last = true → bifOf al (innerOf S (.els false q body)) m' =
          bifOf al (innerOf S (.cond (!neg) q kind name body)) m' := by
        intro m' hv hl
        rw [bifOf_run (fun h => ha h.1), bifOf_run (fun h => ha h.1)]
        have e1 : innerOf S (.els false q body) { m' with bifs := m'.bifs + 1 } = ([], { m' with bifs := m'.bifs + 1 }) := by
          simp only [innerOf]
          rw [if_neg]
          show ¬ m'.last = false
          rw [hl]; decide
        have e2 : innerOf S (.cond (!neg) q kind name body) { m' with bifs := m'.bifs + 1 } = ([], { m' with bifs := m'.bifs + 1 }) := by
          simp only [innerOf]
          rw [if_pos]
          rw [show valueOf { m' with bifs := m'.bifs + 1 } name = valueOf m' name from rfl, hv]
          revert ht
          cases truth S.F kind (valueOf m name) <;> cases neg <;> decide
        rw [e1, e2]
      rw [e ⟨m.data, m.defs, !(trim t).isEmpty, !(trim t).isEmpty, m.bifs + 1⟩ rfl (by show (!(trim t).isEmpty) = true; rw [visible_trim h]; rfl)]
  intro m1 m2 hm
  rw [key m1]
  exact blind_all S _ al m1 m2 hm

/-- A test with a text and an `else` with a text. -/
theorem both_text (S : Site) {al : Str} (ha : al ≠ c!"coalesce") (neg p q : Bool) (kind name a b : Str) (hva : Visible a) (m : Mem) :
    (meansAll S al [.cond neg p kind name [.text a], .els false q [.text b]] m).1 =
      (if truth S.F kind (valueOf m name) = neg then trim b else trim a) ∧
    Core (meansAll S al [.cond neg p kind name [.text a], .els false q [.text b]] m).2 m := by
  rw [pair_run S ha (by simp) (by simp), bifOf_run (m := m) (fun h => ha h.1), cond_text]
  rw [show valueOf { m with bifs := m.bifs + 1 } name = valueOf m name from rfl]
  have hb : ∀ m', blockOf q (meansAll S c!"else" [.text b]) m' = (trim b, m') := by
    intro m'
    simp only [blockOf, meansAll, Node.means, List.append_nil]
    cases q <;> rfl
  by_cases ht : truth S.F kind (valueOf m name) = neg
  · simp only [if_pos ht]
    rw [bifOf_run (fun h => ha h.1)]
    have e : ∀ m', m'.last = false → innerOf S (.els false q [.text b]) m' = (trim b, m') := by
      intro m' hl
      simp only [innerOf]; rw [if_pos hl, hb]
    rw [e _ rfl]
    refine ⟨?_, rfl, rfl⟩
    simp only [trim_idem, List.append_nil]
    rfl
  · simp only [if_neg ht]
    rw [bifOf_run (fun h => ha h.1)]
    have e : ∀ m', m'.last = true → innerOf S (.els false q [.text b]) m' = ([], m') := by
      intro m' hl
      simp only [innerOf]; rw [if_neg (by rw [hl]; decide)]
    rw [e _ (by show (!(trim a).isEmpty) = true; rw [visible_trim hva]; rfl)]
    refine ⟨?_, rfl, rfl⟩
    simp only [trim_idem]
    rw [show trim ([] : Str) = [] from rfl]
    simp only [List.append_nil]

theorem append_run (S : Site) (al : Str) (a c : List Node) (m : Mem) :
    meansAll S al (a ++ c) m = ((meansAll S al a m).1 ++ (meansAll S al c (meansAll S al a m).2).1, (meansAll S al c (meansAll S al a m).2).2) := by
  induction a generalizing m with
  | nil => simp [meansAll]
  | cons x a ih =>
    simp only [List.cons_append, meansAll, ih, List.append_assoc]

theorem law_branches (S : Site) {al : Str} (ha : al ≠ c!"coalesce") (before : List Node) (neg p q : Bool) (kind name a b : Str) (hva : Visible a)
    (hvb : Visible b) :
    SameBlock (meansAll S al (before ++ [.cond neg p kind name [.text a], .els false q [.text b]]))
      (meansAll S al (before ++ [.cond (!neg) q kind name [.text b], .els false p [.text a]])) := by
  intro m1 m2 hm
  obtain ⟨h0, l0⟩ := blind_all S before al m1 m2 hm
  rw [append_run, append_run]
  obtain ⟨h1, c1⟩ := both_text S ha neg p q kind name a b hva (meansAll S al before m1).2
  obtain ⟨h2, c2⟩ := both_text S ha (!neg) q p kind name b a hvb (meansAll S al before m2).2
  refine ⟨?_, c1.trans (l0.core.trans c2.symm)⟩
  show trim (_ ++ _) = trim (_ ++ _)
  rw [h0, h1, h2, core_value l0.core name]
  cases truth S.F kind (valueOf (meansAll S al before m2).2 name) <;> cases neg <;> rfl

theorem law_wrap (S : Site) {al : Str} (ha : al ≠ c!"coalesce") (body : List Node) :
    SameBlock (meansAll S al [.code true body]) (meansAll S al body) := by
  intro m1 m2 hm
  have e : meansAll S c!"code" body = meansAll S al body := funext fun m => all_al S (by decide) ha body m
  simp only [meansAll]
  rw [means_inner S al _ m1 (by simp), bifOf_run (fun h => ha h.1)]
  have e1 : innerOf S (.code true body) { m1 with bifs := m1.bifs + 1 } = blockOf true (meansAll S al body) { m1 with bifs := m1.bifs + 1 } := by
    rw [← e]; rfl
  rw [e1]
  obtain ⟨h1, h2⟩ := (blind_all S body al).block { m1 with bifs := m1.bifs + 1 } m2 ⟨hm.1, hm.2, hm.3, hm.4⟩
  refine ⟨?_, h2.data, h2.defs⟩
  simp only [List.append_nil, trim_idem]
  exact (trim_blockOf _ _ _).trans h1

/-! ### anywhere -/

/-- What is exchanged means the same. -/
theorem swap_sound (S : Site) {w : Bool} {al : Str} {a b : List Node} (h : Swap w al a b) :
    (w = false → SameThen (meansAll S al a) (meansAll S al b)) ∧ Bl S al a b := by
  have both : ∀ {al : Str} {a b : List Node}, SameThen (meansAll S al a) (meansAll S al b) →
      ((false = false → SameThen (meansAll S al a) (meansAll S al b)) ∧ Bl S al a b) := fun h => ⟨fun _ => h, h.block⟩
  have bifs : ∀ {al : Str} {x y : Node}, (∀ t, x ≠ .text t) → (∀ t, y ≠ .text t) → Inside (innerOf S x) (innerOf S y) →
      ((false = false → SameThen (meansAll S al [x]) (meansAll S al [y])) ∧ Bl S al [x] [y]) := fun hx hy h => both (bif_same _ hx hy h)
  induction h with
  | texts al a b =>
    refine both (fun m1 m2 hm => ?_)
    simp only [meansAll, Node.means, List.append_nil]
    exact ⟨trivial, hm⟩
  | noText al => exact both (fun m1 m2 hm => ⟨rfl, hm⟩)
  | codeCode al p q body => exact bifs (by simp) (by simp) (law_codeCode S p q body)
  | wrap al body h => exact ⟨(fun e => nomatch e), law_wrap S h body⟩
  | implied al p q k1 k2 name body h1 h => exact bifs (by simp) (by simp) (law_implied S p q k1 k2 name body h1 h)
  | twice al p q kind name body hk => exact bifs (by simp) (by simp) (law_twice S p q kind name body hk)
  | opposite al neg p q kind name body hk => exact bifs (by simp) (by simp) (law_opposite S neg p q kind name body hk)
  | opposed al neg p q kind name t body h ha hk => exact both (law_opposed S neg p q kind name t body h ha hk)
  | branches al before neg p q kind name a b ha hb hal => exact ⟨(fun e => nomatch e), law_branches S hal before neg p q kind name a b ha hb⟩
  | elseElse al neg p q body => exact bifs (by simp) (by simp) (law_elseElse S neg p q body)
  | sameText al t p body h => exact bifs (by simp) (by simp) (law_sameText S t p body h)
  | coalesceOne al p amp name => exact bifs (by simp) (by simp) (law_coalesceOne S p amp name)
  | coalesceTwice al p q body => exact bifs (by simp) (by simp) (law_coalesceTwice S p q body)
  | file al path body => exact bifs (by simp) (by simp) (law_code S true (by decide) body)
  | snippet al kind name body => exact bifs (by simp) (by simp) (law_code S _ (by decide) body)
  | refl al l => exact both (blind_all S l al)
  | symm _ ih =>
    refine ⟨fun e m1 m2 hm => ?_, fun m1 m2 hm => ?_⟩
    · obtain ⟨h1, h2⟩ := ih.1 e m2 m1 hm.symm
      exact ⟨h1.symm, h2.symm⟩
    · obtain ⟨h1, h2⟩ := ih.2 m2 m1 hm.symm
      exact ⟨h1.symm, h2.symm⟩
  | trans _ _ ih1 ih2 =>
    refine ⟨fun e m1 m2 hm => ?_, fun m1 m2 hm => ?_⟩
    · obtain ⟨h1, h2⟩ := ih1.1 e m1 m1 (Like.refl m1)
      obtain ⟨h3, h4⟩ := ih2.1 e m1 m2 hm
      exact ⟨h1.trans h3, h2.trans h4⟩
    · obtain ⟨h1, h2⟩ := ih1.2 m1 m1 (Like.refl m1)
      obtain ⟨h3, h4⟩ := ih2.2 m1 m2 hm
      exact ⟨h1.trans h3, h2.trans h4⟩
  | whole _ ih => exact ⟨(fun e => nomatch e), ih.2⟩
  | append _ _ ih1 ih2 =>
    refine both (fun m1 m2 hm => ?_)
    obtain ⟨h1, h2⟩ := ih1.1 rfl m1 m2 hm
    obtain ⟨h3, h4⟩ := ih2.1 rfl _ _ h2
    rw [append_run, append_run]
    exact ⟨by rw [h1, h3], h4⟩
  | cond neg plus kind name _ ih => exact bifs (by simp) (by simp) (ins_cond neg plus kind name ih.2)
  | cmp neg plus kind x y _ ih =>
    exact bifs (by simp) (by simp) (ins_cmp neg plus kind (blind_all S x kind).block (.inl rfl) (blind_all S y kind).block (.inl rfl) ih.2)
  | cmp1 neg plus kind y body ha hb _ ih =>
    exact bifs (by simp) (by simp) (ins_cmp neg plus kind ih.2 (.inr ⟨ha, hb⟩) (blind_all S y kind).block (.inl rfl) (blind_all S body kind).block)
  | cmp2 neg plus kind x body ha hb _ ih =>
    exact bifs (by simp) (by simp) (ins_cmp neg plus kind (blind_all S x kind).block (.inl rfl) ih.2 (.inr ⟨ha, hb⟩) (blind_all S body kind).block)
  | els neg plus _ ih => exact bifs (by simp) (by simp) (ins_els neg plus ih.2)
  | coalesce plus _ ih => exact bifs (by simp) (by simp) (ins_coalesce plus ih.2)
  | code plus _ ih => exact bifs (by simp) (by simp) (blockOf_inside plus ih.2)
  | each plus coll key val _ ih => exact bifs (by simp) (by simp) (ins_each plus coll key val ih.2)
  | range plus v i j _ ih => exact bifs (by simp) (by simp) (ins_range plus v i j ih.2)
  | setParam name _ ih => exact bifs (by simp) (by simp) (ins_setParam name ih.2)
  | trans_ neg _ ih => exact bifs (by simp) (by simp) (ins_trans neg ih.2)
  | replace x y _ ih =>
    exact bifs (by simp) (by simp) (ins_replace (blind_all S x _).block (.inl rfl) (blind_all S y _).block (.inl rfl) ih.2)
  | allow neg name _ ih => exact bifs (by simp) (by simp) (ins_allow neg name ih.2)
  | test neg plus body _ ih => exact bifs (by simp) (by simp) (ins_eval neg plus ih.2 (blind_all S body _).block (.inl rfl))
  | eval neg plus test ha hb _ ih => exact bifs (by simp) (by simp) (ins_eval neg plus (blind_all S test _).block ih.2 (.inr ⟨ha, hb⟩))
  | hash _ ih => exact bifs (by simp) (by simp) (ins_hash ih.2)

/-- **C113.** Exchange parts of a template of the language by the laws, anywhere in it (`Swap`): the two templates, rendered with the same
schema, give the same output, status and errors, and leave the same data - whatever the data.  Only the number of BIFs may be different:
the limit has to be enough for both. -/
theorem C113_render (env : Env) (n : Nat) (w : World) (t1 t2 : Tpl) (S : Site) (l1 l2 : List Node) (sh : Shared) (s d defs : Obj)
    (hnew : Shared.new env w t1.schema = some sh) (hS : SiteOf env sh S) (hsch : t2.schema = t1.schema)
    (hswap : Swap true [] l1 l2)
    (hok1 : AllOk S [] l1) (hraw1 : t1.raw = printAll l1) (hb1 : c!"{:" <:+: printAll l1)
    (hok2 : AllOk S [] l2) (hraw2 : t2.raw = printAll l2) (hb2 : c!"{:" <:+: printAll l2)
    (hs : t1.schema = .obj s) (hd : Obj.get? c!"data" s = some (.obj d))
    (hinh : Obj.get? c!"inherit" s = some (.obj defs)) (hdefs : Defs S defs)
    (hmax1 : (meansAll S [] l1 (startMem d defs)).2.bifs ≤ sh.max) (hmax2 : (meansAll S [] l2 (startMem d defs)).2.bifs ≤ sh.max)
    (hcache : ¬ c!"{:!cache;" <:+: trim (meansAll S [] l1 (startMem d defs)).1) :
    ∃ t1' t2', t1.render env n w = .ok t1' ∧ t2.render env n w = .ok t2' ∧ t1'.out = t2'.out ∧
      t1'.statusCode = t2'.statusCode ∧ t1'.statusText = t2'.statusText ∧ t1'.statusParam = t2'.statusParam ∧
      t1'.hasError = t2'.hasError ∧ t1'.getError = t2'.getError ∧
      t1'.shared.schema.index c!"data" = t2'.shared.schema.index c!"data" := by
  obtain ⟨h1, h2⟩ := (swap_sound S hswap).2 (startMem d defs) (startMem d defs) (Like.refl _)
  obtain ⟨r1, t1', rfl, hr1, ht1, hd1⟩ := C77_render env n w t1 S l1 sh s d defs hnew hS hok1 hraw1 hb1 hs hd hinh hdefs hmax1 hcache
  obtain ⟨r2, t2', rfl, hr2, ht2, hd2⟩ := C77_render env n w t2 S l2 sh s d defs (by rw [hsch]; exact hnew) hS hok2 hraw2 hb2
    (by rw [hsch]; exact hs) hd hinh hdefs hmax2 (by rw [← h1]; exact hcache)
  refine ⟨t1', t2', hr1, hr2, ?_, ?_, ?_, ?_, ?_, ?_, ?_⟩
  · rw [ht1.out, ht2.out, h1]
  · rw [ht1.code, ht2.code]
  · rw [ht1.text, ht2.text]
  · rw [ht1.param, ht2.param]
  · rw [ht1.noError.1, ht2.noError.1]
  · rw [ht1.noError.2, ht2.noError.2]
  · rw [hd1, hd2, h2.data]

/-! ### a case, and what is not a law -/

/-- A list with two branches, a repeated test, a block and an included file ... -/
def Sample.before : List Node :=
  [.text c!"<ul>", .each false c!"l" c!"k" c!"v" [.text c!"<li>", .cond false false c!"filled" c!"v" [.text c!"yes"], .els false false [.text c!"no"]],
   .cond false false c!"bool" c!"x" [.cond false false c!"filled" c!"x" [.text c!"X", .var false c!"x"]],
   .els false false [.code true [.text c!"none"]], .text c!"</ul>"]

/-- ... and the same written in another way. -/
def Sample.after_ : List Node :=
  [.text c!"<ul>", .each false c!"l" c!"k" c!"v" [.text c!"<li>", .cond true false c!"filled" c!"v" [.text c!"no"], .els false false [.text c!"yes"]],
   .cond false false c!"bool" c!"x" [.text c!"X", .var false c!"x"],
   .els false false [.text c!"none"], .text c!"</ul>"]

theorem Sample.swapped : Swap true [] Sample.before Sample.after_ := by
  refine .whole ?_
  have t (s : Str) : Swap false [] [.text s] [.text s] := .refl _ _
  refine .append (a := [_]) (b := [_]) (t _) (.append (a := [_]) (b := [_]) ?_ (.append (a := [_]) (b := [_]) ?_ (.append (a := [_]) (b := [_]) ?_ (t _))))
  · exact .each _ _ _ _ (.branches _ [.text c!"<li>"] _ _ _ _ _ _ _ ⟨'y', by decide, by decide⟩ ⟨'n', by decide, by decide⟩ (by decide))
  · exact .implied _ _ _ _ _ _ _ (by unfold IsTest; decide) (.inr (.inl ⟨rfl, rfl⟩))
  · exact .els _ _ (.wrap _ _ (by decide))

theorem Sample.before_ok : AllOk Sample.pageSite [] Sample.before := by
  simp only [Sample.before, AllOk, Node.Ok, and_true]
  exact ⟨textOk_of (by decide), ⟨nameOk_of (by decide), ⟨nameOk_of (by decide), by decide⟩, ⟨nameOk_of (by decide), by decide⟩,
    textOk_of (by decide), ⟨by decide, nameOk_of (by decide), textOk_of (by decide)⟩, textOk_of (by decide)⟩,
    ⟨by decide, nameOk_of (by decide), by decide, nameOk_of (by decide), textOk_of (by decide), nameOk_of (by decide)⟩,
    textOk_of (by decide), textOk_of (by decide)⟩

theorem Sample.after_ok : AllOk Sample.pageSite [] Sample.after_ := by
  simp only [Sample.after_, AllOk, Node.Ok, and_true]
  exact ⟨textOk_of (by decide), ⟨nameOk_of (by decide), ⟨nameOk_of (by decide), by decide⟩, ⟨nameOk_of (by decide), by decide⟩,
    textOk_of (by decide), ⟨by decide, nameOk_of (by decide), textOk_of (by decide)⟩, textOk_of (by decide)⟩,
    ⟨by decide, nameOk_of (by decide), textOk_of (by decide), nameOk_of (by decide)⟩,
    textOk_of (by decide), textOk_of (by decide)⟩

set_option maxRecDepth 10000 in
/-- The premises of C113 are met. -/
example : ∃ t1' t2',
    (Sample.tpl (Sample.schema 1000 Sample.pageData Sample.pageDefs) (printAll Sample.before)).render Sample.env 10 Sample.pageWorld = .ok t1' ∧
    (Sample.tpl (Sample.schema 1000 Sample.pageData Sample.pageDefs) (printAll Sample.after_)).render Sample.env 10 Sample.pageWorld = .ok t2' ∧
    t1'.out = t2'.out := by
  obtain ⟨t1', t2', h1, h2, h3, _⟩ := C113_render Sample.env 10 Sample.pageWorld
    (Sample.tpl (Sample.schema 1000 Sample.pageData Sample.pageDefs) (printAll Sample.before))
    (Sample.tpl (Sample.schema 1000 Sample.pageData Sample.pageDefs) (printAll Sample.after_)) Sample.pageSite Sample.before Sample.after_ _ _
    Sample.pageData Sample.pageDefs rfl ⟨rfl, rfl, rfl, rfl, rfl, rfl, Sample.page_file⟩ rfl Sample.swapped Sample.before_ok rfl (by decide +kernel)
    Sample.after_ok rfl (by decide +kernel) rfl rfl rfl ⟨.inr ⟨_, rfl⟩, rfl, rfl⟩ (by decide +kernel) (by decide +kernel) (by decide +kernel)
  exact ⟨t1', t2', h1, h2, h3⟩

set_option maxRecDepth 10000 in
/-- What it shows. -/
example : Sample.outOf (Sample.go [(c!"l", .arr [.str c!"a", .str []]), (c!"x", .bool true)] (printAll Sample.before)) =
    Sample.outOf (Sample.go [(c!"l", .arr [.str c!"a", .str []]), (c!"x", .bool true)] (printAll Sample.after_)) ∧
    Sample.outOf (Sample.go [(c!"l", .arr [.str c!"a", .str []]), (c!"x", .bool true)] (printAll Sample.before)) =
      some (c!"<ul><li>yes<li>noXtrue</ul>", c!"200") := by
  constructor <;> decide +kernel

set_option maxRecDepth 10000 in
/-- **C113 (what is not a law).** A variable in a block is not the variable: a value of only white space counts as output of the variable, but
not of the block.  And `else` is not the opposite test when the tested block may show nothing. -/
theorem C113_not_laws :
    Sample.outOf (Sample.go [(c!"x", .str c!" ")] c!"{:;x:}{:else; no :}") = some ([], c!"200") ∧
    Sample.outOf (Sample.go [(c!"x", .str c!" ")] c!"{:code; {:;x:} :}{:else; no :}") = some (c!"no", c!"200") ∧
    Sample.outOf (Sample.go [(c!"y", .str c!"Y")] c!"{:filled; y >> {:;z:} :}{:else; no :}") = some (c!"no", c!"200") ∧
    Sample.outOf (Sample.go [(c!"y", .str c!"Y")] c!"{:filled; y >> {:;z:} :}{:!filled; y >> no :}") = some ([], c!"200") := by
  refine ⟨?_, ?_, ?_, ?_⟩ <;> decide +kernel

end Nts
