import Verif.Lemmas.LangText
import Verif.Props.Loop
import Verif.Props.Flags
import Verif.Props.AllowBif
import Verif.Props.Join
import Verif.Props.Names
import Verif.Props.Place
import Verif.Props.EvalBif
import Verif.Props.FetchElem
import Verif.Props.Simple
import Verif.Props.Var
import Verif.Props.Obj
import Verif.Props.Data
import Verif.Props.Printed
/-
C77: the meaning of templates (Spec/Lang.lean).
-/
set_option autoImplicit false
namespace Nts
open Spec

/-! How deep the BIFs are nested. -/

mutual
/-- Depth of nesting. -/
def Node.depth : Node → Nat
  | .text _ => 0
  | .var _ _ => 0
  | .cond _ _ _ _ body => depthAll body + 1
  | .cmp _ _ _ a b body => max (max (depthAll a) (depthAll b)) (depthAll body) + 1
  | .els _ _ body => depthAll body + 1
  | .coalesce _ body => depthAll body + 1
  | .code _ body => depthAll body + 1
  | .each _ _ _ _ body => depthAll body + 1
  | .range _ _ _ _ body => depthAll body + 1
  | .param _ => 0
  | .setParam _ body => depthAll body + 1
  | .trans _ body => depthAll body + 1
  | .incl _ body => depthAll body + 1
  | .snippet _ _ body => depthAll body + 1
  | .leaf _ => 0
  | .replace a b body => max (max (depthAll a) (depthAll b)) (depthAll body) + 1
  | .allow _ _ body => depthAll body + 1
  | .eval _ _ test body => max (depthAll test) (depthAll body) + 1
  | .hash body => depthAll body + 1
/-- Of all. -/
def depthAll : List Node → Nat
  | [] => 0
  | x :: l => max (Node.depth x) (depthAll l)
end

/-! The number of BIFs evaluated. -/

/-- The count does not decrease. -/
def Mono (run : Mem → Str × Mem) : Prop := ∀ m, m.bifs ≤ (run m).2.bifs

theorem mono_block {plus : Bool} {run : Mem → Str × Mem} (h : Mono run) : Mono (blockOf plus run) := fun m => h m

theorem mono_arg {t : Str} {run : Mem → Str × Mem} (h : Mono run) : Mono (argOf t run) := by
  intro m
  unfold argOf
  split
  · exact h m
  · exact Nat.le_refl _

theorem mono_loop {plus : Bool} {run : Mem → Str × Mem} (h : Mono run) : ∀ l, Mono (loopOf plus run l)
  | [], m => Nat.le_refl _
  | vs :: l, m => by
    simp only [loopOf]
    exact Nat.le_trans (mono_block (plus := plus) h { m with data := setAll vs m.data }) (mono_loop h l _)

theorem mono_bif {al : Str} {run : Mem → Str × Mem} (h : Mono run) : Mono (bifOf al run) := by
  intro m
  unfold bifOf
  split
  · exact Nat.le_refl _
  · exact Nat.le_trans (Nat.le_succ _) (h { m with bifs := m.bifs + 1 })

theorem effect_bifs (k : Leaf) (m : Mem) : (k.effect m).bifs = m.bifs := by cases k <;> rfl

mutual
theorem mono_node (S : Site) : ∀ (x : Node) (al : Str), Mono (x.means S al)
  | .text t, al => fun m => by simp only [Node.means]; exact Nat.le_refl _
  | .var amp name, al => fun m => by
    simp only [Node.means]
    exact mono_bif (fun m => Nat.le_refl _) m
  | .cond neg plus kind name body, al => fun m => by
    simp only [Node.means]
    refine mono_bif (fun m => ?_) m
    split
    · exact Nat.le_refl _
    · exact mono_block (mono_all S body kind) m
  | .cmp neg plus kind a b body, al => fun m => by
    simp only [Node.means]
    refine mono_bif (fun m => ?_) m
    have h1 := mono_arg (t := printAll a) (mono_all S a kind) m
    have h2 := mono_arg (t := printAll b) (mono_all S b kind) (argOf (printAll a) (meansAll S kind a) m).2
    split
    · exact Nat.le_trans h1 h2
    · exact Nat.le_trans (Nat.le_trans h1 h2) (mono_block (mono_all S body kind) _)
  | .els neg plus body, al => fun m => by
    simp only [Node.means]
    refine mono_bif (fun m => ?_) m
    split
    · exact mono_block (mono_all S body _) m
    · exact Nat.le_refl _
  | .coalesce plus body, al => fun m => by
    simp only [Node.means]
    exact mono_bif (fun m => mono_block (mono_all S body _) { m with lastC := false }) m
  | .code plus body, al => fun m => by
    simp only [Node.means]
    exact mono_bif (mono_block (mono_all S body _)) m
  | .each plus coll key val body, al => fun m => by
    simp only [Node.means]
    refine mono_bif (fun m => ?_) m
    exact mono_loop (mono_all S body _) _ m
  | .range plus v a b body, al => fun m => by
    simp only [Node.means]
    refine mono_bif (fun m => ?_) m
    exact mono_loop (mono_all S body _) _ m
  | .param name, al => fun m => by
    simp only [Node.means]
    exact mono_bif (fun m => Nat.le_refl _) m
  | .setParam name body, al => fun m => by
    simp only [Node.means]
    refine mono_bif (fun m => ?_) m
    exact mono_block (plus := false) (mono_all S body _) m
  | .trans neg body, al => fun m => by
    simp only [Node.means]
    refine mono_bif (fun m => ?_) m
    exact mono_block (plus := false) (mono_all S body _) m
  | .incl path body, al => fun m => by
    simp only [Node.means]
    exact mono_bif (mono_block (mono_all S body _)) m
  | .snippet kind name body, al => fun m => by
    simp only [Node.means]
    exact mono_bif (mono_block (mono_all S body _)) m
  | .leaf k, al => fun m => by
    simp only [Node.means]
    exact mono_bif (fun m => Nat.le_of_eq (effect_bifs k m).symm) m
  | .replace a b body, al => fun m => by
    simp only [Node.means]
    refine mono_bif (fun m => ?_) m
    have h1 := mono_arg (t := printAll a) (mono_all S a c!"replace") m
    have h2 := mono_arg (t := printAll b) (mono_all S b c!"replace") (argOf (printAll a) (meansAll S c!"replace" a) m).2
    exact Nat.le_trans (Nat.le_trans h1 h2) (mono_block (plus := false) (mono_all S body c!"replace") _)
  | .allow neg name body, al => fun m => by
    simp only [Node.means]
    refine mono_bif (fun m => ?_) m
    exact mono_block (plus := false) (mono_all S body _) m
  | .eval neg plus test body, al => fun m => by
    simp only [Node.means]
    refine mono_bif (fun m => ?_) m
    have h1 := mono_block (plus := plus) (mono_all S test c!"eval") m
    split
    · split
      · exact Nat.le_trans h1 (mono_block (plus := plus) (mono_all S body c!"eval") { (blockOf plus (meansAll S c!"eval" test) m).2 with
          data := Obj.insert c!"__eval__" (.str (blockOf plus (meansAll S c!"eval" test) m).1)
            (blockOf plus (meansAll S c!"eval" test) m).2.data })
      · exact h1
    · exact h1
  | .hash body, al => fun m => by
    simp only [Node.means]
    refine mono_bif (fun m => ?_) m
    exact mono_block (plus := false) (mono_all S body _) m
theorem mono_all (S : Site) : ∀ (l : List Node) (al : Str), Mono (meansAll S al l)
  | [], al => fun m => by simp only [meansAll]; exact Nat.le_refl _
  | x :: l, al => fun m => by
    simp only [meansAll]
    exact Nat.le_trans (mono_node S x al m) (mono_all S l al _)
end

/-! States that agree with what the meaning refers to. -/

/-- The state `sh` is `sh0` with the data and the count of `m` (and some definitions of blocks). -/
def Holding (sh0 : Shared) (sc : Obj) (m : Mem) (sh : Shared) : Prop :=
  sh = { sh0 with schema := .obj (Obj.insert c!"data" (.obj m.data) sc), indir := sh.indir, count := m.bifs }

theorem Holding.counted {sh0 sh : Shared} {sc : Obj} {m : Mem} (h : Holding sh0 sc m sh) :
    Holding sh0 sc { m with bifs := m.bifs + 1 } (Spec.counted sh) := by
  unfold Holding at h ⊢
  rw [h]
  rfl

theorem Holding.other {sh0 sh : Shared} {sc : Obj} {m m' : Mem} (h : Holding sh0 sc m sh) (hd : m'.data = m.data)
    (hb : m'.bifs = m.bifs) : Holding sh0 sc m' sh := by
  unfold Holding at h ⊢
  rw [hd, hb]
  exact h

theorem Holding.indir {sh0 sh sh' : Shared} {sc : Obj} {m : Mem} (h : Holding sh0 sc m sh)
    (h' : sh' = { sh with indir := sh'.indir }) : Holding sh0 sc m sh' := by
  unfold Holding at h ⊢
  rw [h', h]

theorem Holding.data {sh0 sh : Shared} {sc : Obj} {m : Mem} (h : Holding sh0 sc m sh) :
    sh.schema.index c!"data" = .obj m.data := by
  rw [h]
  simp [Value.index, Value.get?, Obj.get?_insert_self]

theorem Obj.insert_twice (k : Str) (v w : Value) : ∀ o : Obj, Obj.insert k v (Obj.insert k w o) = Obj.insert k v o
  | [] => by simp [Obj.insert]
  | (a, x) :: o => by
    simp only [Obj.insert]
    by_cases h : a = k
    · rw [if_pos h, if_pos h]
      simp only [Obj.insert]
      rw [if_pos h]
    · rw [if_neg h, if_neg h]
      simp only [Obj.insert]
      rw [if_neg h, Obj.insert_twice k v w o]

theorem Holding.set {sh0 sh : Shared} {sc : Obj} {m : Mem} (h : Holding sh0 sc m sh) (k : Str) (v : Value) :
    ∃ sh', VarSet sh k v sh' ∧ Holding sh0 sc { m with data := Obj.insert k v m.data } sh' := by
  refine ⟨{ sh with schema := .obj (Obj.insert c!"data" (.obj (Obj.insert k v m.data)) sc) }, ?_, ?_⟩
  · refine ⟨Obj.insert c!"data" (.obj m.data) sc, m.data, by rw [h], Obj.get?_insert_self _ _ _, ?_⟩
    rw [Obj.insert_twice]
  · unfold Holding at h ⊢
    rw [h]

theorem Holding.setTo {sh0 sh sh' : Shared} {sc : Obj} {m : Mem} (h : Holding sh0 sc m sh) {k : Str} {v : Value}
    (hs : VarSet sh k v sh') : Holding sh0 sc { m with data := Obj.insert k v m.data } sh' := by
  obtain ⟨sc', d, h1, h2, rfl⟩ := hs
  rw [h] at h1
  simp only [Value.obj.injEq] at h1
  subst h1
  rw [Obj.get?_insert_self] at h2
  simp only [Option.some.injEq, Value.obj.injEq] at h2
  subst h2
  rw [Obj.insert_twice]
  unfold Holding at h ⊢
  rw [h]

/-- The site of a render. -/
structure Spec.SiteOf (env : Env) (sh0 : Shared) (S : Site) : Prop where
  F : S.F = env.f64
  filterAll : S.filterAll = sh0.filterAll
  sanitize : S.sanitize = sh0.filterBifs
  lang : S.lang = sh0.lang
  json : S.json = env.jsonParse
  md5 : S.md5 = env.md5
  file : ∀ path t, S.file path = some t → ∃ e canon, sh0.w.fs path = some e ∧ env.canon path = .ok canon ∧ e.content = some t

/-- The states agree with `m`, in a block of the BIF `al` at level `b`. -/
structure After (S : Site) (sh0 : Shared) (sc : Obj) (m : Mem) (b : Nat) (al : Str) (sh : Shared) (inh : Inherit) : Prop where
  hold : Holding sh0 sc m sh
  last : inh.lastBifOut = m.last
  lastC : inh.lastCoalesceOut = m.lastC
  alias : inh.alias = al
  level : AtLevel inh b
  sees : sh.indir inh.indir = some (.obj m.defs)
  params : entry m.defs c!"params" = .null ∨ ∃ o, entry m.defs c!"params" = .obj o
  snippets : entry m.defs c!"snippets" = S.snippets
  declared : entry m.defs c!"declare" = S.declared

/-- The definitions of the blocks outside are the same. -/
def Kept (b : Nat) (sh sh' : Shared) : Prop := ∀ j, j < b → sh'.indir (blockId j) = sh.indir (blockId j)

theorem Kept.refl (b : Nat) (sh : Shared) : Kept b sh sh := fun _ _ => rfl

theorem Kept.trans {b : Nat} {sh sh1 sh2 : Shared} (h : Kept b sh sh1) (h' : Kept b sh1 sh2) : Kept b sh sh2 :=
  fun j hj => (h' j hj).trans (h j hj)

theorem Kept.of_eq {b : Nat} {sh sh' : Shared} (h : sh'.indir = sh.indir) : Kept b sh sh' := fun _ _ => by rw [h]

theorem After.counted {S : Site} {sh0 sh : Shared} {sc : Obj} {m : Mem} {b : Nat} {al : Str} {inh : Inherit}
    (h : After S sh0 sc m b al sh inh) :
    After S sh0 sc { m with bifs := m.bifs + 1 } b al (Spec.counted sh) (entered sh inh) :=
  ⟨h.hold.counted, h.last, h.lastC, h.alias, ⟨h.level.count, h.level.block⟩, h.sees, h.params, h.snippets, h.declared⟩

/-- What is remembered of the last BIF is set. -/
theorem After.marked {S : Site} {sh0 sh : Shared} {sc : Obj} {m : Mem} {b : Nat} {al : Str} {inh : Inherit}
    (h : After S sh0 sc m b al sh inh) (x y : Bool) :
    After S sh0 sc { m with last := x, lastC := y } b al sh { inh with lastBifOut := x, lastCoalesceOut := y } :=
  ⟨h.hold.other rfl rfl, rfl, rfl, h.alias, ⟨h.level.count, h.level.block⟩, h.sees, h.params, h.snippets, h.declared⟩

/-- `run` is what evaluating `text` does, for states with room for `d` levels. -/
def Sound (env : Env) (S : Site) (sh0 : Shared) (sc : Obj) (text al : Str) (run : Mem → Str × Mem) (d : Nat) : Prop :=
  ∀ (n : Nat) (m : Mem) (sh : Shared) (inh : Inherit) (b : Nat), d ≤ n → After S sh0 sc m b al sh inh → (run m).2.bifs ≤ sh0.max →
    ∃ sh' inh', Produces env (runBlocks env n) [] text sh inh true (run m).1 sh' inh' ∧ After S sh0 sc (run m).2 b al sh' inh' ∧
      Kept b sh sh'

theorem sound_bif {env : Env} {S : Site} {sh0 : Shared} {sc : Obj} {text al : Str} {run : Mem → Str × Mem} {d : Nat}
    (hexit : sh0.exit = false) (hbif : IsBif text) (hmono : Mono run)
    (h : ∀ (n : Nat) (m : Mem) (sh : Shared) (inh : Inherit) (b : Nat), d ≤ n → After S sh0 sc m b al sh inh →
      After S sh0 sc { m with bifs := m.bifs + 1 } b al (counted sh) (entered sh inh) →
      sh.count < sh.max → (run { m with bifs := m.bifs + 1 }).2.bifs ≤ sh0.max →
      ∃ sh' inh', runBif env (runBlocks env n) sh inh text [] = finish false (run { m with bifs := m.bifs + 1 }).1 sh' inh' ∧
        After S sh0 sc (run { m with bifs := m.bifs + 1 }).2 b al sh' inh' ∧ Kept b (counted sh) sh') :
    Sound env S sh0 sc text al (bifOf al run) d := by
  intro n m sh inh b hd ha hmax
  have hx : sh.exit = false := by rw [ha.hold]; exact hexit
  unfold bifOf at hmax ⊢
  by_cases hsk : al = c!"coalesce" ∧ m.lastC = true
  · rw [if_pos hsk] at hmax ⊢
    refine ⟨sh, inh, ?_, ha, .refl _ _⟩
    have := Produces.skipped (env := env) (R := runBlocks env n) (only := []) hx hbif (ha.alias.trans hsk.1)
      (ha.lastC.trans hsk.2) (.nil sh inh)
    simpa using this
  · rw [if_neg hsk] at hmax ⊢
    simp only at hmax ⊢
    have hcnt : sh.count < sh.max := by
      have h1 := hmono { m with bifs := m.bifs + 1 }
      rw [ha.hold]
      show m.bifs < sh0.max
      simp only at h1
      omega
    obtain ⟨sh', inh', h1, h2, h3⟩ := h n m sh inh b hd ha ha.counted hcnt hmax
    refine ⟨sh', { inh' with
      lastBifOut := !(run { m with bifs := m.bifs + 1 }).1.isEmpty
      lastCoalesceOut := !(run { m with bifs := m.bifs + 1 }).1.isEmpty }, ?_, h2.marked _ _, h3⟩
    have := Produces.evaluated (env := env) (R := runBlocks env n) (only := []) hx hbif (by
      rintro ⟨e1, e2⟩
      exact hsk ⟨ha.alias.symm.trans e1, ha.lastC.symm.trans e2⟩) h1 (.nil _ _)
    simpa [finish] using this

theorem inside_level {inh : Inherit} {b : Nat} (h : AtLevel inh b) (name : Str) : AtLevel (inside name inh) (b + 1) := by
  obtain ⟨j, h1, h2, h3⟩ := h.block
  exact ⟨by simp [inside, h.count], j, h1, by omega, h3⟩

/-- A block. -/
theorem block_eval {R : Rec} {sh : Shared} {inh : Inherit} {name text only : Str} :
    block R false sh inh name text only = match parseSrc R sh (inside name inh) text only with
      | .ok out sh2 ci2 => .ok out (dropBlock sh2 ci2) inh
      | .panic p => .panic p
      | .oof => .oof := by
  have hci : childInherit ⟨sh, inh, { BifS.new with alias := name }, [], only⟩ = inside name inh := by
    simp [childInherit, inside, BifS.new]
  unfold block runChild
  rw [hci]
  simp only [Bool.false_eq_true, if_false]
  cases parseSrc R sh (inside name inh) text only <;> rfl

theorem block_plus {R : Rec} {sh : Shared} {inh : Inherit} {name text only : Str} :
    block R true sh inh name text only = match parseSrc R (createBlockSchema sh inh).1 (inside name inh) text only with
      | .ok out sh2 ci2 => .ok out (dropBlock (updateIndir sh2 ci2.indir (createBlockSchema sh inh).2.indir) ci2) (createBlockSchema sh inh).2
      | .panic p => .panic p
      | .oof => .oof := by
  have hci : childInherit ⟨sh, inh, { BifS.new with alias := name }, [], only⟩ = inside name inh := by
    simp [childInherit, inside, BifS.new]
  unfold block runChild
  rw [hci]
  simp only [if_true]
  cases parseSrc R (createBlockSchema sh inh).1 (inside name inh) text only <;> rfl

theorem nested_block {R : Rec} {plus : Bool} {sh : Shared} {inh : Inherit} {name text only : Str} (h : c!"{:" <:+: text) :
    nested R plus sh inh name text only = block R plus sh inh name text only := by
  unfold nested block
  rw [if_pos ((contains_iff (by decide)).2 h)]
  rfl

/-- Creating the own block of a level changes only its table. -/
theorem create_others {inh : Inherit} {b : Nat} (hb : AtLevel inh b) (sh : Shared) : ∀ z, z ≠ blockId b ∨ z = inh.indir →
    (createBlockSchema sh inh).1.indir z = sh.indir z := by
  intro z hz
  have hown := ownBlock hb sh
  simp only [createBlockSchema] at hown ⊢
  rw [hown]
  by_cases hi : inh.indir ≠ blockId b
  · rw [if_pos hi]
    cases hs : sh.indir inh.indir with
    | none => rfl
    | some v =>
      have : z ≠ blockId b := by
        rcases hz with hz | rfl
        · exact hz
        · exact hi
      simp [this]
  · rw [if_neg hi]

theorem create_own {inh : Inherit} {b : Nat} (hb : AtLevel inh b) (sh : Shared) {v : Value} (hv : sh.indir inh.indir = some v) :
    (createBlockSchema sh inh).1.indir (blockId b) = some v := by
  have hown := ownBlock hb sh
  simp only [createBlockSchema] at hown ⊢
  rw [hown]
  by_cases hi : inh.indir ≠ blockId b
  · rw [if_pos hi, hv]
    simp
  · rw [if_neg hi]
    simp only [ne_eq, Decidable.not_not] at hi
    rw [← hi, hv]

theorem create_inh {inh : Inherit} {b : Nat} (hb : AtLevel inh b) (sh : Shared) :
    (createBlockSchema sh inh).2 = { inh with indir := blockId b } := by
  have h1 := createBlockSchema_inh sh inh
  have h2 := ownBlock hb sh
  rw [h1] at h2 ⊢
  simp only at h2
  rw [h2]

/-- A block of a template is evaluated to what it means. -/
theorem sound_block {env : Env} {S : Site} {sh0 : Shared} {sc : Obj} {text t : Str} {plus : Bool} {run : Mem → Str × Mem} {d n : Nat}
    {name al : Str} (hs : Sound env S sh0 sc text name run d) (hgood : Good [] t) (ht : t = text ∨ t = trim text) {m : Mem} {sh : Shared}
    {inh : Inherit} {b : Nat} (hn : d < n) (ha : After S sh0 sc m b al sh inh) (hmax : (blockOf plus run m).2.bifs ≤ sh0.max) :
    ∃ sh' inh', block (runBlocks env n) plus sh inh name t [] = .ok (blockOf plus run m).1 sh' inh' ∧
      After S sh0 sc (blockOf plus run m).2 b al sh' inh' ∧ Kept b sh sh' ∧ inh' = { inh with indir := inh'.indir } := by
  obtain ⟨n, rfl⟩ : ∃ k, n = k + 1 := ⟨n - 1, by omega⟩
  have main : ∀ shc, shc = { sh with indir := shc.indir } → shc.indir inh.indir = sh.indir inh.indir →
      ∃ sh1 inh1, parseSrc (runBlocks env (n + 1)) shc (inside name inh) t [] = .ok (blockOf plus run m).1 sh1 inh1 ∧
        After S sh0 sc (run m).2 (b + 1) name sh1 inh1 ∧ Kept (b + 1) shc sh1 := by
    intro shc hshc hind
    obtain ⟨sh1, inh1, h1, h2, h3⟩ := hs n m shc (inside name inh) (b + 1) (by omega)
      ⟨ha.hold.indir hshc, ha.last, ha.lastC, rfl, inside_level ha.level name, hind.trans ha.sees, ha.params, ha.snippets, ha.declared⟩ hmax
    obtain ⟨z, h4, h5⟩ : ∃ z, Produces env (runBlocks env n) [] t shc (inside name inh) true z sh1 inh1 ∧ trim z = trim (run m).1 := by
      rcases ht with rfl | rfl
      · exact ⟨_, h1, rfl⟩
      · exact produces_trim h1
    obtain ⟨l, hwf⟩ := good_wf hgood rfl 0
    have hp := (C68_blocks env n shc sh1 (inside name inh) inh1 t [] (ended true z) l hwf).2 ⟨true, z, h4, rfl⟩
    exact ⟨sh1, inh1, by rw [hp]; simp only [ended, if_true, h5]; rfl, h2, h3⟩
  cases plus with
  | false =>
    obtain ⟨sh1, inh1, h1, h2, h3⟩ := main sh rfl rfl
    have hf := dropBlock_forgets sh1 inh1
    rw [h2.level.count] at hf
    have hk : ∀ j, j < b + 1 → (dropBlock sh1 inh1).indir (blockId j) = sh.indir (blockId j) := by
      intro j hj
      rw [hf.others _ (fun he => by have := blockId_inj he; omega), h3 j hj]
    refine ⟨dropBlock sh1 inh1, inh, by rw [block_eval, h1], ?_, fun j hj => hk j (by omega), rfl⟩
    obtain ⟨f, hf'⟩ := dropBlock_sh sh1 inh1
    refine ⟨(h2.hold.other (m' := (blockOf false run m).2) rfl rfl).indir (by rw [hf']), ha.last, ha.lastC, ha.alias, ha.level, ?_,
      ha.params, ha.snippets, ha.declared⟩
    obtain ⟨j, hj1, hj2, hj3⟩ := ha.level.block
    have hs := ha.sees
    rw [hj3] at hs ⊢
    rw [hk j (by omega), hs]
    rfl
  | true =>
    obtain ⟨g, hg⟩ := createBlockSchema_sh sh inh
    obtain ⟨sh1, inh1, h1, h2, h3⟩ := main (createBlockSchema sh inh).1 (by rw [hg]) (create_others ha.level sh _ (.inr rfl))
    have hi := create_inh ha.level sh
    have hu : updateIndir sh1 inh1.indir (blockId b) =
        { sh1 with indir := fun x => if x = blockId b then some (.obj (run m).2.defs) else sh1.indir x } := by
      unfold updateIndir
      rw [h2.sees]
    have hf := dropBlock_forgets (updateIndir sh1 inh1.indir (blockId b)) inh1
    rw [h2.level.count] at hf
    refine ⟨dropBlock (updateIndir sh1 inh1.indir (blockId b)) inh1, { inh with indir := blockId b }, ?_, ?_, ?_, rfl⟩
    · rw [block_plus, h1]
      simp only [hi]
    · refine ⟨(h2.hold.other (m' := (blockOf true run m).2) rfl rfl).indir ?_, ha.last, ha.lastC, ha.alias, ?_, ?_, h2.params, h2.snippets, h2.declared⟩
      · obtain ⟨f, hf'⟩ := dropBlock_sh (updateIndir sh1 inh1.indir (blockId b)) inh1
        rw [hf', hu]
      · rw [← hi]
        exact create_atLevel ha.level sh
      · show (dropBlock (updateIndir sh1 inh1.indir (blockId b)) inh1).indir (blockId b) = some (.obj (run m).2.defs)
        rw [hf.others _ (fun he => by have := blockId_inj he; omega), hu]
        simp
    · intro j hj
      have hne : blockId j ≠ blockId b := fun he => by have := blockId_inj he; omega
      rw [hf.others _ (fun he => by have := blockId_inj he; omega), hu]
      simp only [if_neg hne]
      rw [h3 j (by omega), create_others ha.level sh _ (.inl hne)]

/-- A template without BIFs is its text. -/
theorem text_means (S : Site) (al : Str) : ∀ (l : List Node), ¬ c!"{:" <:+: printAll l → ∀ m, meansAll S al l m = (printAll l, m)
  | [], _, m => by simp [meansAll, printAll]
  | x :: l, h, m => by
    simp only [printAll] at h
    have hl : ¬ c!"{:" <:+: printAll l := fun hx => h (hx.trans ⟨x.print, [], by simp⟩)
    have hx : ¬ c!"{:" <:+: x.print := fun hx => h (hx.trans ⟨[], printAll l, by simp⟩)
    cases x with
    | text t =>
      simp only [meansAll, Node.means, printAll, Node.print, text_means S al l hl]
    | _ => exact absurd ⟨[], _, by simp only [Node.print, bifText, List.append_assoc]; rfl⟩ hx

theorem noOpen_trim {s : Str} (ho : ¬ c!"{:" <:+: trim s) : ¬ c!"{:" <:+: s := by
  intro hx
  obtain ⟨w1, w2, h1, h2, h3⟩ := trim_parts s
  rw [h1] at hx
  have hw : ∀ {w : Str}, Blank w → ¬ c!"{:" <:+: w ∧ '{' ∉ w ∧ ':' ∉ w := by
    intro w hw
    refine ⟨fun h => blank_no hw (by decide : isWs '{' = false) (h.subset (by simp)), blank_no hw (by decide), blank_no hw (by decide)⟩
  refine pair_append (hw h2).1 (pair_append ho (hw h3).1 (.inr ?_)) (.inl ?_) hx
  · intro h; exact (hw h3).2.2 (List.mem_of_head? h)
  · intro h; exact (hw h2).2.1 (List.mem_of_getLast? h)

/-- The code of a BIF, shown. -/
theorem sound_shown {env : Env} {S : Site} {sh0 : Shared} {sc : Obj} {plus : Bool} {l : List Node} {name al : Str} {d n : Nat}
    (hs : Sound env S sh0 sc (printAll l) name (meansAll S name l) d) (hok : AllOk S name l) {m : Mem} {sh : Shared} {inh : Inherit}
    {b : Nat} (hn : d < n) (ha : After S sh0 sc m b al sh inh) (hmax : (blockOf plus (meansAll S name l) m).2.bifs ≤ sh0.max) :
    ∃ sh' inh', nested (runBlocks env n) plus sh inh name (trim (printAll l)) [] = .ok (blockOf plus (meansAll S name l) m).1 sh' inh' ∧
      After S sh0 sc (blockOf plus (meansAll S name l) m).2 b al sh' inh' ∧ Kept b sh sh' ∧ inh' = { inh with indir := inh'.indir } := by
  by_cases ho : c!"{:" <:+: trim (printAll l)
  · rw [nested_block ho]
    exact sound_block hs (good_trim (good_all l hok [] cont_nil)) (.inr rfl) hn ha hmax
  · rw [nested_plain ho]
    have e := text_means S name l (noOpen_trim ho) m
    refine ⟨sh, inh, ?_, ?_, .refl _ _, rfl⟩
    · simp [blockOf, e]
    · have : (blockOf plus (meansAll S name l) m).2 = m := by
        simp only [blockOf, e]
        cases plus <;> rfl
      rw [this]
      exact ha

/-- An argument. -/
theorem sound_arg {env : Env} {S : Site} {sh0 : Shared} {sc : Obj} {l : List Node} {name al : Str} {d n : Nat}
    (hs : Sound env S sh0 sc (printAll l) name (meansAll S name l) d) (hok : AllOk S name l) {m : Mem} {sh : Shared} {inh : Inherit}
    {b : Nat} (hn : d < n) (ha : After S sh0 sc m b al sh inh) (hmax : (argOf (printAll l) (meansAll S name l) m).2.bifs ≤ sh0.max) :
    ∃ sh' inh', nested (runBlocks env n) false sh inh name (printAll l) [] = .ok (argOf (printAll l) (meansAll S name l) m).1 sh' inh' ∧
      After S sh0 sc (argOf (printAll l) (meansAll S name l) m).2 b al sh' inh' ∧ Kept b sh sh' ∧ inh' = { inh with indir := inh'.indir } := by
  unfold argOf at hmax ⊢
  by_cases ho : c!"{:" <:+: printAll l
  · rw [if_pos ho] at hmax ⊢
    rw [nested_block ho]
    exact sound_block hs (good_all l hok [] cont_nil) (.inl rfl) hn ha hmax
  · rw [if_neg ho, nested_plain ho]
    exact ⟨sh, inh, rfl, ha, .refl _ _, rfl⟩

/-! The BIFs. -/

theorem After.vis {S : Site} {sh0 sh : Shared} {sc : Obj} {m : Mem} {b : Nat} {al : Str} {inh : Inherit}
    (h : After S sh0 sc m b al sh inh) (k : Str) : (sh.getIndir inh.indir).index k = entry m.defs k := by
  unfold Shared.getIndir
  rw [h.sees]
  rfl

theorem hold_named {S : Site} {sh0 sh : Shared} {sc : Obj} {m : Mem} {b : Nat} {al : Str} {inh : Inherit}
    (h : After S sh0 sc m b al sh inh) (name : Str) : Spec.named sh inh name = valueOf m name := by
  unfold Spec.named valueOf
  by_cases hp : c!"local::" <+: name
  · obtain ⟨r, rfl⟩ := hp
    rw [stripPrefix?_append, if_pos ⟨r, rfl⟩]
    show resolvePointer ((sh.getIndir inh.indir).index c!"data") r = _
    rw [h.vis]
    rfl
  · rw [stripPrefix?_eq_none.2 hp, if_neg hp, h.hold.data]

theorem name_noOpen {name : Str} (h : NameOk name) : ¬ c!"{:" <:+: name :=
  fun hx => (nameOk_braces h).1 (hx.subset (by simp))

theorem nameOk_self {name : Str} (h : NameOk name) : trim name = name := by
  have := nameOk_trim h [] [] (by intro c hc; simp at hc) (by intro c hc; simp at hc)
  simpa using this

theorem nameOk_spaces {name : Str} (h : NameOk name) : trim (c!" " ++ name ++ c!" ") = name := by
  have := nameOk_trim h c!" " c!" " blank_space blank_space
  simpa using this

theorem shownAs_eq (F : F64Ops) (v : Option Value) : textOf F v = shownAs F v := by
  unfold textOf shownAs
  split <;> simp_all

theorem sound_var {env : Env} {S : Site} {sh0 : Shared} {sc : Obj} (hexit : sh0.exit = false) (hS : SiteOf env sh0 S) {amp : Bool}
    {name al : Str} (hok : (Node.var amp name).Ok S al) :
    Sound env S sh0 sc (Node.var amp name).print al ((Node.var amp name).means S al) 0 := by
  have hbif := (shape_node _ hok).resolve_left (by rintro ⟨t, ht⟩; cases ht)
  simp only [Node.Ok] at hok
  simp only [Node.print] at hbif ⊢
  have e : (Node.var amp name).means S al = bifOf al (fun m =>
      (printedAs (amp || S.filterAll) S.sanitize name (shownAs S.F (valueOf m name)), m)) := by
    funext m; simp only [Node.means]
  rw [e]
  refine sound_bif hexit hbif (fun m => Nat.le_refl _) ?_
  intro n m sh inh b _ ha hc hcnt _
  refine ⟨counted sh, entered sh inh, ?_, hc, .refl _ _⟩
  have := var_exact env n sh (counted sh) inh (entered sh inh) (if amp then c!"&" else []) name [] name
    (by cases amp <;> (unfold Mods; decide)) (by cases amp <;> decide) hcnt (.inl rfl) (by rw [nameOk_self hok]; exact hok.some)
    (by rw [nameOk_self hok]; exact fun h => absurd h (name_noOpen hok))
    (by rw [nameOk_self hok]; exact nested_plain (name_noOpen hok))
  rw [this, hold_named hc, hS.F, hS.filterAll, hS.sanitize]
  have e1 : sh.filterBifs = sh0.filterBifs := by rw [ha.hold]
  have e2 : sh.filterAll = sh0.filterAll := by rw [ha.hold]
  have e3 : decide (Filtering sh (if amp then c!"&" else [])) = (amp || sh0.filterAll) := by
    cases amp <;> simp [Filtering, e2]
  have e4 : decide ('^' ∈ (if amp then c!"&" else [] : Str)) = false := by cases amp <;> decide
  have e5 : decide ('!' ∈ (if amp then c!"&" else [] : Str)) = false := by cases amp <;> decide
  rw [e1, e3, e4, e5, shownAs_eq]
  congr 1
  unfold varText printedAs
  by_cases hx : c!"CONTEXT->" <+: name
  · have := startsWith_iff.2 hx
    simp [this, hx]
  · have : startsWith c!"CONTEXT->" name = false := by rw [← Bool.not_eq_true, startsWith_iff]; exact hx
    simp [this, hx, reescape]

theorem truth_iff (env : Env) {kind : Str} (h : kind ∈ condNames) (v : Option Value) :
    truth env.f64 kind v = true ↔ ∃ w, v = some w ∧ Holds env kind w := by
  simp only [condNames, List.mem_cons, List.not_mem_nil, or_false] at h
  rcases h with rfl | rfl | rfl | rfl
  · rw [show truth env.f64 c!"array" v = (match v with
      | some (.arr _) | some (.obj _) => true
      | _ => false) from rfl]
    constructor
    · intro h
      split at h
      · exact ⟨_, rfl, .arr _⟩
      · exact ⟨_, rfl, .obj _⟩
      · simp at h
    · rintro ⟨w, rfl, h⟩
      generalize hn : c!"array" = k at h
      cases h with
      | arr a => rfl
      | obj o => rfl
      | _ => exact absurd hn (by decide)
  · rw [show truth env.f64 c!"bool" v = (match v with
      | none | some .null => false
      | some (.bool b) => b
      | some (.num (.int i)) => decide (0 < i)
      | some (.num (.flt x)) => env.f64.pos x
      | some (.arr a) => !a.isEmpty
      | some (.obj o) => !o.isEmpty
      | some (.str s) => decide (s ≠ []) && decide (s ≠ c!"false") && (match env.f64.parse s with | some x => env.f64.pos x | none => true)) from rfl]
    constructor
    · intro h
      split at h
      · simp at h
      · simp at h
      · subst h; exact ⟨_, rfl, .bTrue⟩
      · exact ⟨_, rfl, .bInt (by simpa using h)⟩
      · exact ⟨_, rfl, .bFlt h⟩
      · exact ⟨_, rfl, .bArr (by simpa using h)⟩
      · exact ⟨_, rfl, .bObj (by simpa using h)⟩
      · next s =>
        simp only [Bool.and_eq_true, decide_eq_true_eq] at h
        refine ⟨_, rfl, .bStr h.1.1 h.1.2 ?_⟩
        intro x hx
        have := h.2
        rw [hx] at this
        exact this
    · rintro ⟨w, rfl, h⟩
      generalize hn : c!"bool" = k at h
      cases h with
      | bTrue => rfl
      | bInt h => simpa using h
      | bFlt h => exact h
      | bArr h => simpa using h
      | bObj h => simpa using h
      | bStr h1 h2 h3 =>
        simp only [Bool.and_eq_true, decide_eq_true_eq]
        refine ⟨⟨h1, h2⟩, ?_⟩
        split
        · next x hx => exact h3 x hx
        · rfl
      | _ => exact absurd hn (by decide)
  · rw [show truth env.f64 c!"defined" v = (match v with
      | none | some .null => false
      | _ => true) from rfl]
    constructor
    · intro h
      split at h
      · simp at h
      · simp at h
      · next h1 h2 =>
        cases v with
        | none => exact absurd rfl h1
        | some w => exact ⟨w, rfl, .defined (fun hw => h2 (by rw [hw]))⟩
    · rintro ⟨w, rfl, h⟩
      generalize hn : c!"defined" = k at h
      cases h with
      | defined h => cases w <;> first | rfl | exact absurd rfl h
      | _ => exact absurd hn (by decide)
  · rw [show truth env.f64 c!"filled" v = (match v with
      | none | some .null | some (.str []) | some (.arr []) | some (.obj []) => false
      | _ => true) from rfl]
    constructor
    · intro h
      split at h
      · simp at h
      · simp at h
      · simp at h
      · simp at h
      · simp at h
      · next h1 h2 h3 h4 h5 =>
        cases v with
        | none => exact absurd rfl h1
        | some w => exact ⟨w, rfl, .filled (fun hw => h2 (by rw [hw])) (fun hw => h3 (by rw [hw])) (fun hw => h4 (by rw [hw]))
            (fun hw => h5 (by rw [hw]))⟩
    · rintro ⟨w, rfl, h⟩
      generalize hn : c!"filled" = k at h
      cases h with
      | filled h1 h2 h3 h4 =>
        cases w with
        | null => exact absurd rfl h1
        | str s => cases s <;> first | rfl | exact absurd rfl h2
        | arr s => cases s <;> first | rfl | exact absurd rfl h3
        | obj s => cases s <;> first | rfl | exact absurd rfl h4
        | _ => rfl
      | _ => exact absurd hn (by decide)

theorem mods_marks (neg plus : Bool) : Mods (marks neg plus) ∧ '&' ∉ marks neg plus ∧ ('!' ∈ marks neg plus ↔ neg = true) ∧
    decide ('^' ∈ marks neg plus) = false ∧ decide ('+' ∈ marks neg plus) = plus := by
  cases neg <;> cases plus
  · exact ⟨by unfold Mods; decide, by decide, by decide, by decide, by decide⟩
  · exact ⟨by unfold Mods; decide, by decide, by decide, by decide, by decide⟩
  · exact ⟨by unfold Mods; decide, by decide, by decide, by decide, by decide⟩
  · exact ⟨by unfold Mods; decide, by decide, by decide, by decide, by decide⟩

theorem shown_marks {R : Rec} {neg plus : Bool} {name c x : Str} {sh sh' : Shared} {inh inh' : Inherit}
    (h : nested R plus sh inh name c [] = .ok x sh' inh') : shown R (marks neg plus) name c [] sh inh = finish false x sh' inh' := by
  unfold shown
  rw [(mods_marks neg plus).2.2.2.2, h, (mods_marks neg plus).2.2.2.1]

theorem hidden_marks {neg plus : Bool} {sh : Shared} {inh : Inherit} : hidden (marks neg plus) sh inh = finish false [] sh inh := by
  unfold hidden
  rw [(mods_marks neg plus).2.2.2.1]

theorem good_space (k : Str) : Good k c!" " := by
  refine .chr ' ' ?_ ?_ ?_ (.nil _) <;> (rw [List.cons_append, pair_prefix]; exact fun h => absurd h.1 (by decide))

theorem name_parts {name B : Str} (h : NameOk name) : Parts (c!" " ++ name ++ c!" >> " ++ B ++ c!" ") (some name) (trim B) := by
  cases hn : name with
  | nil => exact absurd hn h.some
  | cons c r =>
    rw [← hn]
    refine parts_both hn (h.chars c (by rw [hn]; simp)).2.2 (by
      have := nameOk_trim h [] c!" " (by intro c hc; simp at hc) blank_space
      simpa using this) ?_
    intro k
    refine good_noSep (good_append (good_text ?_ ?_ h.noSep ?_) (good_space _))
    · exact name_noOpen h
    · exact fun hx => (nameOk_braces h).2 (hx.subset (by simp))
    · exact cont_blank _

theorem sound_cond {env : Env} {S : Site} {sh0 : Shared} {sc : Obj} (hexit : sh0.exit = false) (hS : SiteOf env sh0 S) {neg plus : Bool}
    {kind name al : Str} {body : List Node} (hok : (Node.cond neg plus kind name body).Ok S al)
    (ih : Sound env S sh0 sc (printAll body) kind (meansAll S kind body) (depthAll body)) :
    Sound env S sh0 sc (Node.cond neg plus kind name body).print al ((Node.cond neg plus kind name body).means S al)
      (depthAll body + 1) := by
  have hbif := (shape_node _ hok).resolve_left (by rintro ⟨t, ht⟩; cases ht)
  simp only [Node.Ok] at hok
  obtain ⟨hkind, hname, hbody⟩ := hok
  simp only [Node.print] at hbif ⊢
  have e : (Node.cond neg plus kind name body).means S al = bifOf al (fun m =>
      if truth S.F kind (valueOf m name) = neg then ([], m) else blockOf plus (meansAll S kind body) m) := by
    funext m; simp only [Node.means]
  rw [e]
  refine sound_bif hexit hbif ?_ ?_
  · intro m
    dsimp only
    split
    · exact Nat.le_refl _
    · exact mono_block (mono_all S body kind) m
  intro n m sh inh b hd ha hc hcnt hmax
  obtain ⟨m1, m2, m3, m4, m5⟩ := mods_marks neg plus
  have hC := C33_condition env (runBlocks env n) sh (counted sh) inh (entered sh inh) (marks neg plus) kind
    (c!" " ++ name ++ c!" >> " ++ printAll body ++ c!" ") [] name (trim (printAll body)) name hkind m1 m2 hcnt (.inl rfl)
    (name_parts hname) (evalParams_plain (name_noOpen hname)) (flagsOf_plain (name_noOpen hname))
  have hiff : Cond env kind (counted sh) (entered sh inh) name ↔ truth S.F kind (valueOf { m with bifs := m.bifs + 1 } name) = true := by
    rw [hS.F, truth_iff env hkind]
    unfold Cond
    rw [hold_named hc]
  by_cases ht : truth S.F kind (valueOf { m with bifs := m.bifs + 1 } name) = neg
  · rw [if_pos ht] at hmax ⊢
    refine ⟨counted sh, entered sh inh, ?_, hc, .refl _ _⟩
    rw [← hidden_marks (neg := neg) (plus := plus)]
    cases neg with
    | false => exact hC.2.2.1 (by rw [hiff, ht]; decide) (by rw [m3]; decide)
    | true => exact hC.2.1 (hiff.2 ht) (by rw [m3])
  · rw [if_neg ht] at hmax ⊢
    obtain ⟨sh', inh', h1, h2, h3, _⟩ := sound_shown ih hbody (n := n) (by omega) hc hmax
    refine ⟨sh', inh', ?_, h2, h3⟩
    rw [← shown_marks (neg := neg) h1]
    cases neg with
    | false => exact hC.1 (hiff.2 (by simpa using ht)) (by rw [m3]; decide)
    | true => exact hC.2.2.2 (by rw [hiff]; exact ht) (by rw [m3])

theorem sound_els {env : Env} {S : Site} {sh0 : Shared} {sc : Obj} (hexit : sh0.exit = false) {neg plus : Bool}
    {al : Str} {body : List Node} (hok : (Node.els neg plus body).Ok S al)
    (ih : Sound env S sh0 sc (printAll body) c!"else" (meansAll S c!"else" body) (depthAll body)) :
    Sound env S sh0 sc (Node.els neg plus body).print al ((Node.els neg plus body).means S al) (depthAll body + 1) := by
  have hbif := (shape_node _ hok).resolve_left (by rintro ⟨t, ht⟩; cases ht)
  simp only [Node.Ok] at hok
  simp only [Node.print] at hbif ⊢
  have e : (Node.els neg plus body).means S al = bifOf al (fun m =>
      if m.last = neg then blockOf plus (meansAll S c!"else" body) m else ([], m)) := by
    funext m; simp only [Node.means]
  rw [e]
  refine sound_bif hexit hbif ?_ ?_
  · intro m
    dsimp only
    split
    · exact mono_block (mono_all S body _) m
    · exact Nat.le_refl _
  intro n m sh inh b hd ha hc hcnt hmax
  obtain ⟨m1, m2, m3, m4, m5⟩ := mods_marks neg plus
  have hE := C34_else env (runBlocks env n) sh inh (marks neg plus) (c!" " ++ printAll body ++ c!" ") [] (trim (printAll body)) m1 m2 hcnt
    (.inl rfl) (parts_code hok)
  rw [hE]
  simp only at hmax ⊢
  have hcond : (inh.lastBifOut = true ↔ '!' ∈ marks neg plus) ↔ m.last = neg := by
    rw [m3, ha.last]
    cases m.last <;> cases neg <;> simp
  by_cases hl : m.last = neg
  · rw [if_pos hl] at hmax ⊢
    rw [if_pos (hcond.2 hl)]
    obtain ⟨sh', inh', h1, h2, h3, _⟩ := sound_shown ih hok (n := n) (by omega) hc hmax
    exact ⟨sh', inh', shown_marks h1, h2, h3⟩
  · rw [if_neg hl, if_neg (fun h => hl (hcond.1 h))]
    exact ⟨counted sh, entered sh inh, hidden_marks, hc, .refl _ _⟩

theorem sound_code {env : Env} {S : Site} {sh0 : Shared} {sc : Obj} (hexit : sh0.exit = false) {plus : Bool}
    {al : Str} {body : List Node} (hok : (Node.code plus body).Ok S al)
    (ih : Sound env S sh0 sc (printAll body) c!"code" (meansAll S c!"code" body) (depthAll body)) :
    Sound env S sh0 sc (Node.code plus body).print al ((Node.code plus body).means S al) (depthAll body + 1) := by
  have hbif := (shape_node _ hok).resolve_left (by rintro ⟨t, ht⟩; cases ht)
  simp only [Node.Ok] at hok
  simp only [Node.print] at hbif ⊢
  have e : (Node.code plus body).means S al = bifOf al (blockOf plus (meansAll S c!"code" body)) := by
    funext m; simp only [Node.means]
  rw [e]
  refine sound_bif hexit hbif (mono_block (mono_all S body _)) ?_
  intro n m sh inh b hd ha hc hcnt hmax
  obtain ⟨m1, m2, m3, m4, m5⟩ := mods_marks false plus
  obtain ⟨sh', inh', h1, h2, h3, _⟩ := sound_shown ih hok (n := n) (by omega) hc hmax
  refine ⟨sh', inh', ?_, h2, h3⟩
  have hfl : flagsOf (counted sh) ((none : Option Str).getD []) = [] := flagsOf_plain (by decide)
  have := C70_code env (runBlocks env n) sh (counted sh) sh' inh (entered sh inh) inh' (marks false plus)
    (c!" " ++ printAll body ++ c!" ") [] (trim (printAll body)) [] _ none m1 m2 (by rw [m3]; decide) hcnt (.inl rfl)
    (parts_code hok) (evalParams_plain (by decide)) (by rw [hfl]; decide) (by rw [hfl]; unfold FlagsIn; decide)
    (by
      rw [hfl, if_neg (by decide), m5]
      unfold codeBefore
      rw [if_neg (by decide), if_neg (by decide)]
      exact h1)
  rw [this, m4]
  rfl

theorem coalesce_block (env : Env) (R : Rec) (sh : Shared) (inh : Inherit) (plus : Bool) (src only : Str) (hmax : sh.count < sh.max)
    (hsel : Selected inh (marks false plus) c!"coalesce" only) :
    runBif env R sh inh (bifText (marks false plus) c!"coalesce" src) only =
      match block R plus (counted sh) { entered sh inh with lastCoalesceOut := false } c!"coalesce" (trim src) only with
      | .ok x sh' inh' => finish false x sh' inh'
      | .panic p => .panic p
      | .oof => .oof := by
  have hnm : Named c!"coalesce" := by
    refine ⟨by decide, ?_⟩
    intro c r hc
    injection hc with h1 h2
    subst h1
    decide
  obtain ⟨m1, m2, m3, m4, m5⟩ := mods_marks false plus
  rw [runBif_text env R sh inh _ c!"coalesce" src only m1 hnm hmax hsel]
  have hbody : bifBody env c!"coalesce" = bifCoalesce := rfl
  rw [hbody]
  unfold bifCoalesce
  simp only [run_bind, run_denyMods]
  rw [if_neg (by simp [start, m2, m3])]
  simp only [andThen_ok, run_op_setLastCoalesce, step, toRes_ok, run_getSt, run_setOut]
  change bifResult env ((run R (childParse (trim src) (decide ('+' ∈ marks false plus))) _).andThen _) = _
  rw [m5, run_child_evaluated R _ _ rfl rfl]
  change bifResult env (Res.andThen (match block R plus (counted sh) { entered sh inh with lastCoalesceOut := false }
      c!"coalesce" (trim src) only with
    | .ok x sh' inh' => _
    | .panic p => _
    | .oof => _) _) = _
  cases block R plus (counted sh) { entered sh inh with lastCoalesceOut := false } c!"coalesce" (trim src) only with
  | ok x sh' inh' =>
    simp only [andThen_ok, bifResult, bifFinish, finish, start, m4]
  | panic p => rfl
  | oof => rfl

theorem sound_coalesce {env : Env} {S : Site} {sh0 : Shared} {sc : Obj} (hexit : sh0.exit = false) {plus : Bool}
    {al : Str} {body : List Node} (hok : (Node.coalesce plus body).Ok S al)
    (ih : Sound env S sh0 sc (printAll body) c!"coalesce" (meansAll S c!"coalesce" body) (depthAll body)) :
    Sound env S sh0 sc (Node.coalesce plus body).print al ((Node.coalesce plus body).means S al) (depthAll body + 1) := by
  have hbif := (shape_node _ hok).resolve_left (by rintro ⟨t, ht⟩; cases ht)
  simp only [Node.Ok] at hok
  simp only [Node.print] at hbif ⊢
  have e : (Node.coalesce plus body).means S al = bifOf al (fun m =>
      blockOf plus (meansAll S c!"coalesce" body) { m with lastC := false }) := by
    funext m; simp only [Node.means]
  rw [e]
  refine sound_bif hexit hbif (fun m => mono_block (mono_all S body _) { m with lastC := false }) ?_
  intro n m sh inh b hd ha hc hcnt hmax
  have htrim : trim (c!" " ++ printAll body ++ c!" ") = trim (printAll body) := by
    rw [List.append_assoc, trim_outer blank_space blank_space]
  have hc' := hc.marked m.last false
  have e0 : ({ entered sh inh with lastBifOut := m.last, lastCoalesceOut := false } : Inherit) =
      { entered sh inh with lastCoalesceOut := false } := by
    rw [← ha.last]; rfl
  rw [e0] at hc'
  obtain ⟨sh', inh', h1, h2, h3, _⟩ := sound_block ih (good_trim (good_all body hok [] cont_nil)) (.inr rfl) (n := n) (by omega) hc' hmax
  refine ⟨sh', inh', ?_, h2, h3⟩
  rw [coalesce_block env _ sh inh _ _ [] hcnt (.inl rfl), htrim, h1]

/-! comparisons -/

theorem compare_iff {kind : Str} (h : kind ∈ cmpNames) (a b : Str) : compare kind a b = true ↔ Compares kind a b := by
  simp only [cmpNames, List.mem_cons, List.not_mem_nil, or_false] at h
  rcases h with rfl | rfl
  · rw [show compare c!"contains" a b = decide (b <:+: a) from rfl, decide_eq_true_iff]
    constructor
    · exact .contains
    · intro h
      generalize hn : c!"contains" = k at h
      cases h with
      | contains h => exact h
      | same => exact absurd hn (by decide)
  · rw [show compare c!"same" a b = decide (a = b) from rfl, decide_eq_true_iff]
    constructor
    · rintro rfl; exact .same a
    · intro h
      generalize hn : c!"same" = k at h
      cases h with
      | same => rfl
      | contains => exact absurd hn (by decide)

theorem splitChar_args {d : Char} {a b : Str} (ha : d ∉ a) (hb : d ∉ b) :
    splitChar d (d :: (a ++ d :: (b ++ [d]))) = [[], a, b, []] := by
  unfold splitChar
  rw [splitCharGo, if_pos rfl, splitCharGo_append d [] a _ ha, splitCharGo, if_pos rfl, splitCharGo_append d [] b _ hb, splitCharGo,
    if_pos rfl]
  simp [splitCharGo]

theorem good_slash {k : Str} : Good k c!"/" := by
  refine .chr '/' ?_ ?_ ?_ (.nil _) <;> (rw [List.cons_append, pair_prefix]; exact fun h => absurd h.1 (by decide))


theorem cmp_parts {S : Site} {al : Str} {a b : List Node} (ha : AllOk S al a) (hb : AllOk S al b) (B : Str) :
    Parts (c!" /" ++ printAll a ++ c!"/" ++ printAll b ++ c!"/ >> " ++ B ++ c!" ")
      (some ('/' :: (printAll a ++ '/' :: (printAll b ++ c!"/")))) (trim B) := by
  have := parts_both (P := '/' :: (printAll a ++ '/' :: (printAll b ++ c!"/"))) (B := B) rfl (by decide) (by
      rw [trim_blankEnd blank_space]
      unfold trim
      have : trimStart ('/' :: (printAll a ++ '/' :: (printAll b ++ c!"/"))) = '/' :: (printAll a ++ '/' :: (printAll b ++ c!"/")) := by
        unfold trimStart
        rw [List.dropWhile_cons_of_neg (by decide)]
      rw [this]
      have := trimEnd_last (x := '/' :: (printAll a ++ '/' :: printAll b)) (c := '/') (by decide)
      simpa using this)
    (by
      intro k
      have e : '/' :: (printAll a ++ '/' :: (printAll b ++ c!"/")) ++ c!" " =
        c!"/" ++ (printAll a ++ (c!"/" ++ (printAll b ++ (c!"/" ++ c!" ")))) := by simp
      rw [e]
      refine good_noSep (good_append good_slash (good_append (good_all a ha _ ?_) (good_append good_slash
        (good_append (good_all b hb _ ?_) (good_append good_slash (good_space _))))))
      · exact cont_slash _
      · exact cont_slash _)
  simpa using this

theorem cmp_noFlags {S : Site} {al : Str} {a b : List Node} (ha : AllOk S al a) (hb : AllOk S al b) :
    ¬ c!"{:flg;" <:+: '/' :: (printAll a ++ '/' :: (printAll b ++ c!"/")) := by
  have h1 : Skips c!"flg;" c!"/" := skips_noBrace (by decide)
  have h := skips_append h1 (skips_append (skips_all (.inl rfl) a ha) (skips_append h1 (skips_append (skips_all (.inl rfl) b hb) h1))) []
  intro hx
  have := h (by simpa using hx)
  exact absurd this.length_le (by decide)

theorem arg_kept {t : Str} {run : Mem → Str × Mem} (m : Mem) : (argOf t run m).2.last = m.last ∧ (argOf t run m).2.lastC = m.lastC := by
  unfold argOf; split <;> exact ⟨rfl, rfl⟩

theorem sound_cmp {env : Env} {S : Site} {sh0 : Shared} {sc : Obj} (hexit : sh0.exit = false) {neg plus : Bool}
    {kind al : Str} {a b body : List Node} (hok : (Node.cmp neg plus kind a b body).Ok S al)
    (iha : Sound env S sh0 sc (printAll a) kind (meansAll S kind a) (depthAll a))
    (ihb : Sound env S sh0 sc (printAll b) kind (meansAll S kind b) (depthAll b))
    (ih : Sound env S sh0 sc (printAll body) kind (meansAll S kind body) (depthAll body)) :
    Sound env S sh0 sc (Node.cmp neg plus kind a b body).print al ((Node.cmp neg plus kind a b body).means S al)
      (max (max (depthAll a) (depthAll b)) (depthAll body) + 1) := by
  have hbif := (shape_node _ hok).resolve_left (by rintro ⟨t, ht⟩; cases ht)
  simp only [Node.Ok] at hok
  obtain ⟨hkind, hoka, hokb, hbody, hsa, hsb⟩ := hok
  simp only [Node.print] at hbif ⊢
  have e : (Node.cmp neg plus kind a b body).means S al = bifOf al (fun m =>
      if compare kind (argOf (printAll a) (meansAll S kind a) m).1
          (argOf (printAll b) (meansAll S kind b) (argOf (printAll a) (meansAll S kind a) m).2).1 = neg then
        ([], (argOf (printAll b) (meansAll S kind b) (argOf (printAll a) (meansAll S kind a) m).2).2)
      else blockOf plus (meansAll S kind body) (argOf (printAll b) (meansAll S kind b) (argOf (printAll a) (meansAll S kind a) m).2).2) := by
    funext m; simp only [Node.means]
  rw [e]
  have hma := mono_arg (t := printAll a) (mono_all S a kind)
  have hmb := mono_arg (t := printAll b) (mono_all S b kind)
  have hmc := mono_block (plus := plus) (mono_all S body kind)
  refine sound_bif hexit hbif ?_ ?_
  · intro m
    dsimp only
    split
    · exact Nat.le_trans (hma m) (hmb _)
    · exact Nat.le_trans (Nat.le_trans (hma m) (hmb _)) (hmc _)
  intro n m sh inh lv hd ha hc hcnt hmax
  obtain ⟨m1, m2, m3, m4, m5⟩ := mods_marks neg plus
  generalize hra : argOf (printAll a) (meansAll S kind a) { m with bifs := m.bifs + 1 } = ra at hmax ⊢
  generalize hrb : argOf (printAll b) (meansAll S kind b) ra.2 = rb at hmax ⊢
  have hmaxb : rb.2.bifs ≤ sh0.max := by
    split at hmax
    · exact hmax
    · exact Nat.le_trans (hmc rb.2) hmax
  have hmaxa : ra.2.bifs ≤ sh0.max := by
    have := hmb ra.2
    rw [hrb] at this
    exact Nat.le_trans this hmaxb
  obtain ⟨sha, inha, ha1, ha2, ha3, _⟩ := sound_arg iha hoka (n := n) (by omega) hc (by rw [hra]; exact hmaxa)
  rw [hra] at ha1 ha2
  obtain ⟨shb, inhb, hb1, hb2, hb3, _⟩ := sound_arg ihb hokb (n := n) (by omega) ha2 (by rw [hrb]; exact hmaxb)
  rw [hrb] at hb1 hb2
  have hkab := ha3.trans hb3
  have hargs : ArgsGive (runBlocks env n) kind [] (splitChar '/' ('/' :: (printAll a ++ '/' :: (printAll b ++ c!"/"))))
      (counted sh) (entered sh inh) ([] :: ra.1 :: rb.1 :: [[]]) shb inhb := by
    rw [splitChar_args hsa hsb]
    exact .cons (nested_plain (by decide)) (.cons ha1 (.cons hb1 (.cons (nested_plain (by decide)) (.nil _ _))))
  have hC := C33_compare env (runBlocks env n) sh shb inh inhb (marks neg plus) kind
    (c!" /" ++ printAll a ++ c!"/" ++ printAll b ++ c!"/ >> " ++ printAll body ++ c!" ") [] _ (trim (printAll body)) '/'
    [] ra.1 rb.1 [[]] hkind m1 m2 hcnt (.inl rfl) (cmp_parts hoka hokb _) (cmp_noFlags hoka hokb) hargs
  have hiff := compare_iff hkind ra.1 rb.1
  by_cases ht : compare kind ra.1 rb.1 = neg
  · rw [if_pos ht] at hmax ⊢
    refine ⟨shb, inhb, ?_, hb2, hkab⟩
    rw [← hidden_marks (neg := neg) (plus := plus)]
    cases neg with
    | false => exact hC.2.2.1 (by rw [← hiff, ht]; decide) (by rw [m3]; decide)
    | true => exact hC.2.1 (hiff.1 ht) (by rw [m3])
  · rw [if_neg ht] at hmax ⊢
    obtain ⟨sh', inh', h1, h2, h3, _⟩ := sound_shown ih hbody (n := n) (by omega) hb2 hmax
    refine ⟨sh', inh', ?_, h2, hkab.trans h3⟩
    rw [← shown_marks (neg := neg) h1]
    cases neg with
    | false => exact hC.1 (hiff.1 (by simpa using ht)) (by rw [m3]; decide)
    | true => exact hC.2.2.2 (by rw [← hiff]; exact ht) (by rw [m3])

/-! loops -/

theorem elements_of (v : Option Value) : Elements (v.getD .null) (elementsOf v) := by
  cases v with
  | none => exact .none (by simp) (by simp)
  | some v =>
    cases v with
    | obj o => exact .obj o
    | arr a =>
      refine .arr a _ (by simp [elementsOf]) ?_
      intro i v hv
      unfold elementsOf
      rw [List.getElem?_map, List.getElem?_zipIdx]
      simp [hv]
    | _ => exact .none (by simp) (by simp)

theorem After.setTo {S : Site} {sh0 sh sh' : Shared} {sc : Obj} {m : Mem} {b : Nat} {al : Str} {inh : Inherit}
    (h : After S sh0 sc m b al sh inh) {k : Str} {v : Value} (hv : VarSet sh k v sh') :
    After S sh0 sc { m with data := Obj.insert k v m.data } b al sh' inh ∧ Kept b sh sh' := by
  have hi : sh'.indir = sh.indir := by
    obtain ⟨sc', d, h1, h2, rfl⟩ := hv
    rfl
  exact ⟨⟨h.hold.setTo hv, h.last, h.lastC, h.alias, h.level, by rw [hi]; exact h.sees, h.params, h.snippets, h.declared⟩, .of_eq hi⟩

theorem After.set {S : Site} {sh0 sh : Shared} {sc : Obj} {m : Mem} {b : Nat} {al : Str} {inh : Inherit}
    (h : After S sh0 sc m b al sh inh) (k : Str) (v : Value) :
    ∃ sh', VarSet sh k v sh' ∧ After S sh0 sc { m with data := Obj.insert k v m.data } b al sh' inh ∧ Kept b sh sh' := by
  obtain ⟨sh', h1, _⟩ := h.hold.set k v
  exact ⟨sh', h1, h.setTo h1⟩

/-- One round. -/
theorem sound_round {env : Env} {S : Site} {sh0 : Shared} {sc : Obj} {body : List Node} {d n : Nat} {name al : Str} {plus : Bool}
    (hs : Sound env S sh0 sc (printAll body) name (meansAll S name body) d) (hok : AllOk S name body) {b : Nat} (hn : d < n)
    {l : List (List (Str × Value))} {out : Str} {m' : Mem} {sh1 : Shared} :
    ∀ (vs : List (Str × Value)) {m : Mem} {sh : Shared} {inh : Inherit}, After S sh0 sc m b al sh inh → Kept b sh1 sh →
    (blockOf plus (meansAll S name body) { m with data := setAll vs m.data }).2.bifs ≤ sh0.max →
    (∀ {sh2 : Shared} {inh2 : Inherit},
      After S sh0 sc (blockOf plus (meansAll S name body) { m with data := setAll vs m.data }).2 b al sh2 inh2 → Kept b sh1 sh2 →
      ∃ sh' inh', Rounds (runBlocks env n) plus name (trim (printAll body)) [] l sh2 inh2 out sh' inh' ∧
        After S sh0 sc m' b al sh' inh' ∧ Kept b sh1 sh') →
    ∃ sh' inh', Rounds (runBlocks env n) plus name (trim (printAll body)) [] (vs :: l) sh inh
      ((blockOf plus (meansAll S name body) { m with data := setAll vs m.data }).1 ++ out) sh' inh' ∧
      After S sh0 sc m' b al sh' inh' ∧ Kept b sh1 sh'
  | [], m, sh, inh, ha, hk, hmax, hrest => by
    have e : ({ m with data := setAll [] m.data } : Mem) = m := rfl
    rw [e] at hmax hrest ⊢
    obtain ⟨sh2, inh2, h1, h2, h3, _⟩ := sound_block hs (good_trim (good_all body hok [] cont_nil)) (.inr rfl) hn ha hmax
    obtain ⟨sh', inh', h4, h5, h6⟩ := hrest h2 (hk.trans h3)
    exact ⟨sh', inh', .eval h1 h4, h5, h6⟩
  | (k, v) :: vs, m, sh, inh, ha, hk, hmax, hrest => by
    obtain ⟨sh2, h1, h2, h3⟩ := ha.set k v
    obtain ⟨sh', inh', h4, h5, h6⟩ := sound_round hs hok hn vs h2 (hk.trans h3) hmax hrest
    exact ⟨sh', inh', .set h1 h4, h5, h6⟩

theorem sound_rounds {env : Env} {S : Site} {sh0 : Shared} {sc : Obj} {body : List Node} {d n : Nat} {name al : Str} {plus : Bool}
    (hs : Sound env S sh0 sc (printAll body) name (meansAll S name body) d) (hok : AllOk S name body) {b : Nat} (hn : d < n)
    {sh1 : Shared} : ∀ (l : List (List (Str × Value))) {m : Mem} {sh : Shared} {inh : Inherit}, After S sh0 sc m b al sh inh →
    Kept b sh1 sh → (loopOf plus (meansAll S name body) l m).2.bifs ≤ sh0.max →
    ∃ sh' inh', Rounds (runBlocks env n) plus name (trim (printAll body)) [] l sh inh (loopOf plus (meansAll S name body) l m).1 sh' inh' ∧
      After S sh0 sc (loopOf plus (meansAll S name body) l m).2 b al sh' inh' ∧ Kept b sh1 sh'
  | [], m, sh, inh, ha, hk, _ => ⟨sh, inh, .nil _ _, ha, hk⟩
  | vs :: l, m, sh, inh, ha, hk, hmax => by
    simp only [loopOf] at hmax ⊢
    exact sound_round hs hok hn vs ha hk (Nat.le_trans (mono_loop (mono_all S body name) l _) hmax)
      (fun h2 h3 => sound_rounds hs hok hn l h2 h3 hmax)

theorem each_words {a k v : Str} (ha : NameOk a) (hk : NameOk k) (hv : NameOk v) : Words (a ++ c!" " ++ k ++ c!" " ++ v) [a, k, v] := by
  have h : Words ([] ++ a ++ (c!" " ++ k ++ (c!" " ++ v ++ []))) [a, k, v] := by
    refine .cons (fun c hc => by simp at hc) ha.some (fun c hc => (ha.chars c hc).2.2) (by simp; decide) ?_
    refine .cons blank_space hk.some (fun c hc => (hk.chars c hc).2.2) (by simp; decide) ?_
    exact .cons blank_space hv.some (fun c hc => (hv.chars c hc).2.2) (by simp) (.nil (fun c hc => by simp at hc))
  simpa using h

theorem good_name {t : Str} (h : NameOk t) (k : Str) : Good (' ' :: k) t :=
  good_text (name_noOpen h) (fun hx => (nameOk_braces h).2 (hx.subset (by simp))) h.noSep (cont_blank _)

theorem words_parts {a x v B : Str} (ha : NameOk a) (hv : NameOk v) (hx : ∀ k, Good (v ++ ' ' :: k) x) :
    Parts (c!" " ++ (a ++ c!" " ++ x ++ v) ++ c!" >> " ++ B ++ c!" ") (some (a ++ c!" " ++ x ++ v)) (trim B) := by
  cases hn : a with
  | nil => exact absurd hn ha.some
  | cons c r =>
    rw [← hn]
    have := parts_both (P := a ++ c!" " ++ x ++ v) (B := B) (c := c) (r := r ++ c!" " ++ x ++ v) (by rw [hn]; simp)
      (ha.chars c (by rw [hn]; simp)).2.2 (by
        rw [trim_blankEnd blank_space]
        obtain ⟨v', z, hz⟩ : ∃ v' z, v = v' ++ [z] := ⟨v.dropLast, v.getLast hv.some, (List.dropLast_concat_getLast hv.some).symm⟩
        unfold trim
        have : trimStart (a ++ c!" " ++ x ++ v) = a ++ c!" " ++ x ++ v := by
          unfold trimStart
          rw [hn]
          simp only [List.cons_append]
          rw [List.dropWhile_cons_of_neg (by simp [(ha.chars c (by rw [hn]; simp)).2.2])]
        rw [this, hz, ← List.append_assoc, trimEnd_last (hv.chars z (by rw [hz]; simp)).2.2]) (by
        intro j
        have e : a ++ c!" " ++ x ++ v ++ c!" " = a ++ (c!" " ++ (x ++ (v ++ c!" "))) := by simp
        rw [e]
        refine good_noSep (good_append (good_name ha _) (good_append (good_space _) (good_append ?_
          (good_append (good_name hv _) (good_space _)))))
        have := hx (c!">>" ++ j)
        simpa using this)
    simpa using this

theorem each_parts {a k v B : Str} (ha : NameOk a) (hk : NameOk k) (hv : NameOk v) :
    Parts (c!" " ++ (a ++ c!" " ++ k ++ c!" " ++ v) ++ c!" >> " ++ B ++ c!" ") (some (a ++ c!" " ++ k ++ c!" " ++ v)) (trim B) := by
  have := words_parts (x := k ++ c!" ") (B := B) ha hv (fun j => good_append (good_name hk _) (good_space _))
  simpa using this

theorem sound_each {env : Env} {S : Site} {sh0 : Shared} {sc : Obj} (hexit : sh0.exit = false) {plus : Bool}
    {al coll key val : Str} {body : List Node} (hok : (Node.each plus coll key val body).Ok S al)
    (ih : Sound env S sh0 sc (printAll body) c!"each" (meansAll S c!"each" body) (depthAll body)) :
    Sound env S sh0 sc (Node.each plus coll key val body).print al ((Node.each plus coll key val body).means S al)
      (depthAll body + 1) := by
  have hbif := (shape_node _ hok).resolve_left (by rintro ⟨t, ht⟩; cases ht)
  simp only [Node.Ok] at hok
  obtain ⟨hcoll, hkey, hval, hbody⟩ := hok
  simp only [Node.print] at hbif ⊢
  have e : (Node.each plus coll key val body).means S al = bifOf al (fun m =>
      ((loopOf plus (meansAll S c!"each" body)
          ((elementsOf (valueOf m coll)).map (fun kv => [(key, .str kv.1), (val, kv.2)])) m).1,
       { (loopOf plus (meansAll S c!"each" body)
          ((elementsOf (valueOf m coll)).map (fun kv => [(key, .str kv.1), (val, kv.2)])) m).2 with
         data := Obj.insert val (entry m.data val) (Obj.insert key (entry m.data key)
          (loopOf plus (meansAll S c!"each" body)
            ((elementsOf (valueOf m coll)).map (fun kv => [(key, .str kv.1), (val, kv.2)])) m).2.data) })) := by
    funext m; simp only [Node.means]
  rw [e]
  refine sound_bif hexit hbif ?_ ?_
  · intro m
    exact mono_loop (mono_all _ body _) _ m
  intro n m sh inh b hd ha hc hcnt hmax
  obtain ⟨m1, m2, m3, m4, m5⟩ := mods_marks false plus
  obtain ⟨sh2, inh2, hr, ha2, hk2⟩ := sound_rounds ih hbody (n := n) (by omega) _ hc (.refl _ _) hmax
  have hno : ¬ c!"{:" <:+: coll ++ c!" " ++ key ++ c!" " ++ val := by
    intro hx
    have : '{' ∈ coll ++ c!" " ++ key ++ c!" " ++ val := hx.subset (by simp)
    exact (each_braces hcoll hkey.1 hval.1).1 this
  obtain ⟨bl, hwf⟩ := good_wf (good_trim (good_all body hbody [] cont_nil)) rfl 0
  have hcl : Collection (counted sh) (entered sh inh) coll ((valueOf { m with bifs := m.bifs + 1 } coll).getD .null) := by
    unfold valueOf
    by_cases hp : c!"local::" <+: coll
    · obtain ⟨r, rfl⟩ := hp
      refine .inl ⟨r, rfl, ?_⟩
      rw [if_pos ⟨r, rfl⟩, hc.vis]
      rfl
    · exact .inr ⟨hp, by rw [if_neg hp, hc.hold.data]⟩
  obtain ⟨shk, sh3, h1, h2, h3⟩ := each_exact env (runBlocks env n) sh (counted sh) sh2 inh (entered sh inh) inh2
    (marks false plus) (c!" " ++ (coll ++ c!" " ++ key ++ c!" " ++ val) ++ c!" >> " ++ printAll body ++ c!" ") [] _ (trim (printAll body)) _
    coll key val _ [] bl ((valueOf { m with bifs := m.bifs + 1 } coll).getD .null) (elementsOf (valueOf { m with bifs := m.bifs + 1 } coll))
    (Obj.insert c!"data" (.obj _) sc) _
    m1 m2 (by rw [m3]; decide) hcnt (.inl rfl) (each_parts hcoll hkey.1 hval.1) (evalParams_plain hno) (flagsOf_plain hno)
    (each_words hcoll hkey.1 hval.1) hkey.2 hval.2 hcl (elements_of _) hwf (by rw [m5]; exact hr)
    ⟨by rw [ha2.hold], Obj.get?_insert_self _ _ _⟩
  have hv : ∀ k, var (counted sh) k = entry m.data k := by
    intro k
    unfold var
    rw [hc.hold.data]
    rfl
  rw [hv] at h2 h3
  obtain ⟨hx, hxk⟩ := ha2.setTo h2
  obtain ⟨hy, hyk⟩ := hx.setTo h3
  rw [m4] at h1
  exact ⟨sh3, inh2, h1, hy, (hk2.trans hxk).trans hyk⟩

theorem showInt_ok (i : Int) : NameOk (showInt i) := by
  have h := showInt_chars i
  have h1 : ∀ c ∈ c!"-0123456789", c ≠ '{' ∧ c ≠ '}' ∧ isWs c = false := by decide
  refine ⟨showInt_ne_nil i, fun c hc => h1 c (h c hc), ?_⟩
  intro hx
  exact absurd (h '>' (hx.subset (by simp))) (by decide)

theorem good_dots (k : Str) : Good k c!".." := by
  refine .chr '.' ?_ ?_ ?_ (.chr '.' ?_ ?_ ?_ (.nil _)) <;> (rw [List.cons_append, pair_prefix]; exact fun h => absurd h.1 (by decide))

theorem good_int (i : Int) (k : Str) : Good ('.' :: k) (showInt i) :=
  good_text (name_noOpen (showInt_ok i)) (fun hx => (nameOk_braces (showInt_ok i)).2 (hx.subset (by simp))) (showInt_ok i).noSep
    ⟨by simp, by simp, by simp⟩

theorem range_parts {v B : Str} (hv : NameOk v) (a b : Int) :
    Parts (c!" " ++ (v ++ c!" " ++ showInt a ++ c!".." ++ showInt b) ++ c!" >> " ++ B ++ c!" ")
      (some (v ++ c!" " ++ showInt a ++ c!".." ++ showInt b)) (trim B) := by
  have := words_parts (x := showInt a ++ c!"..") (B := B) hv (showInt_ok b) (fun j => good_append (good_int a _) (good_dots _))
  simpa using this

theorem sound_range {env : Env} {S : Site} {sh0 : Shared} {sc : Obj} (hexit : sh0.exit = false) (hS : SiteOf env sh0 S) {plus : Bool}
    {al v : Str} {x y : Int} {body : List Node} (hok : (Node.range plus v x y body).Ok S al)
    (ih : Sound env S sh0 sc (printAll body) c!"for" (meansAll S c!"for" body) (depthAll body)) :
    Sound env S sh0 sc (Node.range plus v x y body).print al ((Node.range plus v x y body).means S al)
      (depthAll body + 1) := by
  have hbif := (shape_node _ hok).resolve_left (by rintro ⟨t, ht⟩; cases ht)
  simp only [Node.Ok] at hok
  obtain ⟨hv, hdot, hx, hy, hbody⟩ := hok
  simp only [Node.print] at hbif ⊢
  have e : (Node.range plus v x y body).means S al = bifOf al (fun m =>
      ((loopOf plus (meansAll S c!"for" body) ((span x y).map (fun i => [(v, .str (showInt i))])) m).1,
       { (loopOf plus (meansAll S c!"for" body) ((span x y).map (fun i => [(v, .str (showInt i))])) m).2 with
         data := Obj.insert v (.str (shownAs S.F (valueOf m v)))
          (loopOf plus (meansAll S c!"for" body) ((span x y).map (fun i => [(v, .str (showInt i))])) m).2.data })) := by
    funext m; simp only [Node.means]
  rw [e]
  refine sound_bif hexit hbif ?_ ?_
  · intro m
    exact mono_loop (mono_all _ body _) _ m
  intro n m sh inh b hd ha hc hcnt hmax
  obtain ⟨m1, m2, m3, m4, m5⟩ := mods_marks false plus
  obtain ⟨sh2, inh2, hr, ha2, hk2⟩ := sound_rounds ih hbody (n := n) (by omega) _ hc (.refl _ _) hmax
  have hno : ¬ c!"{:" <:+: v ++ c!" " ++ showInt x ++ c!".." ++ showInt y := fun hx =>
    (range_braces hv.1 x y).1 (hx.subset (by simp))
  obtain ⟨bl, hwf⟩ := good_wf (good_trim (good_all body hbody [] cont_nil)) rfl 0
  have hnd : ∀ i, '.' ∉ showInt i := fun i h => absurd (showInt_chars i _ h) (by decide)
  have hw : Words (replaceAll c!".." c!" " (v ++ c!" " ++ showInt x ++ c!".." ++ showInt y)) [v, showInt x, showInt y] := by
    rw [replaceAll_dots _ _ (not_mem_append (not_mem_append hdot (by decide)) (hnd x)) (hnd y)]
    exact each_words hv.1 (showInt_ok x) (showInt_ok y)
  obtain ⟨sh3, h1, h2⟩ := for_exact env (runBlocks env n) sh (counted sh) sh2 inh (entered sh inh) inh2
    (marks false plus) (c!" " ++ (v ++ c!" " ++ showInt x ++ c!".." ++ showInt y) ++ c!" >> " ++ printAll body ++ c!" ") [] _
    (trim (printAll body)) _ v (showInt x) (showInt y) _ x y [] bl
    (Obj.insert c!"data" (.obj _) sc) _
    m1 m2 (by rw [m3]; decide) hcnt (.inl rfl) (range_parts hv.1 x y) (evalParams_plain hno) (flagsOf_plain hno)
    hw hv.2 (parseI32_showInt x hx) (parseI32_showInt y hy) hwf (by rw [m5]; exact hr)
    ⟨by rw [ha2.hold], Obj.get?_insert_self _ _ _⟩
  have hsv : shownVar env (counted sh) v = shownAs S.F (valueOf { m with bifs := m.bifs + 1 } v) := by
    unfold shownVar valueOf
    rw [getFromKey_textOf, shownAs_eq, hc.hold.data, if_neg hv.2, hS.F]
  rw [hsv] at h2
  obtain ⟨hz, hzk⟩ := ha2.setTo h2
  rw [m4] at h1
  exact ⟨sh3, inh2, h1, hz, hk2.trans hzk⟩

/-! parameters and translations -/

theorem name_plain {name : Str} (h : NameOk name) : Parts (c!" " ++ name ++ c!" ") none name := by
  have e : trim (c!" " ++ name ++ c!" ") = name := nameOk_spaces h
  have := Parts.code (src := c!" " ++ name ++ c!" ") (by
    rw [e]
    exact good_noSep (good_text (name_noOpen h) (fun hx => (nameOk_braces h).2 (hx.subset (by simp))) h.noSep cont_nil))
  rwa [e] at this

theorem readName_as {env : Env} {S : Site} {sh0 sh : Shared} {sc : Obj} {m : Mem} {b : Nat} {al : Str} {inh : Inherit}
    (hS : SiteOf env sh0 S) (h : After S sh0 sc m b al sh inh) (sec k : Str) :
    readName env sh inh sec k = shownAs S.F (resolvePointer (entry m.defs sec) k) := by
  unfold readName visible
  rw [getFromKey_textOf, shownAs_eq, h.vis, hS.F]

theorem sound_param {env : Env} {S : Site} {sh0 : Shared} {sc : Obj} (hexit : sh0.exit = false) (hS : SiteOf env sh0 S)
    {name al : Str} (hok : (Node.param name).Ok S al) :
    Sound env S sh0 sc (Node.param name).print al ((Node.param name).means S al) 0 := by
  have hbif := (shape_node _ hok).resolve_left (by rintro ⟨t, ht⟩; cases ht)
  simp only [Node.Ok] at hok
  simp only [Node.print] at hbif ⊢
  have e : (Node.param name).means S al = bifOf al (fun m => (shownAs S.F (resolvePointer (entry m.defs c!"params") name), m)) := by
    funext m; simp only [Node.means]
  rw [e]
  refine sound_bif hexit hbif (fun m => Nat.le_refl _) ?_
  intro n m sh inh b _ ha hc hcnt _
  refine ⟨counted sh, entered sh inh, ?_, hc, .refl _ _⟩
  have := C10_param_get env (runBlocks env n) sh (counted sh) inh (entered sh inh) [] (c!" " ++ name ++ c!" ") [] name name
    (by unfold Mods; decide) (by decide) (by decide) (by decide) hcnt (.inl rfl) (name_plain hok) (nested_plain (name_noOpen hok))
  rw [this, readName_as hS hc]
  rfl

theorem sound_setParam {env : Env} {S : Site} {sh0 : Shared} {sc : Obj} (hexit : sh0.exit = false)
    {name al : Str} {body : List Node} (hok : (Node.setParam name body).Ok S al)
    (ih : Sound env S sh0 sc (printAll body) c!"param" (meansAll S c!"param" body) (depthAll body)) :
    Sound env S sh0 sc (Node.setParam name body).print al ((Node.setParam name body).means S al) (depthAll body + 1) := by
  have hbif := (shape_node _ hok).resolve_left (by rintro ⟨t, ht⟩; cases ht)
  simp only [Node.Ok] at hok
  obtain ⟨hal, hname, hbody⟩ := hok
  simp only [Node.print] at hbif ⊢
  have e : (Node.setParam name body).means S al = bifOf al (fun m =>
      ([], { (blockOf false (meansAll S c!"param" body) m).2 with
        defs := Obj.insert c!"params" (.obj (Obj.insert name (.str (blockOf false (meansAll S c!"param" body) m).1)
          (paramsOf (blockOf false (meansAll S c!"param" body) m).2))) (blockOf false (meansAll S c!"param" body) m).2.defs })) := by
    funext m; simp only [Node.means]
  rw [e]
  refine sound_bif hexit hbif (mono_block (plus := false) (mono_all S body _)) ?_
  intro n m sh inh b hd ha hc hcnt hmax
  obtain ⟨sh2, inh2, h1, ha2, hk2, hi2⟩ := sound_shown (plus := false) ih hbody (n := n) (by omega) hc hmax
  generalize blockOf false (meansAll S c!"param" body) { m with bifs := m.bifs + 1 } = r at h1 ha2 hmax ⊢
  have hown := create_own ha2.level sh2 ha2.sees
  have hinh := create_inh ha2.level sh2
  obtain ⟨g, hg⟩ := createBlockSchema_sh sh2 inh2
  have hset : (entry r.2.defs c!"params").setIndex name (.str r.1) = some (.obj (Obj.insert name (.str r.1) (paramsOf r.2))) := by
    unfold paramsOf
    rcases ha2.params with h | ⟨o, h⟩
    · rw [h]; rfl
    · rw [h]; rfl
  have hdef : (createBlockSchema sh2 inh2).1.modIndir (createBlockSchema sh2 inh2).2.indir
      (fun x => x.modIndex c!"params" (fun y => y.setIndex name (.str r.1))) =
      some { (createBlockSchema sh2 inh2).1 with
        indir := fun x => if x = blockId b then
            some (.obj (Obj.insert c!"params" (.obj (Obj.insert name (.str r.1) (paramsOf r.2))) r.2.defs))
          else (createBlockSchema sh2 inh2).1.indir x } := by
    rw [hinh]
    simp only [Shared.modIndir, hown, Option.getD_some, Value.modIndex]
    have : (Obj.get? c!"params" r.2.defs).getD .null = entry r.2.defs c!"params" := rfl
    rw [this, hset]
    rfl
  have := param_set_exact env (runBlocks env n) sh (counted sh) sh2 _ inh (entered sh inh) inh2 _ []
    (c!" " ++ name ++ c!" >> " ++ printAll body ++ c!" ") [] name (trim (printAll body)) name r.1
    (by unfold Mods; decide) (by decide) (by decide) (by decide) hcnt (.inl rfl) (name_parts hname)
    (evalParams_plain (name_noOpen hname)) (flagsOf_plain (name_noOpen hname)) (hc.alias.trans hal) h1 rfl hdef
  refine ⟨_, _, this, ?_, ?_⟩
  · refine ⟨(ha2.hold.other rfl rfl).indir ?_, ?_, ?_, ?_, create_atLevel ha2.level sh2, ?_, ?_, ?_, ?_⟩
    · rw [hg]
    · rw [hinh]; exact ha2.last
    · rw [hinh]; exact ha2.lastC
    · rw [hinh]; exact ha2.alias
    · rw [hinh]; simp
    · exact .inr ⟨_, by simp [entry, Obj.get?_insert_self]; rfl⟩
    · simp only [entry]
      rw [Obj.get?_insert_ne _ _ (by decide)]
      exact ha2.snippets
    · simp only [entry]
      rw [Obj.get?_insert_ne _ _ (by decide)]
      exact ha2.declared
  · intro j hj
    have hne : blockId j ≠ blockId b := fun he => by have := blockId_inj he; omega
    simp only [if_neg hne]
    rw [create_others ha2.level sh2 _ (.inl hne), hk2 j hj]

theorem sound_trans {env : Env} {S : Site} {sh0 : Shared} {sc : Obj} (hexit : sh0.exit = false) (hS : SiteOf env sh0 S) {neg : Bool}
    {al : Str} {body : List Node} (hok : (Node.trans neg body).Ok S al)
    (ih : Sound env S sh0 sc (printAll body) c!"trans" (meansAll S c!"trans" body) (depthAll body)) :
    Sound env S sh0 sc (Node.trans neg body).print al ((Node.trans neg body).means S al) (depthAll body + 1) := by
  have hbif := (shape_node _ hok).resolve_left (by rintro ⟨t, ht⟩; cases ht)
  simp only [Node.Ok] at hok
  simp only [Node.print] at hbif ⊢
  have e : (Node.trans neg body).means S al = bifOf al (fun m =>
      (if translated S m (blockOf false (meansAll S c!"trans" body) m).1 = [] then
          (if neg then [] else (blockOf false (meansAll S c!"trans" body) m).1)
        else translated S m (blockOf false (meansAll S c!"trans" body) m).1, (blockOf false (meansAll S c!"trans" body) m).2)) := by
    funext m; simp only [Node.means]
  rw [e]
  refine sound_bif hexit hbif (mono_block (plus := false) (mono_all S body _)) ?_
  intro n m sh inh b hd ha hc hcnt hmax
  obtain ⟨m1, m2, m3, m4, m5⟩ := mods_marks neg false
  obtain ⟨sh', inh', h1, h2, h3, _⟩ := sound_shown (plus := false) ih hok (n := n) (by omega) hc hmax
  have htrim : trim (c!" " ++ printAll body ++ c!" ") = trim (printAll body) := by
    rw [List.append_assoc, trim_outer blank_space blank_space]
  refine ⟨sh', inh', ?_, h2, h3⟩
  have := runBif_trans env (runBlocks env n) sh sh' inh inh' (marks neg false) (c!" " ++ printAll body ++ c!" ") [] _ m1 m2
    (by simpa using m5) hcnt (.inl rfl) (by rw [htrim]; exact h1)
  rw [this, m4]
  have hl : sh'.lang = S.lang := by rw [h2.hold, hS.lang]
  have htr : ∀ t, textOf env.f64 (resolvePointer (translations sh' inh') t) = translated S { m with bifs := m.bifs + 1 } t := by
    intro t
    unfold translations translated
    rw [shownAs_eq, h2.vis, hl, hS.F]
    rfl
  rw [htr]
  have : (if '!' ∈ marks neg false then ([] : Str) else (blockOf false (meansAll S c!"trans" body) { m with bifs := m.bifs + 1 }).1) =
      if neg = true then [] else (blockOf false (meansAll S c!"trans" body) { m with bifs := m.bifs + 1 }).1 := by
    cases neg <;> rfl
  rw [this]

/-! files and snippets -/

/-- The place changes nothing of what the meaning refers to. -/
theorem After.placed {S : Site} {sh0 sh : Shared} {sc : Obj} {m : Mem} {b : Nat} {al : Str} {inh : Inherit}
    (h : After S sh0 sc m b al sh inh) (files : List Str) (f d : Str) :
    After S sh0 sc m b al sh { inh with includeFiles := files, currentFile := f, currentDir := d } :=
  ⟨h.hold, h.last, h.lastC, h.alias, ⟨h.level.count, h.level.block⟩, h.sees, h.params, h.snippets, h.declared⟩

theorem pathOf_plain {inh : Inherit} {c : Str} (h : c.head? ≠ some '#') : pathOf inh c = c := by
  unfold pathOf
  split
  · simp at h
  · rfl

theorem sound_incl {env : Env} {S : Site} {sh0 : Shared} {sc : Obj} (hexit : sh0.exit = false) (hS : SiteOf env sh0 S)
    {al path : Str} {body : List Node} (hok : (Node.incl path body).Ok S al)
    (ih : Sound env S sh0 sc (printAll body) c!"include" (meansAll S c!"include" body) (depthAll body)) :
    Sound env S sh0 sc (Node.incl path body).print al ((Node.incl path body).means S al) (depthAll body + 1) := by
  have hbif := (shape_node _ hok).resolve_left (by rintro ⟨t, ht⟩; cases ht)
  simp only [Node.Ok] at hok
  obtain ⟨hname, hhash, hfile, hbody⟩ := hok
  simp only [Node.print] at hbif ⊢
  have e : (Node.incl path body).means S al = bifOf al (blockOf true (meansAll S c!"include" body)) := by
    funext m; simp only [Node.means]
  rw [e]
  refine sound_bif hexit hbif (mono_block (mono_all S body _)) ?_
  intro n m sh inh b hd ha hc hcnt hmax
  obtain ⟨fe, canon, hfe, hcan, hcont⟩ := hS.file path _ hfile
  have hpl : After S sh0 sc { m with bifs := m.bifs + 1 } b al (counted sh) (placedIn env path canon (entered sh inh)) := hc.placed _ _ _
  obtain ⟨sh', inh', h1, h2, h3, _⟩ := sound_block (plus := true) ih (good_all body hbody [] cont_nil) (.inl rfl) (n := n) (by omega) hpl hmax
  have hfl : flagsOf (counted sh) ((none : Option Str).getD []) = [] := flagsOf_plain (by decide)
  have hpath := pathOf_plain (inh := entered sh inh) hhash
  have := C72_include env (runBlocks env n) sh (counted sh) (counted sh) sh' inh (entered sh inh) inh' []
    (c!" " ++ path ++ c!" ") [] path [] path canon (printAll body) _ none fe (by unfold Mods; decide) (by decide) (by decide) hcnt (.inl rfl)
    (name_plain hname) (evalParams_plain (by decide)) (by rw [hfl]; unfold FlagsIn; decide) (by rw [hfl]; decide) (by rw [hfl]; decide)
    (by
      have := FileName.literal (R := runBlocks env n) (sh := counted sh) (inh := entered sh inh) (name := c!"include") (only := [])
        (name_noOpen hname)
      rwa [hpath] at this)
    (by rw [hc.hold]; exact hfe) hcan (fun h => absurd h (by decide)) (by
      unfold FileText
      rw [hcont]
      split
      · exact C16_unchanged _ (all_noComment hbody)
      · rfl) h1
  exact ⟨sh', _, this, h2.placed inh'.includeFiles _ _, h3⟩

theorem sound_snippet {env : Env} {S : Site} {sh0 : Shared} {sc : Obj} (hexit : sh0.exit = false) (hS : SiteOf env sh0 S)
    {al kind name : Str} {body : List Node} (hok : (Node.snippet kind name body).Ok S al)
    (ih : Sound env S sh0 sc (printAll body) c!"snippet" (meansAll S c!"snippet" body) (depthAll body)) :
    Sound env S sh0 sc (Node.snippet kind name body).print al ((Node.snippet kind name body).means S al) (depthAll body + 1) := by
  have hbif := (shape_node _ hok).resolve_left (by rintro ⟨t, ht⟩; cases ht)
  simp only [Node.Ok] at hok
  obtain ⟨hkind, hname, htext, hbody⟩ := hok
  simp only [Node.print] at hbif ⊢
  have e : (Node.snippet kind name body).means S al =
      bifOf al (blockOf (decide (c!"{:snip" <:+: trim (printAll body))) (meansAll S c!"snippet" body)) := by
    funext m; simp only [Node.means]
  rw [e]
  refine sound_bif hexit hbif (mono_block (mono_all S body _)) ?_
  intro n m sh inh b hd ha hc hcnt hmax
  have hr : readName env (counted sh) (entered sh inh) c!"snippets" name = trim (printAll body) := by
    rw [readName_as hS hc, hc.snippets, htext]
  have hcon : contains c!"{:snip" (trim (printAll body)) = decide (c!"{:snip" <:+: trim (printAll body)) := by
    rw [Bool.eq_iff_iff, contains_iff (by decide), decide_eq_true_iff]
  have hpl : After S sh0 sc { m with bifs := m.bifs + 1 } b al (counted sh) (snippetPlace env (counted sh) (entered sh inh) name) := by
    unfold snippetPlace
    split
    · exact hc.placed _ _ _
    · exact hc
  obtain ⟨sh', inh', h1, h2, h3, _⟩ := sound_shown ih hbody (n := n) (by omega) hpl hmax
  have := C10_snippet_play env (runBlocks env n) sh (counted sh) inh (entered sh inh) kind [] (c!" " ++ name ++ c!" ") [] name name
    (by
      simp only [List.mem_cons, List.not_mem_nil, or_false] at hkind
      exact hkind) (by unfold Mods; decide) (by decide) (by decide) (by decide) hcnt (.inl rfl) (name_plain hname)
    (nested_plain (name_noOpen hname))
  rw [hr, hcon, h1] at this
  exact ⟨sh', inh', this, h2, h3⟩

/-! BIFs without parts, replacements, allow lists and eval -/

/-- `{:;:}` prints the mark. -/
theorem var_mark (env : Env) (R : Rec) (sh : Shared) (inh : Inherit) (hmax : sh.count < sh.max) :
    runBif env R sh inh (bifText [] [] []) [] = finish false c!"&#0;" (counted sh) (entered sh inh) := by
  rw [runBif_text env R sh inh [] [] [] [] (by unfold Mods; decide) named_nil hmax (.inl rfl)]
  rfl

/-- `{:^;:}` prints the mark of `^` and the mark. -/
theorem var_up (env : Env) (R : Rec) (sh : Shared) (inh : Inherit) (hmax : sh.count < sh.max) :
    runBif env R sh inh (bifText c!"^" [] []) [] = finish false c!"&#9224&#0;" (counted sh) (entered sh inh) := by
  rw [runBif_text env R sh inh c!"^" [] [] [] (by unfold Mods; decide) named_nil hmax (.inl rfl)]
  rfl

/-- What a name without separators leads to. -/
theorem leads_entry (d : Obj) (name : Str) : LeadsTo (.obj d) [name] (Obj.get? name d) := by
  cases h : Obj.get? name d with
  | none =>
    intro w hw
    cases hw with
    | key h1 h2 => rw [h] at h1; cases h1
  | some v => exact Reaches.key h (.here _)

/-- A name without separators is a key. -/
theorem resolve_key {k : Str} (h1 : '/' ∉ k) (h2 : ¬ c!"->" <:+: k) (v : Value) : resolvePointer v k = v.get? k := by
  unfold resolvePointer
  have h3 : contains c!"->" k = false := (contains_false_iff (by simp)).2 h2
  have h4 : contains c!"/" k = false := (contains_false_iff (by simp)).2 (by
    rintro ⟨a, b, hab⟩; exact h1 (by rw [← hab]; simp))
  rw [h3, h4]
  rfl

theorem join_item (env : Env) (v : Value) : joinText env v = itemAs env.f64 v := by
  cases v with
  | bool b => cases b <;> rfl
  | _ => rfl

theorem joined_eq (env : Env) (keys : Bool) (sep : Str) (v : Option Value) :
    v.elim [] (joinValue env keys sep) = joinedAs env.f64 keys sep v := by
  cases v with
  | none => rfl
  | some v =>
    cases v with
    | obj o =>
      simp only [Option.elim_some, joinValue, joinedAs, joinStr_separated, join_item]
      cases keys <;> rfl
    | arr a =>
      simp only [Option.elim_some, joinValue, joinedAs, joinStr_separated]
      cases keys
      · simp only [Bool.false_eq_true, if_false]
        congr 1
        have : a.map (fun v => (v.asStr?).getD []) = (a.zipIdx.map Prod.fst).map (fun v => (v.asStr?).getD []) := by simp
        rw [this, List.map_map]
        refine List.map_congr_left ?_
        rintro ⟨v, i⟩ _
        cases v <;> rfl
      · simp only [if_true]
        congr 1
        have : List.range a.length = a.zipIdx.map Prod.snd := by simp [List.range_eq_range']
        rw [this, List.map_map]
        rfl
    | _ => rfl

theorem splitChar_keys {d : Char} {a b c : Str} (ha : d ∉ a) (hb : d ∉ b) (hc : d ∉ c) :
    splitChar d (d :: (a ++ d :: (b ++ d :: (c ++ [d])))) = [[], a, b, c, []] := by
  unfold splitChar
  rw [splitCharGo, if_pos rfl, splitCharGo_append d [] a _ ha, splitCharGo, if_pos rfl, splitCharGo_append d [] b _ hb, splitCharGo,
    if_pos rfl, splitCharGo_append d [] c _ hc, splitCharGo, if_pos rfl]
  simp [splitCharGo]

/-- The definitions after a file was merged into them. -/
theorem run_mergeJson_exact {env : Env} {R : Rec} {sec text : Str} {part : Value → Value} {v : Value} {s : St} {o : Obj} {b : Nat}
    (hj : env.jsonParse text = some v) (hl : AtLevel s.inh b) (ho : s.sh.indir s.inh.indir = some (.obj o)) :
    run R (mergeJson env sec part text) s = .ok () { s with
      sh := { (createBlockSchema s.sh s.inh).1 with
        indir := fun x => if x = blockId b then some (.obj (Obj.insert sec (mergeSchema (entry o sec) (part v)) o))
          else (createBlockSchema s.sh s.inh).1.indir x }
      inh := { s.inh with indir := blockId b } } := by
  unfold mergeJson
  rw [hj]
  simp only [run_bind]
  have h1 : run R (perform .createBlockSchema) s = .ok ()
      { s with sh := (createBlockSchema s.sh s.inh).1, inh := (createBlockSchema s.sh s.inh).2 } := rfl
  rw [h1]
  simp only [andThen_ok]
  have hown := create_own hl s.sh ho
  rw [create_inh hl s.sh]
  generalize (createBlockSchema s.sh s.inh).1 = shA at hown
  have hmod : shA.modIndir (blockId b) (fun x => x.modIndex sec (fun y => some (mergeSchemaOwned y (part v)))) =
      some { shA with
        indir := fun x => if x = blockId b then some (.obj (Obj.insert sec (mergeSchema (entry o sec) (part v)) o)) else shA.indir x } := by
    unfold Shared.modIndir
    rw [hown]
    simp only [Option.getD_some, Value.modIndex, mergeOwned_eq]
    rfl
  simp only [perform, run, step, hmod, Option.map_some, oresOpt]

theorem load_data (env : Env) (R : Rec) (sh : Shared) (inh : Inherit) (path canon text : Str) (e : FileEntry) (v : Value) (o : Obj) (b : Nat)
    (hmax : sh.count < sh.max) (hp : NameOk path) (hhash : path.head? ≠ some '#') (he : (counted sh).w.fs path = some e)
    (hcont : e.content = some text) (hcan : env.canon path = .ok canon) (hj : env.jsonParse text = some v)
    (hl : AtLevel (entered sh inh) b) (ho : (counted sh).indir (entered sh inh).indir = some (.obj o)) :
    runBif env R sh inh (bifText [] c!"data" (c!" " ++ path ++ c!" ")) [] = finish false c!"&#0;"
      { (createBlockSchema (counted sh) (entered sh inh)).1 with
        indir := fun x => if x = blockId b then some (.obj (Obj.insert c!"data" (mergeSchema (entry o c!"data") (dataPart v)) o))
          else (createBlockSchema (counted sh) (entered sh inh)).1.indir x }
      { entered sh inh with indir := blockId b, dataFiles := (entered sh inh).dataFiles ++ [canon] } := by
  have hfile : FileName R (counted sh) (entered sh inh) c!"data" path [] path (counted sh) := by
    have := FileName.literal (R := R) (sh := counted sh) (inh := entered sh inh) (name := c!"data") (only := []) (name_noOpen hp)
    rwa [pathOf_plain hhash] at this
  rw [runBif_text env R sh inh [] c!"data" _ [] (by unfold Mods; decide) named_data hmax (.inl rfl)]
  have hbody : bifBody env c!"data" = bifData env := rfl
  rw [hbody]
  unfold bifData
  simp only [run_bind, run_denyMods]
  rw [if_neg (by simp [start])]
  simp only [andThen_ok]
  rw [run_extract_ok R (name_plain hp) _ rfl rfl rfl rfl (evalParams_plain (by decide))]
  simp only [andThen_ok, run_getSt, run_ite]
  have hfl : flagsOf (start sh inh [] c!"data" (c!" " ++ path ++ c!" ") []).sh ((none : Option Str).getD []) = [] :=
    flagsOf_plain (by decide)
  rw [hfl]
  rw [if_neg (by simp), if_neg (by simp only [hasFlag]; decide)]
  simp only [run_bind]
  rw [run_resolveFilePath _ hfile rfl rfl rfl rfl]
  simp only [andThen_ok, run_getSt, run_ite]
  rw [if_neg (by simp [fileExists, he])]
  simp only [run_bind, canonUnwrap, hcan, run_pure', andThen_ok, run_ite]
  rw [if_neg (by simp [start])]
  have hpush : ∀ s : St, run R (perform (.pushFile .data canon)) s =
      .ok () { s with inh := { s.inh with dataFiles := s.inh.dataFiles ++ [canon] } } := fun _ => rfl
  rw [hpush]
  simp only [andThen_ok, readFile, he, Option.bind_some, hcont, Option.getD_some]
  rw [run_mergeJson_exact (b := b) hj ⟨hl.count, hl.block⟩ ho]
  rfl

theorem load_locale (env : Env) (R : Rec) (sh : Shared) (inh : Inherit) (path canon text : Str) (e : FileEntry) (v : Value) (o : Obj) (b : Nat)
    (hmax : sh.count < sh.max) (hp : NameOk path) (hhash : path.head? ≠ some '#') (he : (counted sh).w.fs path = some e)
    (hcont : e.content = some text) (hopen : ¬ c!"{:" <:+: text) (hcan : env.canon path = .ok canon) (hj : env.jsonParse text = some v)
    (hl : AtLevel (entered sh inh) b) (ho : (counted sh).indir (entered sh inh).indir = some (.obj o)) :
    runBif env R sh inh (bifText [] c!"locale" (c!" " ++ path ++ c!" ")) [] = finish false c!"&#0;"
      { (createBlockSchema (counted sh) (entered sh inh)).1 with
        indir := fun x => if x = blockId b then some (.obj (Obj.insert c!"locale" (mergeSchema (entry o c!"locale") v) o))
          else (createBlockSchema (counted sh) (entered sh inh)).1.indir x }
      { entered sh inh with indir := blockId b, localeFiles := (entered sh inh).localeFiles ++ [canon] } := by
  have hfile : FileName R (counted sh) (entered sh inh) c!"locale" path [] path (counted sh) := by
    have := FileName.literal (R := R) (sh := counted sh) (inh := entered sh inh) (name := c!"locale") (only := []) (name_noOpen hp)
    rwa [pathOf_plain hhash] at this
  rw [runBif_text env R sh inh [] c!"locale" _ [] (by unfold Mods; decide) named_locale hmax (.inl rfl)]
  have hbody : bifBody env c!"locale" = bifLocale env := rfl
  rw [hbody]
  unfold bifLocale
  simp only [run_bind, run_denyMods]
  rw [if_neg (by simp [start])]
  simp only [andThen_ok]
  rw [run_extract_ok R (name_plain hp) _ rfl rfl rfl rfl (evalParams_plain (by decide))]
  simp only [andThen_ok, run_getSt, run_ite]
  have hfl : flagsOf (start sh inh [] c!"locale" (c!" " ++ path ++ c!" ") []).sh ((none : Option Str).getD []) = [] :=
    flagsOf_plain (by decide)
  rw [hfl]
  rw [if_neg (by simp), if_neg (by simp only [hasFlag]; decide)]
  simp only [run_bind]
  rw [run_resolveFilePath _ hfile rfl rfl rfl rfl]
  simp only [andThen_ok, run_getSt, run_ite]
  rw [if_neg (by simp [fileExists, he])]
  simp only [run_bind, canonUnwrap, hcan, run_pure', andThen_ok, run_ite]
  rw [if_neg (by simp [start])]
  have hpush : ∀ s : St, run R (perform (.pushFile .locale canon)) s =
      .ok () { s with inh := { s.inh with localeFiles := s.inh.localeFiles ++ [canon] } } := fun _ => rfl
  rw [hpush]
  simp only [run_bind, andThen_ok, readFile, he, Option.bind_some, hcont, Option.getD_some, run_ite]
  rw [if_neg (by
    have : contains bifOpen text = false := by
      rw [← Bool.not_eq_true]
      exact fun h => hopen ((contains_iff (by decide)).1 h)
    simp [this])]
  simp only [run_pure', andThen_ok]
  rw [run_mergeJson_exact (b := b) hj ⟨hl.count, hl.block⟩ ho]
  rfl

/-- What is loaded is seen. -/
theorem After.loaded {S : Site} {sh0 sh : Shared} {sc : Obj} {m : Mem} {b : Nat} {al sec : Str} {inh inh' : Inherit} {v : Value}
    (h : After S sh0 sc m b al sh inh) (h1 : sec ≠ c!"params") (h2 : sec ≠ c!"snippets") (h3 : sec ≠ c!"declare")
    (hi : inh'.indir = blockId b) (hlast : inh'.lastBifOut = inh.lastBifOut) (hlastC : inh'.lastCoalesceOut = inh.lastCoalesceOut)
    (hal : inh'.alias = inh.alias) (hcount : inh'.blockCount = inh.blockCount) :
    After S sh0 sc { m with defs := Obj.insert sec v m.defs } b al
      { (createBlockSchema sh inh).1 with
        indir := fun x => if x = blockId b then some (.obj (Obj.insert sec v m.defs)) else (createBlockSchema sh inh).1.indir x }
      inh' ∧
    Kept b sh { (createBlockSchema sh inh).1 with
        indir := fun x => if x = blockId b then some (.obj (Obj.insert sec v m.defs)) else (createBlockSchema sh inh).1.indir x } := by
  obtain ⟨g, hg⟩ := createBlockSchema_sh sh inh
  have hlev := create_atLevel h.level sh
  rw [create_inh h.level sh] at hlev
  refine ⟨⟨(h.hold.other rfl rfl).indir (by rw [hg]), hlast.trans h.last, hlastC.trans h.lastC, hal.trans h.alias,
    ⟨by rw [hcount]; exact hlev.count, by rw [hi]; exact hlev.block⟩, by rw [hi]; simp, ?_, ?_, ?_⟩, ?_⟩
  · have := h.params
    simp only [entry] at this ⊢
    rw [Obj.get?_insert_ne _ _ h1]
    exact this
  · simp only [entry]
    rw [Obj.get?_insert_ne _ _ h2]
    exact h.snippets
  · simp only [entry]
    rw [Obj.get?_insert_ne _ _ h3]
    exact h.declared
  · intro j hj
    have hne : blockId j ≠ blockId b := fun he => by have := blockId_inj he; omega
    simp only [if_neg hne]
    rw [create_others h.level sh _ (.inl hne)]

theorem sound_leaf {env : Env} {S : Site} {sh0 : Shared} {sc : Obj} (hexit : sh0.exit = false) (hS : SiteOf env sh0 S) {k : Leaf}
    {al : Str} (hok : (Node.leaf k).Ok S al) :
    Sound env S sh0 sc (Node.leaf k).print al ((Node.leaf k).means S al) 0 := by
  have hbif := (shape_node _ hok).resolve_left (by rintro ⟨t, ht⟩; cases ht)
  simp only [Node.print] at hbif ⊢
  simp only [Node.Ok] at hok
  have e : (Node.leaf k).means S al = bifOf al (fun m => (k.shown S m, k.effect m)) := by
    funext m; simp only [Node.means]
  rw [e]
  refine sound_bif hexit hbif (fun m => Nat.le_of_eq (effect_bifs k m).symm) ?_
  intro n m sh inh b _ ha hc hcnt _
  cases k with
  | lang =>
    refine ⟨counted sh, entered sh inh, ?_, hc, .refl _ _⟩
    have := C48_lang env (runBlocks env n) sh inh [] [] [] (by unfold Mods; decide) (by decide) (by decide) (by decide) hcnt (.inl rfl)
    rw [show Leaf.lang.mods = [] from rfl, show Leaf.lang.name = c!"lang" from rfl, show Leaf.lang.source = [] from rfl, this]
    have hl : sh.lang = S.lang := by rw [ha.hold, hS.lang]
    rw [hl]
    rfl
  | mark => exact ⟨counted sh, entered sh inh, var_mark env _ sh inh hcnt, hc, .refl _ _⟩
  | up => exact ⟨counted sh, entered sh inh, var_up env _ sh inh hcnt, hc, .refl _ _⟩
  | join keys name sep =>
    refine ⟨counted sh, entered sh inh, ?_, hc, .refl _ _⟩
    obtain ⟨hn, ⟨s1, s2, s3, s4⟩, p1, p2, p3⟩ := hok
    have htrim : trim (Leaf.join keys name sep).source = '/' :: (name ++ c!"/" ++ sep ++ (if keys then c!"/keys/" else c!"/")) := by
      rw [join_source, List.append_assoc, trim_outer blank_space blank_space]
      unfold trim
      have : trimStart (c!"/" ++ name ++ c!"/" ++ sep ++ (if keys = true then c!"/keys/" else c!"/")) =
          (c!"/" ++ name ++ c!"/" ++ sep ++ (if keys = true then c!"/keys" else [])) ++ ['/'] := by
        unfold trimStart
        cases keys <;> simp [show isWs '/' = false from by decide]
      rw [this, trimEnd_last (by decide)]
      cases keys <;> simp
    have hargs : ArgsGive (runBlocks env n) c!"join" []
        (splitChar '/' ('/' :: (name ++ c!"/" ++ sep ++ (if keys then c!"/keys/" else c!"/")))) (counted sh) (entered sh inh)
        ([] :: collName false [] name :: sep :: (if keys then [c!"keys", []] else [[]])) (counted sh) (entered sh inh) := by
      have hname : collName false [] name = name := rfl
      have hsep : ¬ c!"{:" <:+: sep := fun h => p2 (h.subset (by simp))
      rw [hname]
      cases keys with
      | false =>
        have : name ++ c!"/" ++ sep ++ (if false = true then c!"/keys/" else c!"/") = name ++ '/' :: (sep ++ c!"/") := by simp
        rw [this, splitChar_args s1 p1]
        exact .cons (nested_plain (by decide)) (.cons (nested_plain (name_noOpen hn)) (.cons (nested_plain hsep)
          (.cons (nested_plain (by decide)) (.nil _ _))))
      | true =>
        have : name ++ c!"/" ++ sep ++ (if true = true then c!"/keys/" else c!"/") = name ++ '/' :: (sep ++ '/' :: (c!"keys" ++ ['/'])) := by simp
        rw [this, splitChar_keys s1 p1 (by decide)]
        exact .cons (nested_plain (by decide)) (.cons (nested_plain (name_noOpen hn)) (.cons (nested_plain hsep)
          (.cons (nested_plain (by decide)) (.cons (nested_plain (by decide)) (.nil _ _)))))
    have := join_run env (runBlocks env n) sh (counted sh) inh (entered sh inh) [] (Leaf.join keys name sep).source [] _ [] sep name '/' _
      false keys [] (Obj.get? name m.data) (by unfold Mods; decide) (by decide) (by decide) (by decide) hcnt (.inl rfl) htrim hargs
      (by simp) ⟨⟨s1, s3⟩, s2, s4⟩ (by cases keys <;> simp) (by
        show LeadsTo ((counted sh).schema.index c!"data") [name] _
        rw [hc.hold.data]
        exact leads_entry _ _)
    have hv : valueOf m name = Obj.get? name m.data := by
      unfold valueOf
      rw [if_neg (fun h => s4 h.isInfix), resolve_key s1 s3]
      rfl
    rw [show (Leaf.join keys name sep).mods = [] from rfl, show (Leaf.join keys name sep).name = c!"join" from rfl, this, joined_eq, ← hS.F, ← hv]
    rfl
  | load locale path v =>
    obtain ⟨hp, hhash, t, hfile, hjson, hopen⟩ := hok
    obtain ⟨fe, canon, hfe, hcan, hcont⟩ := hS.file path _ hfile
    rw [hS.json] at hjson
    have hfe' : (counted sh).w.fs path = some fe := by rw [hc.hold]; exact hfe
    cases locale with
    | false =>
      have h1 := load_data env (runBlocks env n) sh inh path canon t fe v m.defs b hcnt hp hhash hfe' hcont hcan hjson hc.level hc.sees
      have h2 := hc.loaded (sec := c!"data") (v := mergeSchema (entry m.defs c!"data") (dataPart v))
        (inh' := { entered sh inh with indir := blockId b, dataFiles := (entered sh inh).dataFiles ++ [canon] })
        (by decide) (by decide) (by decide) rfl rfl rfl rfl rfl
      exact ⟨_, _, h1, h2.1, h2.2⟩
    | true =>
      have h1 := load_locale env (runBlocks env n) sh inh path canon t fe v m.defs b hcnt hp hhash hfe' hcont (hopen rfl) hcan hjson
        hc.level hc.sees
      have h2 := hc.loaded (sec := c!"locale") (v := mergeSchema (entry m.defs c!"locale") v)
        (inh' := { entered sh inh with indir := blockId b, localeFiles := (entered sh inh).localeFiles ++ [canon] })
        (by decide) (by decide) (by decide) rfl rfl rfl rfl rfl
      exact ⟨_, _, h1, h2.1, h2.2⟩

theorem sound_hash {env : Env} {S : Site} {sh0 : Shared} {sc : Obj} (hexit : sh0.exit = false) (hS : SiteOf env sh0 S)
    {al : Str} {body : List Node} (hok : (Node.hash body).Ok S al)
    (ih : Sound env S sh0 sc (printAll body) c!"hash" (meansAll S c!"hash" body) (depthAll body)) :
    Sound env S sh0 sc (Node.hash body).print al ((Node.hash body).means S al) (depthAll body + 1) := by
  have hbif := (shape_node _ hok).resolve_left (by rintro ⟨t, ht⟩; cases ht)
  simp only [Node.Ok] at hok
  obtain ⟨hbody, t, l, hl, c, hct, hcw⟩ := hok
  simp only [Node.print] at hbif ⊢
  have e : (Node.hash body).means S al = bifOf al (fun m =>
      (S.md5 (blockOf false (meansAll S c!"hash" body) m).1, (blockOf false (meansAll S c!"hash" body) m).2)) := by
    funext m; simp only [Node.means]
  rw [e]
  refine sound_bif hexit hbif (mono_block (plus := false) (mono_all S body _)) ?_
  intro n m sh inh b hd ha hc hcnt hmax
  obtain ⟨sh', inh', h1, h2, h3, _⟩ := sound_shown (plus := false) ih hbody (n := n) (by omega) hc hmax
  have htrim : trim (c!" " ++ printAll body ++ c!" ") = trim (printAll body) := by
    rw [List.append_assoc, trim_outer blank_space blank_space]
  refine ⟨sh', inh', ?_, h2, h3⟩
  have hne : (blockOf false (meansAll S c!"hash" body) { m with bifs := m.bifs + 1 }).1 ≠ [] := by
    intro hx
    have hin : c ∈ (meansAll S c!"hash" body { m with bifs := m.bifs + 1 }).1 := by
      rw [hl]
      simp only [meansAll, Node.means]
      exact List.mem_append_left _ hct
    have hb : Blank (meansAll S c!"hash" body { m with bifs := m.bifs + 1 }).1 := by
      obtain ⟨w1, w2, e1, e2, e3⟩ := trim_parts (meansAll S c!"hash" body { m with bifs := m.bifs + 1 }).1
      have hx' : trim (meansAll S c!"hash" body { m with bifs := m.bifs + 1 }).1 = [] := hx
      rw [hx'] at e1
      rw [e1]
      intro x hx
      simp only [List.nil_append, List.mem_append] at hx
      rcases hx with hx | hx
      · exact e2 x hx
      · exact e3 x hx
    rw [hb c hin] at hcw
    exact absurd hcw (by decide)
  have := C73_hash env (runBlocks env n) sh sh' inh inh' [] (c!" " ++ printAll body ++ c!" ") [] _ (by unfold Mods; decide) (by decide)
    (by decide) (by decide) hcnt (.inl rfl) (by rw [htrim]; exact h1) hne
  rw [this, hS.md5]
  rfl

theorem sound_replace {env : Env} {S : Site} {sh0 : Shared} {sc : Obj} (hexit : sh0.exit = false)
    {al : Str} {a b body : List Node} (hok : (Node.replace a b body).Ok S al)
    (iha : Sound env S sh0 sc (printAll a) c!"replace" (meansAll S c!"replace" a) (depthAll a))
    (ihb : Sound env S sh0 sc (printAll b) c!"replace" (meansAll S c!"replace" b) (depthAll b))
    (ih : Sound env S sh0 sc (printAll body) c!"replace" (meansAll S c!"replace" body) (depthAll body)) :
    Sound env S sh0 sc (Node.replace a b body).print al ((Node.replace a b body).means S al)
      (max (max (depthAll a) (depthAll b)) (depthAll body) + 1) := by
  have hbif := (shape_node _ hok).resolve_left (by rintro ⟨t, ht⟩; cases ht)
  simp only [Node.Ok] at hok
  obtain ⟨hoka, hokb, hbody, hsa, hsb⟩ := hok
  simp only [Node.print] at hbif ⊢
  have e : (Node.replace a b body).means S al = bifOf al (fun m =>
      (replaceAll (argOf (printAll a) (meansAll S c!"replace" a) m).1
          (argOf (printAll b) (meansAll S c!"replace" b) (argOf (printAll a) (meansAll S c!"replace" a) m).2).1
          (blockOf false (meansAll S c!"replace" body)
            (argOf (printAll b) (meansAll S c!"replace" b) (argOf (printAll a) (meansAll S c!"replace" a) m).2).2).1,
        (blockOf false (meansAll S c!"replace" body)
            (argOf (printAll b) (meansAll S c!"replace" b) (argOf (printAll a) (meansAll S c!"replace" a) m).2).2).2)) := by
    funext m; simp only [Node.means]
  rw [e]
  have hma := mono_arg (t := printAll a) (mono_all S a c!"replace")
  have hmb := mono_arg (t := printAll b) (mono_all S b c!"replace")
  have hmc := mono_block (plus := false) (mono_all S body c!"replace")
  refine sound_bif hexit hbif ?_ ?_
  · intro m
    exact Nat.le_trans (Nat.le_trans (hma m) (hmb _)) (hmc _)
  intro n m sh inh lv hd ha hc hcnt hmax
  generalize hra : argOf (printAll a) (meansAll S c!"replace" a) { m with bifs := m.bifs + 1 } = ra at hmax ⊢
  generalize hrb : argOf (printAll b) (meansAll S c!"replace" b) ra.2 = rb at hmax ⊢
  have hmaxb : rb.2.bifs ≤ sh0.max := Nat.le_trans (hmc rb.2) hmax
  have hmaxa : ra.2.bifs ≤ sh0.max := by
    have := hmb ra.2
    rw [hrb] at this
    exact Nat.le_trans this hmaxb
  obtain ⟨sha, inha, ha1, ha2, ha3, _⟩ := sound_arg iha hoka (n := n) (by omega) hc (by rw [hra]; exact hmaxa)
  rw [hra] at ha1 ha2
  obtain ⟨shb, inhb, hb1, hb2, hb3, _⟩ := sound_arg ihb hokb (n := n) (by omega) ha2 (by rw [hrb]; exact hmaxb)
  rw [hrb] at hb1 hb2
  have hkab := ha3.trans hb3
  have hargs : ArgsGive (runBlocks env n) c!"replace" [] (splitChar '/' ('/' :: (printAll a ++ '/' :: (printAll b ++ c!"/"))))
      (counted sh) (entered sh inh) ([] :: ra.1 :: rb.1 :: [[]]) shb inhb := by
    rw [splitChar_args hsa hsb]
    exact .cons (nested_plain (by decide)) (.cons ha1 (.cons hb1 (.cons (nested_plain (by decide)) (.nil _ _))))
  obtain ⟨sh', inh', h1, h2, h3, _⟩ := sound_shown ih hbody (n := n) (by omega) hb2 hmax
  refine ⟨sh', inh', ?_, h2, hkab.trans h3⟩
  exact replace_run env (runBlocks env n) sh shb sh' inh inhb inh' []
    (c!" /" ++ printAll a ++ c!"/" ++ printAll b ++ c!"/ >> " ++ printAll body ++ c!" ") [] (trim (printAll body)) _
    [] ra.1 rb.1 _ '/' [[]] (by unfold Mods; decide) (by decide) (by decide) (by decide) hcnt (.inl rfl) (cmp_parts hoka hokb _)
    (cmp_noFlags hoka hokb) hargs h1

theorem sound_allow {env : Env} {S : Site} {sh0 : Shared} {sc : Obj} (hexit : sh0.exit = false) (hS : SiteOf env sh0 S) {neg : Bool}
    {al name : Str} {body : List Node} (hok : (Node.allow neg name body).Ok S al)
    (ih : Sound env S sh0 sc (printAll body) c!"allow" (meansAll S c!"allow" body) (depthAll body)) :
    Sound env S sh0 sc (Node.allow neg name body).print al ((Node.allow neg name body).means S al) (depthAll body + 1) := by
  have hbif := (shape_node _ hok).resolve_left (by rintro ⟨t, ht⟩; cases ht)
  simp only [Node.Ok] at hok
  obtain ⟨hname, hwords, hbody⟩ := hok
  simp only [Node.print] at hbif ⊢
  have e : (Node.allow neg name body).means S al = bifOf al (fun m =>
      (if (wordsOf S name).any (wildcardMatch (blockOf false (meansAll S c!"allow" body) m).1) = neg then []
        else (blockOf false (meansAll S c!"allow" body) m).1, (blockOf false (meansAll S c!"allow" body) m).2)) := by
    funext m; simp only [Node.means]
  rw [e]
  refine sound_bif hexit hbif (mono_block (plus := false) (mono_all S body _)) ?_
  intro n m sh inh b hd ha hc hcnt hmax
  obtain ⟨m1, m2, m3, m4, m5⟩ := mods_marks neg false
  obtain ⟨sh', inh', h1, h2, h3, _⟩ := sound_block (plus := false) ih (good_trim (good_all body hbody [] cont_nil)) (.inr rfl) (n := n)
    (by omega) hc hmax
  refine ⟨sh', inh', ?_, h2, h3⟩
  have hr : readName env (counted sh) (entered sh inh) c!"declare" name = shownAs S.F (resolvePointer S.declared name) := by
    rw [readName_as hS hc, hc.declared]
  have hfl : flagsOf (counted sh) name = [] := flagsOf_plain (name_noOpen hname)
  have := allow_run env (runBlocks env n) sh (counted sh) sh' inh (entered sh inh) inh' (marks neg false)
    (c!" " ++ name ++ c!" >> " ++ printAll body ++ c!" ") [] name (trim (printAll body)) name _ m1 m2 (by simpa using m5) hcnt (.inl rfl)
    (name_parts hname) (evalParams_plain (name_noOpen hname)) (by
      rw [hr]
      intro h
      unfold wordsOf at hwords
      rw [h] at hwords
      exact hwords rfl) (by rw [hfl]; unfold FlagsIn; decide) h1
  rw [this, m4, hfl, hr]
  generalize (blockOf false (meansAll S c!"allow" body) { m with bifs := m.bifs + 1 }).1 = x
  congr 1
  have hw := splitWhitespace_ne (shownAs S.F (resolvePointer S.declared name))
  rw [show splitWhitespace (shownAs S.F (resolvePointer S.declared name)) = wordsOf S name from rfl] at hw ⊢
  have hf : allowFind env [] x (wordsOf S name) ≠ [] ↔ (wordsOf S name).any (wildcardMatch x) = true := by
    rw [allowFind_iff env [] x _ hw, List.any_eq_true]
    simp only [C12_wildcard]
    rfl
  have hneg : decide ('!' ∈ marks neg false) = neg := by cases neg <;> decide
  unfold allowOut
  rw [hneg]
  have hrep : contains c!"|replace|" ([] : Str) = false := rfl
  by_cases h : allowFind env [] x (wordsOf S name) = []
  · have h' : (wordsOf S name).any (wildcardMatch x) = false := by
      rw [← Bool.not_eq_true, ← hf]; exact fun hx => hx h
    rw [h, h']
    cases neg <;> simp [hrep]
  · have h' := hf.1 h
    rw [h']
    cases neg <;> simp [hrep, h]

theorem test_parts {S : Site} {al : Str} {test : List Node} (h : AllOk S al test) (hne : trim (printAll test) ≠ []) (B : Str) :
    Parts (c!" " ++ printAll test ++ c!" >> " ++ B ++ c!" ") (some (trim (printAll test))) (trim B) := by
  obtain ⟨w1, w2, e, b1, b2⟩ := trim_parts (printAll test)
  cases ht : trim (printAll test) with
  | nil => exact absurd ht hne
  | cons c r =>
    have hg : ∀ k, Good k (c :: r ++ w2 ++ c!" ") := by
      intro k
      refine good_append (good_dropStart (w := w1) b1 ?_) (good_space _)
      rw [← ht, ← e]
      exact good_all test h _ (cont_blank _)
    have := parts_from (w := c!" " ++ w1) (P := c :: r ++ w2) (B := B) (c := c) (r := r ++ w2)
      (by
        intro x hx
        rcases List.mem_append.1 hx with hx | hx
        · exact blank_space x hx
        · exact b1 x hx) rfl (trim_head ht)
      (fun k => good_noSep (hg _))
    rw [trim_blankEnd b2, ← ht, trim_idem] at this
    rw [e, ← ht]
    simpa using this

theorem sound_eval {env : Env} {S : Site} {sh0 : Shared} {sc : Obj} (hexit : sh0.exit = false) (hS : SiteOf env sh0 S) {neg plus : Bool}
    {al : Str} {test body : List Node} (hok : (Node.eval neg plus test body).Ok S al)
    (iht : Sound env S sh0 sc (printAll test) c!"eval" (meansAll S c!"eval" test) (depthAll test))
    (ih : Sound env S sh0 sc (printAll body) c!"eval" (meansAll S c!"eval" body) (depthAll body)) :
    Sound env S sh0 sc (Node.eval neg plus test body).print al ((Node.eval neg plus test body).means S al)
      (max (depthAll test) (depthAll body) + 1) := by
  have hbif := (shape_node _ hok).resolve_left (by rintro ⟨t, ht⟩; cases ht)
  have hmono := mono_node S (Node.eval neg plus test body) al
  simp only [Node.Ok] at hok
  obtain ⟨htest, hne, hbody⟩ := hok
  simp only [Node.print] at hbif ⊢
  have hmt := mono_block (plus := plus) (mono_all S test c!"eval")
  have hmb := mono_block (plus := plus) (mono_all S body c!"eval")
  have e : (Node.eval neg plus test body).means S al = bifOf al (fun m =>
      if (blockOf plus (meansAll S c!"eval" test) m).1.isEmpty = neg then
        (if c!"{:" <:+: printAll body then
          ((blockOf plus (meansAll S c!"eval" body) { (blockOf plus (meansAll S c!"eval" test) m).2 with
              data := Obj.insert c!"__eval__" (.str (blockOf plus (meansAll S c!"eval" test) m).1)
                (blockOf plus (meansAll S c!"eval" test) m).2.data }).1,
            { (blockOf plus (meansAll S c!"eval" body) { (blockOf plus (meansAll S c!"eval" test) m).2 with
              data := Obj.insert c!"__eval__" (.str (blockOf plus (meansAll S c!"eval" test) m).1)
                (blockOf plus (meansAll S c!"eval" test) m).2.data }).2 with
              data := Obj.insert c!"__eval__" (.str (shownAs S.F (valueOf (blockOf plus (meansAll S c!"eval" test) m).2 c!"__eval__")))
                (blockOf plus (meansAll S c!"eval" body) { (blockOf plus (meansAll S c!"eval" test) m).2 with
                  data := Obj.insert c!"__eval__" (.str (blockOf plus (meansAll S c!"eval" test) m).1)
                    (blockOf plus (meansAll S c!"eval" test) m).2.data }).2.data })
        else (trim (printAll body), (blockOf plus (meansAll S c!"eval" test) m).2))
      else ([], (blockOf plus (meansAll S c!"eval" test) m).2)) := by
    funext m; simp only [Node.means]
  rw [e]
  refine sound_bif hexit hbif ?_ ?_
  · intro m
    dsimp only
    split
    · split
      · exact Nat.le_trans (hmt m) (hmb { (blockOf plus (meansAll S c!"eval" test) m).2 with
          data := Obj.insert c!"__eval__" (.str (blockOf plus (meansAll S c!"eval" test) m).1)
            (blockOf plus (meansAll S c!"eval" test) m).2.data })
      · exact hmt m
    · exact hmt m
  intro n m sh inh lv hd ha hc hcnt hmax
  obtain ⟨m1, m2, m3, m4, m5⟩ := mods_marks neg plus
  generalize hrt : blockOf plus (meansAll S c!"eval" test) { m with bifs := m.bifs + 1 } = rt at hmax ⊢
  have hmaxt : rt.2.bifs ≤ sh0.max := by
    split at hmax
    · split at hmax
      · exact Nat.le_trans (hmb { rt.2 with data := Obj.insert c!"__eval__" (.str rt.1) rt.2.data }) hmax
      · exact hmax
    · exact hmax
  obtain ⟨sh1, inh1, h1, ha1, hk1, _⟩ := sound_shown (plus := plus) iht htest (n := n) (by omega) hc (by rw [hrt]; exact hmaxt)
  rw [hrt] at h1 ha1
  have hparts := test_parts htest hne (printAll body)
  have hflg : ¬ c!"{:flg;" <:+: (some (trim (printAll test))).getD [] := by
    intro hx
    have : c!"{:flg;" <:+: printAll test ++ [] := by
      rw [List.append_nil]
      obtain ⟨w1, w2, ee, _, _⟩ := trim_parts (printAll test)
      exact hx.trans ⟨w1, w2, by simpa using ee.symm⟩
    exact absurd (skips_all (.inl rfl) test htest [] this).length_le (by decide)
  have hc1 : nested (runBlocks env n) (decide ('+' ∈ marks neg plus)) (counted sh) (entered sh inh) c!"eval"
      ((some (trim (printAll test))).getD []) [] = .ok rt.1 sh1 inh1 := by rw [m5]; exact h1
  by_cases hx : rt.1.isEmpty = neg
  · rw [if_pos hx] at hmax ⊢
    have hcond : (rt.1 ≠ [] ∧ '!' ∉ marks neg plus) ∨ (rt.1 = [] ∧ '!' ∈ marks neg plus) := by
      rw [m3]
      cases neg with
      | false => exact .inl ⟨by simpa using hx, by decide⟩
      | true => exact .inr ⟨by simpa using hx, rfl⟩
    by_cases ho : c!"{:" <:+: printAll body
    · rw [if_pos ho] at hmax ⊢
      obtain ⟨sh2, hv2, ha2, hk2⟩ := ha1.set c!"__eval__" (.str rt.1)
      obtain ⟨sh3, inh3, h3, ha3, hk3, _⟩ := sound_shown (plus := plus) ih hbody (n := n) (by omega) ha2 hmax
      obtain ⟨sh4, hv4, ha4, hk4⟩ := ha3.set c!"__eval__" (.str (shownVar env sh1 c!"__eval__"))
      have hsv : shownVar env sh1 c!"__eval__" = shownAs S.F (valueOf rt.2 c!"__eval__") := by
        unfold shownVar valueOf
        rw [getFromKey_textOf, shownAs_eq, ha1.hold.data, if_neg (by decide), hS.F]
      have := C58_shown env (runBlocks env n) sh sh1 sh2 sh3 sh4 inh inh1 inh3 (marks neg plus) _ [] (trim (printAll body)) rt.1 _ _
        m1 m2 hcnt (.inl rfl) hparts hflg hc1 hcond (by
          false_or_by_contra
          rename_i hno
          exact noOpen_trim hno ho) hv2 (by rw [m5]; exact h3) hv4
      rw [hsv] at ha4
      rw [m4] at this
      exact ⟨sh4, inh3, this, ha4, ((hk1.trans hk2).trans hk3).trans hk4⟩
    · rw [if_neg ho]
      have := C58_plain env (runBlocks env n) sh sh1 inh inh1 (marks neg plus) _ [] (trim (printAll body)) rt.1 _
        m1 m2 hcnt (.inl rfl) hparts hflg hc1 hcond (fun h => ho (h.trans (by
          obtain ⟨w1, w2, ee, _, _⟩ := trim_parts (printAll body)
          exact ⟨w1, w2, by simpa using ee.symm⟩)))
      rw [m4] at this
      exact ⟨sh1, inh1, this, ha1, hk1⟩
  · rw [if_neg hx]
    have := C58_hidden env (runBlocks env n) sh sh1 inh inh1 (marks neg plus) _ [] (trim (printAll body)) rt.1 _
      m1 m2 hcnt (.inl rfl) hparts hflg hc1 (by
        rw [m3]
        cases neg with
        | false => exact .inl ⟨by simpa using hx, by decide⟩
        | true => exact .inr ⟨by simpa using hx, rfl⟩)
    rw [hidden_marks] at this
    exact ⟨sh1, inh1, this, ha1, hk1⟩

/-! text, and all together -/

theorem produces_text (env : Env) (R : Rec) (only : Str) {sh : Shared} {inh : Inherit} (hx : sh.exit = false) : ∀ (t : Str), ¬ c!"{:" <:+: t →
    Produces env R only t sh inh true t sh inh
  | [], _ => .nil _ _
  | c :: t, h => .chr c (fun hp => h hp.isInfix) (by simp [hx])
      (produces_text env R only hx t (fun ht => h (ht.trans ⟨[c], [], by simp⟩)))

mutual
theorem sound_node {env : Env} {S : Site} {sh0 : Shared} {sc : Obj} (hexit : sh0.exit = false) (hS : SiteOf env sh0 S) :
    ∀ (x : Node) {al : Str}, x.Ok S al → Sound env S sh0 sc x.print al (x.means S al) (Node.depth x)
  | .text t, al, hok => by
    simp only [Node.Ok] at hok
    intro n m sh inh b _ ha _
    simp only [Node.means, Node.print]
    exact ⟨sh, inh, produces_text _ _ _ (by rw [ha.hold]; exact hexit) _ hok.noOpen, ha, .refl _ _⟩
  | .var amp name, al, hok => sound_var hexit hS hok
  | .cond neg plus kind name body, al, hok =>
    sound_cond hexit hS hok (sound_all hexit hS body (by simp only [Node.Ok] at hok; exact hok.2.2))
  | .cmp neg plus kind a b body, al, hok => by
    have h := hok
    simp only [Node.Ok] at h
    exact sound_cmp hexit hok (sound_all hexit hS a h.2.1) (sound_all hexit hS b h.2.2.1) (sound_all hexit hS body h.2.2.2.1)
  | .els neg plus body, al, hok => sound_els hexit hok (sound_all hexit hS body (by simp only [Node.Ok] at hok; exact hok))
  | .coalesce plus body, al, hok => sound_coalesce hexit hok (sound_all hexit hS body (by simp only [Node.Ok] at hok; exact hok))
  | .code plus body, al, hok => sound_code hexit hok (sound_all hexit hS body (by simp only [Node.Ok] at hok; exact hok))
  | .each plus coll key val body, al, hok =>
    sound_each hexit hok (sound_all hexit hS body (by simp only [Node.Ok] at hok; exact hok.2.2.2))
  | .range plus v a b body, al, hok =>
    sound_range hexit hS hok (sound_all hexit hS body (by simp only [Node.Ok] at hok; exact hok.2.2.2.2))
  | .param name, al, hok => sound_param hexit hS hok
  | .setParam name body, al, hok => sound_setParam hexit hok (sound_all hexit hS body (by simp only [Node.Ok] at hok; exact hok.2.2))
  | .trans neg body, al, hok => sound_trans hexit hS hok (sound_all hexit hS body (by simp only [Node.Ok] at hok; exact hok))
  | .incl path body, al, hok => sound_incl hexit hS hok (sound_all hexit hS body (by simp only [Node.Ok] at hok; exact hok.2.2.2))
  | .snippet kind name body, al, hok =>
    sound_snippet hexit hS hok (sound_all hexit hS body (by simp only [Node.Ok] at hok; exact hok.2.2.2))
  | .leaf k, al, hok => sound_leaf hexit hS hok
  | .replace a b body, al, hok => by
    have h := hok
    simp only [Node.Ok] at h
    exact sound_replace hexit hok (sound_all hexit hS a h.1) (sound_all hexit hS b h.2.1) (sound_all hexit hS body h.2.2.1)
  | .allow neg name body, al, hok => sound_allow hexit hS hok (sound_all hexit hS body (by simp only [Node.Ok] at hok; exact hok.2.2))
  | .eval neg plus test body, al, hok => by
    have h := hok
    simp only [Node.Ok] at h
    exact sound_eval hexit hS hok (sound_all hexit hS test h.1) (sound_all hexit hS body h.2.2)
  | .hash body, al, hok => by
    have h := hok
    simp only [Node.Ok] at h
    exact sound_hash hexit hS hok (sound_all hexit hS body h.1)
theorem sound_all {env : Env} {S : Site} {sh0 : Shared} {sc : Obj} (hexit : sh0.exit = false) (hS : SiteOf env sh0 S) :
    ∀ (l : List Node) {al : Str}, AllOk S al l → Sound env S sh0 sc (printAll l) al (meansAll S al l) (depthAll l)
  | [], al, _ => by
    intro n m sh inh b _ ha _
    simp only [meansAll, printAll]
    exact ⟨sh, inh, .nil _ _, ha, .refl _ _⟩
  | x :: l, al, hok => by
    simp only [AllOk] at hok
    intro n m sh inh b hd ha hmax
    simp only [meansAll, printAll, depthAll] at hmax hd ⊢
    obtain ⟨sh1, inh1, h1, ha1, hk1⟩ := sound_node hexit hS x hok.1 n m sh inh b (by omega) ha
      (Nat.le_trans (mono_all S l al _) hmax)
    obtain ⟨sh2, inh2, h2, ha2, hk2⟩ := sound_all hexit hS l hok.2 n _ sh1 inh1 b (by omega) ha1 hmax
    refine ⟨sh2, inh2, C68_append h1 rfl (by rw [ha1.hold]; exact hexit) ?_ h2, ha2, hk1.trans hk2⟩
    rintro ⟨r, hr⟩
    exact (cont_all' hok.2).1 (by rw [← hr]; rfl)
end

/-! ### C77 -/

/-- `Ends sh m sh'`: `sh'` is `sh` but for the data, which are those of `m`, the number of BIFs, which is that of `m`, and the
table of definitions of blocks. -/
structure Spec.Ends (sh : Shared) (m : Mem) (sh' : Shared) : Prop where
  rest : sh' = { sh with schema := sh'.schema, indir := sh'.indir, count := m.bifs }
  data : sh'.schema.index c!"data" = .obj m.data
  others : ∀ k, k ≠ c!"data" → sh'.schema.index k = sh.schema.index k

/-- `Defs S defs`: definitions with the snippets and the allow lists of `S`, in which the parameters, if there are any, are an object. -/
structure Spec.Defs (S : Site) (defs : Obj) : Prop where
  params : entry defs c!"params" = .null ∨ ∃ o, entry defs c!"params" = .obj o
  snippets : entry defs c!"snippets" = S.snippets
  declared : entry defs c!"declare" = S.declared

theorem Obj.insert_same {k : Str} {v : Value} : ∀ {o : Obj}, Obj.get? k o = some v → Obj.insert k v o = o
  | [], h => by simp [Obj.get?] at h
  | (a, x) :: o, h => by
    simp only [Obj.get?] at h
    simp only [Obj.insert]
    by_cases ha : a = k
    · rw [if_pos ha] at h ⊢
      simp only [Option.some.injEq] at h
      rw [h]
    · rw [if_neg ha] at h ⊢
      rw [Obj.insert_same h]

/-- **C77 (blocks).** For every template of the language, every data and definitions, and every state in which no exit was
requested: evaluating the written template gives the text it means, without the outer white space, and changes the data, the
definitions, the number of BIFs and what is remembered of the last BIF as it means; nothing else of the state but the tables
of definitions of blocks.  The premise on the number is the limit of the configuration: the template is evaluated completely. -/
theorem C77_means (env : Env) (n : Nat) (sh : Shared) (inh : Inherit) (S : Site) (l : List Node) (sc d defs : Obj) (b : Nat)
    (hS : SiteOf env sh S) (hok : AllOk S inh.alias l) (hexit : sh.exit = false) (hs : sh.schema = .obj sc)
    (hd : Obj.get? c!"data" sc = some (.obj d)) (hb : AtLevel inh b) (hsees : sh.indir inh.indir = some (.obj defs))
    (hdefs : Defs S defs) (hn : sh.max - sh.count < n)
    (hmax : (meansAll S inh.alias l ⟨d, defs, inh.lastBifOut, inh.lastCoalesceOut, sh.count⟩).2.bifs ≤ sh.max) :
    ∃ r, r = meansAll S inh.alias l ⟨d, defs, inh.lastBifOut, inh.lastCoalesceOut, sh.count⟩ ∧
      ∃ sh' inh', parseSrc (runBlocks env n) sh inh (printAll l) [] = .ok (trim r.1) sh' inh' ∧ Ends sh r.2 sh' ∧
        sh'.indir inh'.indir = some (.obj r.2.defs) ∧ inh'.lastBifOut = r.2.last ∧ inh'.lastCoalesceOut = r.2.lastC := by
  refine ⟨_, rfl, ?_⟩
  generalize hm : (⟨d, defs, inh.lastBifOut, inh.lastCoalesceOut, sh.count⟩ : Mem) = m at hmax ⊢
  have hsame := Obj.insert_same hd
  have hh : Holding sh sc m sh := by
    subst hm
    show sh = { sh with schema := .obj (Obj.insert c!"data" (.obj d) sc), indir := sh.indir, count := sh.count }
    rw [hsame, ← hs]
  obtain ⟨sh', inh', h1, h2, _⟩ := sound_all (env := env) (sc := sc) hexit hS l hok (max (depthAll l) n) m sh inh b (by omega)
    ⟨hh, by rw [← hm], by rw [← hm], rfl, hb, by rw [← hm]; exact hsees, by rw [← hm]; exact hdefs.params,
      by rw [← hm]; exact hdefs.snippets, by rw [← hm]; exact hdefs.declared⟩ hmax
  obtain ⟨bl, hwf⟩ := good_wf (good_all l hok [] cont_nil) rfl 0
  have hp := (C68_blocks env _ sh sh' inh inh' (printAll l) [] _ bl hwf).2 ⟨true, _, h1, rfl⟩
  have hcnt : sh.count ≤ sh.max := by
    have := mono_all S l inh.alias m
    have e : m.bifs = sh.count := by rw [← hm]
    omega
  have hne : parseSrc (runBlocks env n) sh inh (printAll l) [] ≠ .oof := by
    unfold parseSrc
    rw [C15_complete _ _ hwf]
    dsimp only
    rcases C19_terminates env n sh inh (printAll l) [] bl hcnt hn with ⟨o, s, i, h⟩ | ⟨p, h⟩ <;> (rw [h]; simp)
  have hle : parseSrc (runBlocks env (max (depthAll l) n + 1)) sh inh (printAll l) [] = parseSrc (runBlocks env n) sh inh (printAll l) [] :=
    parseSrc_le (fun sh inh src bs only h => C19_depth env n _ (by omega) sh inh src only bs h) sh inh _ _ hne
  rw [hle] at hp
  refine ⟨sh', inh', hp, ⟨?_, h2.hold.data, ?_⟩, h2.sees, h2.last, h2.lastC⟩
  · have := h2.hold
    unfold Holding at this
    rw [this]
  · intro k hk
    have := h2.hold
    rw [this, hs]
    simp only [Value.index, Value.get?]
    rw [Obj.get?_insert_ne _ _ (Ne.symm hk)]

/-- The data with which a render starts: those of the schema, the request data filtered (C04). -/
def Spec.startData (d : Obj) : Obj := Obj.insert c!"CONTEXT" (filterValueKeys (filterValue (entry d c!"CONTEXT"))) d

/-- What a render starts with: the data and the definitions of the schema. -/
def Spec.startMem (d defs : Obj) : Mem := ⟨startData d, defs, false, false, 0⟩

/-- The start of a render. -/
theorem init_data {env : Env} {w : World} {t : Tpl} {src : Str} {sh : Shared} {s d defs : Obj} (hnew : Shared.new env w t.schema = some sh)
    (hsrc : removeComments t.raw = some src ∧ t.raw = src) (hs : t.schema = .obj s) (hd : Obj.get? c!"data" s = some (.obj d))
    (hdefs : Obj.get? c!"inherit" s = some (.obj defs)) :
    ∃ sh1 inh s1, initShared env t.filePath t.raw sh = .ok (src, sh1, inh) ∧ sh1.schema = .obj s1 ∧
      Obj.get? c!"data" s1 = some (.obj (startData d)) ∧ sh1.indir inh.indir = some (.obj defs) ∧
      inh.lastBifOut = false ∧ inh.lastCoalesceOut = false ∧ inh.alias = [] := by
  have hsch : sh.schema = t.schema := by
    unfold Shared.new at hnew
    dsimp only at hnew
    split at hnew
    · simp only [Option.some.injEq] at hnew
      rw [← hnew]
    · simp at hnew
  obtain ⟨g, hg⟩ := createBlockSchema_sh sh Inherit.new
  have hsc : (createBlockSchema sh Inherit.new).1.schema = .obj s := by rw [hg]; exact hsch.trans hs
  have hraw : (if contains c!"remove" sh.comments then removeComments t.raw else some t.raw) = some src := by
    split
    · exact hsrc.1
    · rw [hsrc.2]
  unfold initShared
  rw [hraw]
  simp only [hsc, Value.setIndex, Option.bind_some, filterContext, Value.modIndex]
  have hdat : (Obj.get? c!"data" (Obj.insert c!"__error" (.arr []) (Obj.insert c!"__moveto" (.obj []) s))).getD .null = .obj d := by
    rw [Obj.get?_insert_ne _ _ (by decide), Obj.get?_insert_ne _ _ (by decide), hd]
    rfl
  rw [hdat]
  refine ⟨_, _, _, rfl, rfl, Obj.get?_insert_self _ _ _, ?_, rfl, rfl, rfl⟩
  simp only [if_true, Value.index, Value.get?]
  rw [Obj.get?_insert_ne _ _ (by decide), Obj.get?_insert_ne _ _ (by decide), hdefs]
  rfl

/-- **C77 (renders).** For every template of the language with a BIF in it, every schema with its data and definitions:
rendering the written template succeeds, the output is the text the template means (without the outer white space, after the
replacement of the marks, C47), exactly the BIFs it means were evaluated, the data of the render end as it means, and the
status is 200 with no error.  The premises are that the configuration is accepted, that the limit of BIFs is enough, and that
the text has no `{:!cache;` in it (which would be evaluated in a second pass, C75). -/
theorem C77_render (env : Env) (n : Nat) (w : World) (t : Tpl) (S : Site) (l : List Node) (sh : Shared) (s d defs : Obj)
    (hnew : Shared.new env w t.schema = some sh) (hS : SiteOf env sh S)
    (hok : AllOk S [] l) (hraw : t.raw = printAll l) (hb : c!"{:" <:+: printAll l)
    (hs : t.schema = .obj s) (hd : Obj.get? c!"data" s = some (.obj d))
    (hinh : Obj.get? c!"inherit" s = some (.obj defs)) (hdefs : Defs S defs)
    (hmax : (meansAll S [] l (startMem d defs)).2.bifs ≤ sh.max)
    (hcache : ¬ c!"{:!cache;" <:+: trim (meansAll S [] l (startMem d defs)).1) :
    ∃ r t', r = meansAll S [] l (startMem d defs) ∧ t.render env n w = .ok t' ∧
      TextResult t' r.1 r.2.bifs ∧ t'.shared.schema.index c!"data" = .obj r.2.data := by
  obtain ⟨sh1, inh, s1, hinit, hs1, hd1, hsees, hl, hlc, hal⟩ := init_data hnew ⟨by
    rw [hraw]; exact C16_unchanged _ (all_noComment hok), hraw⟩ hs hd hinh
  obtain ⟨sc', g, hf⟩ := initShared_frame hinit
  obtain ⟨s1', s2, s3, s4, s5, s6, s7⟩ := sharedNew_start hnew
  have hmx : sh1.max = sh.max := by rw [hf]
  have hcnt : sh1.count = 0 := by rw [hf]; exact s5
  have hex : sh1.exit = false := by rw [hf]; exact s7
  have hS1 : SiteOf env sh1 S := by
    refine ⟨hS.F, ?_, ?_, ?_, hS.json, hS.md5, ?_⟩
    · rw [hf]; exact hS.filterAll
    · rw [hf]; exact hS.sanitize
    · rw [hf]; exact hS.lang
    · rw [hf]; exact hS.file
  have hm0 : (⟨startData d, defs, inh.lastBifOut, inh.lastCoalesceOut, sh1.count⟩ : Mem) = startMem d defs := by
    rw [hl, hlc, hcnt]; rfl
  obtain ⟨r, hr, sh2, inh2, hp, hends, _, _, _⟩ := C77_means env (sh1.max + 1) sh1 { inh with blockCount := inh.blockCount + 1 } S l s1
    (startData d) defs 1 hS1 (by show AllOk S inh.alias l; rw [hal]; exact hok)
    hex hs1 hd1 (C24_start hinit) hsees hdefs (by omega) (by
      show (meansAll S inh.alias l ⟨startData d, defs, inh.lastBifOut, inh.lastCoalesceOut, sh1.count⟩).2.bifs ≤ sh1.max
      rw [hm0, hal, hmx]; exact hmax)
  have hr' : r = meansAll S [] l (startMem d defs) := by
    rw [hr]
    show meansAll S inh.alias l ⟨startData d, defs, inh.lastBifOut, inh.lastCoalesceOut, sh1.count⟩ = _
    rw [hm0, hal]
  rw [← hr'] at hcache
  refine ⟨r, ⟨printAll l, t.filePath, t.schema, sh2, replacements (trim r.1)⟩, hr', ?_, ?_, hends.data⟩
  · have hb' : contains bifOpen t.raw = true := (contains_iff (by decide)).2 (by rw [hraw]; exact hb)
    unfold Tpl.render
    simp only [hb', Bool.not_true, Bool.false_eq_true, if_false]
    unfold renderWith
    rw [hnew]
    simp only
    rw [hinit]
    simp only
    rw [C24_passes hinit, hp]
    simp only [cacheLoop_done env inh n _ _ hcache]
    unfold endsRender
    rw [applyMoveto_empty ((hends.others _ (by decide)).trans (initShared_ok hinit).2.1)]
    simp only [Option.map_some]
    have c1 : sh2.statusCode = c!"200" := by rw [hends.rest]; show sh1.statusCode = _; rw [hf]; exact s1'
    have c4 : sh2.redirectJs = [] := by rw [hends.rest]; show sh1.redirectJs = _; rw [hf]; exact s4
    have := C40_three_digits sh2 (replacements (trim r.1)) 2 0 0 (by omega) (by omega) (by omega) c1
    rw [this, c4]
    simp
  · refine ⟨rfl, ?_, ?_, ?_, ?_, ?_, ?_⟩
    · show sh2.statusCode = _; rw [hends.rest]; show sh1.statusCode = _; rw [hf]; exact s1'
    · show sh2.statusText = _; rw [hends.rest]; show sh1.statusText = _; rw [hf]; exact s2
    · show sh2.statusParam = _; rw [hends.rest]; show sh1.statusParam = _; rw [hf]; exact s3
    · show sh2.count = _; rw [hends.rest]
    · show sh2.hasError = _; rw [hends.rest]; show sh1.hasError = _; rw [hf]; exact s6
    · show sh2.schema.index c!"__error" = _
      rw [hends.others _ (by decide)]; exact (initShared_ok hinit).2.2.1

/-! A page with all the parts of the language, what it means, and what is rendered. -/

/-- The included file. -/
def Sample.part : List Node := [.text c!"<p>", .trans false [.text c!"Hi"], .text c!" ", .param c!"who", .text c!"</p>"]

/-- The snippet. -/
def Sample.button : List Node := [.text c!"[", .var true c!"x", .text c!"]"]

/-- A page: a list of the elements of a collection with a test in the loop, a comparison, a coalesce, a loop over numbers, a
parameter, an included file and a snippet, a replacement, an allow list, evals, a mark and the language. -/
def Sample.page : List Node :=
  [.text c!"<ul>", .each false c!"l" c!"k" c!"v" [.text c!" <li>", .var false c!"v", .text c!"</li> ",
      .cond false false c!"bool" c!"v->b" [.text c!"B", .var true c!"k"], .els false false [.text c!"no"]],
    .cmp true false c!"same" [.var false c!"x"] [.text c!"X "] [.text c!"dif"],
    .coalesce false [.var false c!"u", .code false [.var true c!"x"], .var false c!"x"], .text c!"</ul>",
    .code true [.setParam c!"who" [.text c!"me", .var false c!"local::y"], .range true c!"i" 2 (-1) [.var false c!"i", .text c!","]],
    .incl c!"p.ntpl" Sample.part, .snippet c!"snip" c!"s" Sample.button,
    .replace [.text c!"a"] [.var false c!"x"] [.text c!"banana"], .allow false c!"any" [.var true c!"x"],
    .eval false false [.var true c!"x"] [.text c!"(", .var true c!"__eval__", .text c!")"],
    .eval true true [.text c!" ", .var false c!"u"] [.text c!"none "], .leaf .mark, .leaf .lang]

/-- Its data. -/
def Sample.pageData : Obj :=
  [(c!"x", .str c!"X<"), (c!"l", .arr [.str c!"a", .obj [(c!"b", .bool true)], .num (.int 3)])]

/-- Its definitions: a translation, a snippet and a local variable. -/
def Sample.pageDefs : Obj := [
  (c!"locale", .obj [(c!"current", .str c!"en"), (c!"trans", .obj [(c!"en", .obj [(c!"Hi", .str c!"Hello")])])]),
  (c!"snippets", .obj [(c!"s", .str (printAll Sample.button))]), (c!"snippets_set_dir", .obj []), (c!"declare", .obj [(c!"any", .str c!"*")]),
  (c!"params", .obj []), (c!"data", .obj [(c!"y", .num (.int 7))])]

/-- Its files. -/
def Sample.pageWorld : World := ⟨fun p => if p = c!"p.ntpl" then some (Sample.file (printAll Sample.part)) else none, 0⟩

/-- Its site. -/
def Sample.pageSite : Site where
  F := Sample.env.f64
  filterAll := false
  sanitize := true
  lang := c!"en"
  file := fun p => if p = c!"p.ntpl" then some (printAll Sample.part) else none
  json := Sample.env.jsonParse
  md5 := Sample.env.md5
  snippets := .obj [(c!"s", .str (printAll Sample.button))]
  declared := .obj [(c!"any", .str c!"*")]

theorem textOk_of {t : Str} (h : ¬ c!"{:" <:+: t ∧ ¬ c!":}" <:+: t ∧ ¬ c!">>" <:+: t ∧
    (t.head? ≠ some ':' ∧ t.head? ≠ some '}' ∧ t.head? ≠ some '>') ∧ t.getLast? ≠ some '{') : TextOk t :=
  ⟨h.1, h.2.1, h.2.2.1, h.2.2.2.1, h.2.2.2.2⟩

theorem nameOk_of {t : Str} (h : t ≠ [] ∧ (∀ c ∈ t, c ≠ '{' ∧ c ≠ '}' ∧ isWs c = false) ∧ ¬ c!">>" <:+: t) : NameOk t :=
  ⟨h.1, h.2.1, h.2.2⟩

theorem Sample.page_ok : AllOk Sample.pageSite [] Sample.page := by
  simp only [Sample.page, Sample.part, Sample.button, AllOk, Node.Ok, Leaf.Ok, and_true, true_and]
  refine ⟨textOk_of (by decide), ⟨nameOk_of (by decide), ⟨nameOk_of (by decide), by decide⟩, ⟨nameOk_of (by decide), by decide⟩,
      textOk_of (by decide), nameOk_of (by decide), textOk_of (by decide),
      ⟨by decide, nameOk_of (by decide), textOk_of (by decide), nameOk_of (by decide)⟩, textOk_of (by decide)⟩,
    ⟨by decide, nameOk_of (by decide), textOk_of (by decide), textOk_of (by decide), by decide, by decide⟩,
    ⟨nameOk_of (by decide), nameOk_of (by decide), nameOk_of (by decide)⟩, textOk_of (by decide),
    ⟨⟨nameOk_of (by decide), textOk_of (by decide), nameOk_of (by decide)⟩,
      ⟨nameOk_of (by decide), by decide⟩, by decide, by decide, by decide, nameOk_of (by decide), textOk_of (by decide)⟩,
    ⟨nameOk_of (by decide), by decide, rfl, textOk_of (by decide), textOk_of (by decide), textOk_of (by decide), nameOk_of (by decide),
      textOk_of (by decide)⟩,
    ⟨by decide, nameOk_of (by decide), by decide, textOk_of (by decide), nameOk_of (by decide), textOk_of (by decide)⟩,
    ⟨textOk_of (by decide), nameOk_of (by decide), textOk_of (by decide), by decide, by decide⟩,
    ⟨nameOk_of (by decide), by decide, nameOk_of (by decide)⟩,
    ⟨nameOk_of (by decide), by decide, textOk_of (by decide), nameOk_of (by decide), textOk_of (by decide)⟩,
    ⟨textOk_of (by decide), nameOk_of (by decide)⟩, by decide, textOk_of (by decide)⟩

set_option maxRecDepth 10000 in
/-- The meaning of the page, and what is rendered. -/
example : (meansAll Sample.pageSite [] Sample.page (startMem Sample.pageData Sample.pageDefs)).1 =
      c!"<ul><li>a</li> no<li></li> B1<li>3</li> nodifX&lt;</ul>2,1,0,-1,<p>Hello me7</p>[X&lt;]bX<nX<nX<X&lt;(X&lt;)none&#0;en" ∧
    (Sample.outOf ((Sample.tpl (Sample.schema 1000 Sample.pageData Sample.pageDefs) (printAll Sample.page)).render Sample.env 10
      Sample.pageWorld)).map (·.1) =
      some c!"<ul><li>a</li> no<li></li> B1<li>3</li> nodifX&lt;</ul>2,1,0,-1,<p>Hello me7</p>[X&lt;]bX<nX<nX<X&lt;(X&lt;)noneen" ∧
    (meansAll Sample.pageSite [] Sample.page (startMem Sample.pageData Sample.pageDefs)).2.bifs = 41 := by decide +kernel

set_option maxRecDepth 10000 in
/-- The premises of the theorem are met by the page. -/
example : ∃ r t', r = meansAll Sample.pageSite [] Sample.page (startMem Sample.pageData Sample.pageDefs) ∧
    (Sample.tpl (Sample.schema 1000 Sample.pageData Sample.pageDefs) (printAll Sample.page)).render Sample.env 10 Sample.pageWorld = .ok t' ∧
    TextResult t' r.1 r.2.bifs ∧ t'.shared.schema.index c!"data" = .obj r.2.data :=
  C77_render Sample.env 10 Sample.pageWorld _ Sample.pageSite Sample.page _ _ Sample.pageData Sample.pageDefs rfl
    ⟨rfl, rfl, rfl, rfl, rfl, rfl, by
      intro p t h
      simp only [Sample.pageSite] at h
      split at h
      · next hp =>
        simp only [Option.some.injEq] at h
        subst h hp
        exact ⟨_, _, rfl, rfl, rfl⟩
      · simp at h⟩
    Sample.page_ok rfl (by decide +kernel) rfl rfl rfl ⟨.inr ⟨_, rfl⟩, rfl, rfl⟩ (by decide +kernel) (by decide +kernel)

/-! A page with files of data and of translations, hashes and joined collections. -/

/-- The translations in a file. -/
def Sample.fileTrans : Value := .obj [(c!"trans", .obj [(c!"en", .obj [(c!"Bye", .str c!"So long")])])]

/-- The data in a file. -/
def Sample.fileData : Value := .obj [(c!"data", .obj [(c!"z", .str c!"Z")])]

/-- An environment with two documents. -/
def Sample.envMore : Env := { Sample.env with
  jsonParse := fun t => if t = c!"D" then some Sample.fileData else if t = c!"T" then some Sample.fileTrans else none
  md5 := fun t => 'h' :: t }

/-- The two files. -/
def Sample.moreWorld : World :=
  ⟨fun p => if p = c!"d.json" then some (Sample.file c!"D") else if p = c!"t.json" then some (Sample.file c!"T") else none, 0⟩

/-- The site. -/
def Sample.moreSite : Site where
  F := Sample.envMore.f64
  filterAll := false
  sanitize := true
  lang := c!"en"
  file := fun p => if p = c!"d.json" then some c!"D" else if p = c!"t.json" then some c!"T" else none
  json := Sample.envMore.jsonParse
  md5 := Sample.envMore.md5
  snippets := .obj [(c!"s", .str (printAll Sample.button))]
  declared := .obj [(c!"any", .str c!"*")]

/-- The template. -/
def Sample.morePage : List Node :=
  [.leaf (.load false c!"d.json" Sample.fileData), .code true [.leaf (.load true c!"t.json" Sample.fileTrans)],
    .var false c!"local::z", .var false c!"local::y", .trans false [.text c!"Bye"], .trans false [.text c!"Hi"], .text c!"|",
    .leaf (.join false c!"l" c!", "), .text c!"|", .leaf (.join true c!"l" c!"+"), .text c!"|",
    .hash [.text c!"id-", .var false c!"x"]]

set_option maxRecDepth 10000 in
theorem Sample.morePage_ok : AllOk Sample.moreSite [] Sample.morePage := by
  simp only [Sample.morePage, AllOk, Node.Ok, Leaf.Ok, and_true]
  refine ⟨⟨nameOk_of (by decide), by decide, _, rfl, rfl, fun h => absurd h (by decide)⟩,
    ⟨nameOk_of (by decide), by decide, _, rfl, rfl, fun _ => by decide⟩, nameOk_of (by decide), nameOk_of (by decide), textOk_of (by decide),
    textOk_of (by decide), textOk_of (by decide), ⟨nameOk_of (by decide), by decide, by decide⟩, textOk_of (by decide),
    ⟨nameOk_of (by decide), by decide, by decide⟩, textOk_of (by decide), ⟨textOk_of (by decide), nameOk_of (by decide)⟩,
    ⟨_, _, rfl, 'i', by decide, by decide⟩⟩

set_option maxRecDepth 10000 in
/-- The meaning of the page, and what is rendered. -/
example : (meansAll Sample.moreSite [] Sample.morePage (startMem Sample.pageData Sample.pageDefs)).1 =
      c!"&#0;&#0;Z7So longHello|a, ,|0+1+2|hid-X<" ∧
    (Sample.outOf ((Sample.tpl (Sample.schema 1000 Sample.pageData Sample.pageDefs) (printAll Sample.morePage)).render Sample.envMore 10
      Sample.moreWorld)).map (·.1) = some c!"Z7So longHello|a, ,|0+1+2|hid-X<" := by decide +kernel

set_option maxRecDepth 10000 in
/-- The premises of the theorem are met by the page. -/
example : ∃ r t', r = meansAll Sample.moreSite [] Sample.morePage (startMem Sample.pageData Sample.pageDefs) ∧
    (Sample.tpl (Sample.schema 1000 Sample.pageData Sample.pageDefs) (printAll Sample.morePage)).render Sample.envMore 10
      Sample.moreWorld = .ok t' ∧
    TextResult t' r.1 r.2.bifs ∧ t'.shared.schema.index c!"data" = .obj r.2.data :=
  C77_render Sample.envMore 10 Sample.moreWorld _ Sample.moreSite Sample.morePage _ _ Sample.pageData Sample.pageDefs rfl
    ⟨rfl, rfl, rfl, rfl, rfl, rfl, by
      intro p t h
      simp only [Sample.moreSite] at h
      split at h
      · next hp =>
        simp only [Option.some.injEq] at h
        subst h hp
        exact ⟨_, _, rfl, rfl, rfl⟩
      · split at h
        · next hp =>
          simp only [Option.some.injEq] at h
          subst h hp
          exact ⟨_, _, rfl, rfl, rfl⟩
        · simp at h⟩
    Sample.morePage_ok rfl (by decide +kernel) rfl rfl rfl ⟨.inr ⟨_, rfl⟩, rfl, rfl⟩ (by decide +kernel) (by decide +kernel)

end Nts
