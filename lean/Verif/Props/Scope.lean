import Verif.Props.Exit
import Verif.Lemmas.Num
/-
C24: block scope isolation.
-/
set_option autoImplicit false
namespace Nts
open Spec

/-! ### specification -/

/-- The sections of a block's definitions: everything but the snippets (parameters, declarations, locale, local data). -/
def Spec.Section (key : Str) : Prop := key ≠ c!"snippets" ∧ key ≠ c!"snippets_set_dir"

/-- What a block sees of a section of definitions. -/
def Spec.visible (sh : Shared) (inh : Inherit) (key : Str) : Value := (sh.getIndir inh.indir).index key

/-- A block at nesting level `b`: the definitions it sees are its own or those of a block that encloses it. -/
structure Spec.AtLevel (inh : Inherit) (b : Nat) : Prop where
  count : inh.blockCount = b
  block : ∃ j, 1 ≤ j ∧ j ≤ b ∧ inh.indir = blockId j

/-- The definitions of the block `j` are the same. -/
def Spec.SameBlock (a b : Shared) (j : Nat) : Prop :=
  ∀ key, Section key → (b.getIndir (blockId j)).index key = (a.getIndir (blockId j)).index key

/-- The BIFs that define something for the enclosing block, or are meant to let through what is defined in them. -/
def Spec.Defining (name : Str) : Prop :=
  name = c!"data" ∨ name = c!"locale" ∨ name = c!"declare" ∨ name = c!"param" ∨ name = c!"snippet" ∨ name = c!"snip"
    ∨ name = c!"include"

/-! ### block identifiers and the block table -/

theorem blockId_inj {a b : Nat} (h : blockId a = blockId b) : a = b := by
  unfold blockId at h
  exact showNat_inj (List.append_cancel_left h)

theorem Spec.SameBlock.refl (a : Shared) (j : Nat) : SameBlock a a j := fun _ _ => rfl
theorem Spec.SameBlock.trans {a b c : Shared} {j : Nat} (h : SameBlock a b j) (h' : SameBlock b c j) : SameBlock a c j :=
  fun k hk => (h' k hk).trans (h k hk)
theorem Spec.SameBlock.of_eq {a b : Shared} {j : Nat} (h : b.indir = a.indir) : SameBlock a b j := by
  intro k _
  unfold Shared.getIndir
  rw [h]
theorem Spec.SameBlock.of_at {a b : Shared} {j : Nat} (h : b.indir (blockId j) = a.indir (blockId j)) : SameBlock a b j := by
  intro k _
  unfold Shared.getIndir
  rw [h]

theorem atLevel_pos {inh : Inherit} {b : Nat} (h : AtLevel inh b) : 1 ≤ b := by
  obtain ⟨j, h1, h2, _⟩ := h.block
  omega

theorem ownBlock {inh : Inherit} {b : Nat} (h : AtLevel inh b) (sh : Shared) :
    (createBlockSchema sh inh).2.indir = blockId b := by
  rw [createBlockSchema_inh]
  have := atLevel_pos h
  rw [h.count]
  simp only
  rw [if_neg (by omega)]

theorem create_atLevel {inh : Inherit} {b : Nat} (h : AtLevel inh b) (sh : Shared) :
    AtLevel (createBlockSchema sh inh).2 b :=
  ⟨h.count, b, atLevel_pos h, Nat.le_refl _, ownBlock h sh⟩

theorem create_same {inh : Inherit} {b : Nat} (h : AtLevel inh b) (sh : Shared) {j : Nat} (hj : j < b) :
    SameBlock sh (createBlockSchema sh inh).1 j := by
  apply SameBlock.of_at
  have hne : blockId j ≠ (createBlockSchema sh inh).2.indir := by
    rw [ownBlock h]
    intro he
    have := blockId_inj he
    omega
  rw [createBlockSchema_inh] at hne
  unfold createBlockSchema
  dsimp only at hne ⊢
  revert hne
  generalize (if inh.blockCount < 1 then c!"block_1" else blockId inh.blockCount) = bid
  intro hne
  split
  · split
    · exact if_neg hne
    · rfl
  · rfl

theorem update_same (sh : Shared) (a : Str) {b j : Nat} (hj : j ≠ b) : SameBlock sh (updateIndir sh a (blockId b)) j := by
  apply SameBlock.of_at
  unfold updateIndir
  split
  · exact if_neg (fun h => hj (blockId_inj h))
  · rfl

theorem drop_same {inh : Inherit} {b : Nat} (h : inh.blockCount = b) (sh : Shared) {j : Nat} (hj : j ≠ b) :
    SameBlock sh (dropBlock sh inh) j := by
  apply SameBlock.of_at
  unfold dropBlock
  rw [h]
  dsimp only
  split
  · exact if_neg (fun h => hj (blockId_inj h))
  · rfl

/-- A write to a section of the block `i`. -/
theorem mod_same {sh sh' : Shared} {i j : Nat} {sec : Str} {f : Value → Option Value}
    (h : sh.modIndir (blockId i) (fun x => x.modIndex sec f) = some sh') (hij : j ≠ i ∨ ¬ Section sec) :
    SameBlock sh sh' j := by
  unfold Shared.modIndir at h
  obtain ⟨v, hv, rfl⟩ := Option.map_eq_some_iff.1 h
  rcases hij with hij | hij
  · apply SameBlock.of_at
    exact if_neg (fun h => hij (blockId_inj h))
  · intro key hkey
    unfold Shared.getIndir
    dsimp only
    split
    · next he =>
      have hne : sec ≠ key := by
        intro h
        subst h
        exact hij hkey
      rw [he]
      simp only [Option.getD_some]
      rw [index_modIndex_ne hv hne]
      cases sh.indir (blockId i) with
      | none => rfl
      | some x => rfl
    · rfl

/-! ### definitions are written only after a block of its own has been created -/

/-- `Disc own p`: the program `p` writes to a section (other than the snippets) only when it has created its own block
(`own` at the start). -/
def Disc {α : Type} : Bool → Prog α → Prop
  | _, .pure _ => True
  | _, .throw _ => True
  | _, .panic _ => True
  | own, .op o k =>
    match o, k with
    | .createBlockSchema, k => Disc true (k ())
    | .setIndir sec _ _, k => (own = true ∨ ¬ Section sec) ∧ Disc own (k ())
    | .mergeIndir _ _, k => own = true ∧ Disc own (k ())
    | _, k => ∀ r, Disc own (k r)


theorem disc_mono {α : Type} {own : Bool} {p : Prog α} (h : Disc own p) : Disc true p := by
  induction p generalizing own with
  | op o k ih =>
    cases o with
    | createBlockSchema => exact ih () h
    | setIndir sec key v => exact ⟨.inl rfl, ih () h.2⟩
    | mergeIndir sec v => exact ⟨rfl, ih () h.2⟩
    | _ => exact fun r => ih r (h r)
  | _ => trivial

theorem disc_bind' {α β : Type} {own : Bool} {p : Prog α} {f : α → Prog β} (hp : Disc own p)
    (hf : ∀ a, Disc own (f a)) : Disc own (p.bind f) := by
  induction p generalizing own with
  | pure a => exact hf a
  | op o k ih =>
    cases o with
    | createBlockSchema => exact ih () hp (fun a => disc_mono (hf a))
    | setIndir sec key v => exact ⟨hp.1, ih () hp.2 hf⟩
    | mergeIndir sec v => exact ⟨hp.1, ih () hp.2 hf⟩
    | _ => exact fun r => ih r (hp r) hf
  | _ => trivial

theorem disc_bind {α β : Type} {own : Bool} {p : Prog α} {f : α → Prog β} (hp : Disc own p)
    (hf : ∀ a, Disc own (f a)) : Disc own (p >>= f) := disc_bind' hp hf

theorem disc_create {β : Type} {own : Bool} {f : Unit → Prog β} (hf : ∀ a, Disc true (f a)) :
    Disc own (perform .createBlockSchema >>= f) := hf ()

/-- Programs that write nothing but snippets. -/
def Plain : Op → Prop
  | .setIndir sec _ _ => ¬ Section sec
  | .mergeIndir _ _ => False
  | _ => True

theorem disc_ops {α : Type} {own : Bool} {p : Prog α} (h : OpsIn Plain p) : Disc own p := by
  induction p generalizing own with
  | op o k ih =>
    cases o with
    | createBlockSchema => exact ih () (h.2 ())
    | setIndir sec key v => exact ⟨.inr h.1, ih () (h.2 ())⟩
    | mergeIndir sec v => exact absurd h.1 id
    | _ => exact fun r => ih r (h.2 r)
  | _ => trivial

theorem plain_of {n : Str} (hn : n ≠ c!"data" ∧ n ≠ c!"locale" ∧ n ≠ c!"declare" ∧ n ≠ c!"param") {o : Op}
    (h : Effects n o) : Plain o := by
  cases o with
  | setIndir sec key v =>
    rcases h with h | h | ⟨_, h | h⟩
    · exact absurd h.1 hn.2.2.1
    · exact absurd h.1 hn.2.2.2
    · exact fun hs => hs.1 h
    · exact fun hs => hs.2 h
  | mergeIndir sec v =>
    rcases h with h | h
    · exact absurd h.1 hn.1
    · exact absurd h.1 hn.2.1
  | _ => trivial

theorem disc_code {α : Type} {own : Bool} {p : Prog α} (h : OpsIn (Effects c!"code") p) : Disc own p :=
  disc_ops (OpsIn_mono (fun _ => plain_of (by decide)) h)

macro "disc_step" : tactic => `(tactic| first
  | exact trivial
  | refine disc_create (fun _ => ?_)
  | exact disc_code (eff_denyMods _)
  | exact disc_code eff_denyFlags
  | exact disc_code (eff_extract _)
  | exact disc_code (eff_parseCode _)
  | exact disc_code eff_resolve
  | exact disc_code (eff_canon _ _)
  | exact disc_code eff_get
  | exact disc_code (eff_child _ _)
  | exact disc_code (eff_error _)
  | exact disc_code (eff_setCode _)
  | exact disc_code (eff_setOut _)
  | exact disc_code eff_outCode
  | exact ⟨.inl rfl, trivial⟩
  | exact ⟨rfl, trivial⟩
  | exact fun _ => trivial
  | refine disc_bind ?_ (fun _ => ?_)
  | split
  | dsimp only)

theorem disc_data (env : Env) (own : Bool) : Disc own (bifData env) := by
  unfold bifData mergeJson; repeat' disc_step
theorem disc_locale (env : Env) (own : Bool) : Disc own (bifLocale env) := by
  unfold bifLocale mergeJson; repeat' disc_step
theorem disc_declare (own : Bool) : Disc own bifDeclare := by
  unfold bifDeclare; repeat' disc_step
theorem disc_param (env : Env) (own : Bool) : Disc own (bifParam env) := by
  unfold bifParam; repeat' disc_step

/-- Every BIF keeps the discipline. -/
theorem disc_body (env : Env) (name : Str) (own : Bool) : Disc own (bifBody env name) := by
  by_cases h1 : name = c!"data"
  · subst h1; exact disc_data env own
  by_cases h2 : name = c!"locale"
  · subst h2; exact disc_locale env own
  by_cases h3 : name = c!"declare"
  · subst h3; exact disc_declare own
  by_cases h4 : name = c!"param"
  · subst h4; exact disc_param env own
  exact disc_ops (OpsIn_mono (fun _ => plain_of ⟨h1, h2, h3, h4⟩) (effects env name))

/-! ### blocks do not touch the definitions of enclosing blocks -/

/-- The recursive call keeps the definitions of the enclosing blocks. -/
def RecScope (R : Rec) : Prop :=
  ∀ sh inh src bs only b, AtLevel inh b →
    (R sh inh src bs only).Post2 (fun sh' inh' => AtLevel inh' b ∧ ∀ j, j < b → SameBlock sh sh' j)

theorem parseSrc_scope {R : Rec} (hR : RecScope R) {sh : Shared} {inh : Inherit} {src only : Str} {b : Nat}
    (h : AtLevel inh b) :
    (parseSrc R sh inh src only).Post2 (fun sh' inh' => AtLevel inh' b ∧ ∀ j, j < b → SameBlock sh sh' j) := by
  unfold parseSrc
  split
  · exact ⟨h, fun j _ => .of_eq rfl⟩
  · exact hR _ _ _ _ _ _ h

theorem childInherit_level {s : St} {b : Nat} (h : AtLevel s.inh b) : AtLevel (childInherit s) (b + 1) := by
  obtain ⟨j, h1, h2, h3⟩ := h.block
  exact ⟨by simp [childInherit, h.count], j, h1, by omega, h3⟩

theorem runChild_scope {f : Shared → Inherit → PRes}
    (hf : ∀ sh inh b, AtLevel inh b → (f sh inh).Post2 (fun sh' inh' => AtLevel inh' b ∧ ∀ j, j < b → SameBlock sh sh' j))
    {s s' : St} {scope : Bool} {out : Str} {b : Nat} (hb : AtLevel s.inh b) (h : runChild s scope f = .ok out s') :
    AtLevel s'.inh b ∧ (∀ j, j < b → SameBlock s.sh s'.sh j) ∧ (s.inh.indir = blockId b → s'.inh.indir = blockId b) ∧
      (scope = false → s'.inh = s.inh ∧ ∀ j, j ≤ b → SameBlock s.sh s'.sh j) := by
  unfold runChild at h
  dsimp only at h
  have hci := childInherit_level hb
  cases scope with
  | false =>
    simp only [if_false, Bool.false_eq_true] at h
    have h1 := hf s.sh (childInherit s) (b + 1) hci
    cases he : f s.sh (childInherit s) with
    | ok o sh2 ci2 =>
      rw [he] at h1 h
      simp only [ORes.ok.injEq] at h
      obtain ⟨_, rfl⟩ := h
      have key : ∀ j, j ≤ b → SameBlock s.sh (dropBlock sh2 ci2) j := fun j hj =>
        (h1.2 j (by omega)).trans (drop_same h1.1.count sh2 (by omega))
      exact ⟨hb, fun j hj => key j (by omega), id, fun _ => ⟨rfl, key⟩⟩
    | panic p => rw [he] at h; simp at h
    | oof => rw [he] at h; simp at h
  | true =>
    simp only [if_true] at h
    have h1 := hf (createBlockSchema s.sh s.inh).1 (childInherit s) (b + 1) hci
    cases he : f (createBlockSchema s.sh s.inh).1 (childInherit s) with
    | ok o sh2 ci2 =>
      rw [he] at h1 h
      simp only [ORes.ok.injEq] at h
      obtain ⟨_, rfl⟩ := h
      refine ⟨create_atLevel hb s.sh, ?_, fun _ => ownBlock hb s.sh, nofun⟩
      intro j hj
      rw [ownBlock hb]
      exact (create_same hb s.sh hj).trans ((h1.2 j (by omega)).trans ((update_same sh2 _ (by omega)).trans
        (drop_same h1.1.count _ (by omega))))
    | panic p => rw [he] at h; simp at h
    | oof => rw [he] at h; simp at h

theorem disc_run {R : Rec} (hR : RecScope R) {α : Type} (p : Prog α) :
    ∀ (own : Bool) (s : St) (b : Nat), Disc own p → AtLevel s.inh b → (own = true → s.inh.indir = blockId b) →
      (run R p s).Post (fun s' => AtLevel s'.inh b ∧ ∀ j, j < b → SameBlock s.sh s'.sh j) := by
  induction p with
  | pure a => intro own s b _ hb _; exact ⟨hb, fun j _ => .refl _ _⟩
  | throw e => intro own s b _ hb _; exact ⟨hb, fun j _ => .refl _ _⟩
  | panic p => intros; trivial
  | op o k ih =>
    intro own s b hd hb how
    simp only [run]
    cases hst : step R o s with
    | panic p => trivial
    | oof => trivial
    | ok r s1 =>
      have key : ∀ own', Disc own' (k r) → AtLevel s1.inh b → (own' = true → s1.inh.indir = blockId b) →
          (∀ j, j < b → SameBlock s.sh s1.sh j) →
          (run R (k r) s1).Post (fun s' => AtLevel s'.inh b ∧ ∀ j, j < b → SameBlock s.sh s'.sh j) := by
        intro own' hd' hb' how' hs'
        have := ih r own' s1 b hd' hb' how'
        revert this
        cases run R (k r) s1 with
        | ok a s2 => exact fun h => ⟨h.1, fun j hj => (hs' j hj).trans (h.2 j hj)⟩
        | err e s2 => exact fun h => ⟨h.1, fun j hj => (hs' j hj).trans (h.2 j hj)⟩
        | panic p => exact fun _ => trivial
        | oof => exact fun _ => trivial
      have plain : (∀ r, Disc own (k r)) → s1.inh.blockCount = s.inh.blockCount → s1.inh.indir = s.inh.indir →
          s1.sh.indir = s.sh.indir →
          (run R (k r) s1).Post (fun s' => AtLevel s'.inh b ∧ ∀ j, j < b → SameBlock s.sh s'.sh j) := by
        intro hd' h1 h2 h3
        refine key own (hd' r) ⟨h1.trans hb.count, ?_⟩ (fun h => h2.trans (how h)) (fun j _ => .of_eq h3)
        rw [h2]
        exact hb.block
      cases o with
      | createBlockSchema =>
        simp only [step, ORes.ok.injEq] at hst
        obtain ⟨_, rfl⟩ := hst
        exact key true hd (create_atLevel hb s.sh) (fun _ => ownBlock hb s.sh) (fun j hj => create_same hb _ hj)
      | setIndir sec ky v =>
        obtain ⟨sh1, hm, rfl⟩ := oresOpt_map hst
        obtain ⟨i, _, hi, hb2⟩ := hb.block
        refine key own hd.2 hb how ?_
        intro j hj
        rcases hd.1 with ho | hs
        · rw [how ho] at hm
          exact mod_same hm (.inl (by omega))
        · rw [hb2] at hm
          exact mod_same hm (.inr hs)
      | mergeIndir sec v =>
        obtain ⟨sh1, hm, rfl⟩ := oresOpt_map hst
        refine key own hd.2 hb how ?_
        intro j hj
        rw [how hd.1] at hm
        exact mod_same hm (.inl (by omega))
      | child src scope =>
        simp only [step] at hst
        obtain ⟨h1, h2, h3, _⟩ := runChild_scope (fun sh inh b hb => parseSrc_scope hR hb) hb hst
        exact key own (hd r) h1 (fun h => h3 (how h)) h2
      | childBlocks src bs scope =>
        simp only [step] at hst
        obtain ⟨h1, h2, h3, _⟩ := runChild_scope (fun sh inh b hb => hR sh inh src bs s.only b hb) hb hst
        exact key own (hd r) h1 (fun h => h3 (how h)) h2
      | setData name v => obtain ⟨x, _, rfl⟩ := oresOpt_map hst; exact plain hd rfl rfl rfl
      | setMoveto name v => obtain ⟨x, _, rfl⟩ := oresOpt_map hst; exact plain hd rfl rfl rfl
      | pushFile kd p =>
        cases kd <;> (simp only [step, ORes.ok.injEq] at hst; obtain ⟨_, rfl⟩ := hst; exact plain hd rfl rfl rfl)
      | _ => simp only [step, ORes.ok.injEq] at hst; obtain ⟨_, rfl⟩ := hst; exact plain hd rfl rfl rfl

theorem pushError_indir (sh : Shared) (line : Str) : (pushError sh line).indir = sh.indir := rfl

theorem scope_books (sh0 : Shared) (b : Nat) :
    Books (fun sh inh => AtLevel inh b ∧ ∀ j, j < b → SameBlock sh0 sh j) where
  count sh inh h _ := ⟨⟨h.1.count, h.1.block⟩, fun j hj => (h.2 j hj).trans (.of_eq rfl)⟩
  only sh inh h := ⟨⟨h.1.count, h.1.block⟩, h.2⟩
  err sh inh line h := ⟨h.1, fun j hj => (h.2 j hj).trans (.of_eq rfl)⟩
  tick sh inh h := ⟨h.1, fun j hj => (h.2 j hj).trans (.of_eq rfl)⟩
  out sh inh x h := ⟨⟨h.1.count, h.1.block⟩, h.2⟩

theorem scope_bodies (env : Env) {R : Rec} (hR : RecScope R) (sh0 : Shared) (b : Nat) (name : Str) (s : St)
    (h : AtLevel s.inh b ∧ ∀ j, j < b → SameBlock sh0 s.sh j) :
    (run R (bifBody env name) s).Post (fun s' => AtLevel s'.inh b ∧ ∀ j, j < b → SameBlock sh0 s'.sh j) := by
  have := disc_run hR (bifBody env name) false s b (disc_body env name false) h.1 (by simp)
  revert this
  cases run R (bifBody env name) s with
  | ok a s2 => exact fun h' => ⟨h'.1, fun j hj => (h.2 j hj).trans (h'.2 j hj)⟩
  | err e s2 => exact fun h' => ⟨h'.1, fun j hj => (h.2 j hj).trans (h'.2 j hj)⟩
  | panic p => exact fun _ => trivial
  | oof => exact fun _ => trivial

theorem runBlocks_scope (env : Env) (n : Nat) : RecScope (runBlocks env n) := by
  induction n with
  | zero => intro sh inh src bs only b _; trivial
  | succ n ih =>
    intro sh inh src bs only b hb
    exact blocksGo_stays (scope_books sh b) env (scope_bodies env ih sh b) src only bs 0 [] sh inh
      ⟨hb, fun j _ => .refl _ _⟩

/-- **C24 (blocks).** Evaluating the text of a block at nesting level `b`, whatever it contains and however deep it nests,
leaves the parameters, declarations, locale and local data of all the enclosing blocks as they were. -/
theorem C24_block (env : Env) (n : Nat) (sh sh' : Shared) (inh inh' : Inherit) (src only x : Str) (b : Nat)
    (hb : AtLevel inh b) (h : parseSrc (runBlocks env n) sh inh src only = .ok x sh' inh') :
    AtLevel inh' b ∧ ∀ j, j < b → ∀ key, Section key →
      (sh'.getIndir (blockId j)).index key = (sh.getIndir (blockId j)).index key := by
  have := parseSrc_scope (runBlocks_scope env n) (sh := sh) (src := src) (only := only) hb
  rw [h] at this
  exact this

/-! ### a BIF that defines nothing -/

/-- Children keep their definitions for themselves. -/
def NoScope : Op → Prop
  | .child _ scope => scope = false
  | .childBlocks _ _ scope => scope = false
  | _ => True

/-- The states of a BIF without the modifier `+`. -/
abbrev Unscoped (s : St) : Prop := s.b.modScope = false

theorem guard_bind' {Q : St → Prop} {P : Op → Prop} {α β : Type} {p : Prog α} {f : α → Prog β} (hp : GuardIn Q P p)
    (hf : ∀ a, GuardIn Q P (f a)) : GuardIn Q P (p.bind f) := guard_bind hp hf

section
variable {α : Type}

theorem ns_child (x : Str) {b : Bool} (h : b = false) : GuardIn Unscoped NoScope (childParse x b) := ⟨h, fun _ _ => trivial⟩
theorem ns_childBlocks (x : Str) (bs : List (Nat × Nat)) {b : Bool} (h : b = false) :
    GuardIn Unscoped NoScope (perform (.childBlocks x bs b)) := ⟨h, fun _ _ => trivial⟩

theorem ns_get {β : Type} {f : St → Prog β} (hf : ∀ s, Unscoped s → GuardIn Unscoped NoScope (f s)) :
    GuardIn Unscoped NoScope (getSt >>= f) := guard_get trivial hf

macro "ns_step" : tactic => `(tactic| first
  | with_reducible refine ns_get (fun _ _ => ?_)
  | with_reducible refine guard_bind ?_ (fun _ => ?_)
  | with_reducible refine guard_bind' ?_ (fun _ => ?_)
  | with_reducible exact ns_child _ rfl
  | with_reducible exact ns_child _ (by assumption)
  | with_reducible exact ns_childBlocks _ _ (by assumption)
  | split
  | exact trivial
  | exact ⟨trivial, fun _ _ => trivial⟩
  | dsimp only)

theorem ns_error (msg : Str) : GuardIn Unscoped NoScope (bifError msg : Prog α) := ⟨trivial, fun _ _ => trivial⟩
theorem ns_denyMods (f : BifS → Bool) : GuardIn Unscoped NoScope (denyMods f) := by unfold denyMods; repeat' ns_step
theorem ns_denyFlags : GuardIn Unscoped NoScope denyFlags := by unfold denyFlags; repeat' ns_step
theorem ns_denyFlgParams : GuardIn Unscoped NoScope denyFlgParams := by unfold denyFlgParams; repeat' ns_step
theorem ns_checkFlags (l : List Str) : GuardIn Unscoped NoScope (checkFlags l) := by unfold checkFlags; repeat' ns_step
theorem ns_extract (b : Bool) : GuardIn Unscoped NoScope (extractParamsCode b) := by
  unfold extractParamsCode; repeat' ns_step
theorem ns_parseCode {b : Bool} (h : b = false) : GuardIn Unscoped NoScope (parseCode b) := by
  unfold parseCode; repeat' (first | exact ns_child _ h | ns_step)
theorem ns_argLoop (l : List Str) : GuardIn Unscoped NoScope (argLoop l) := by
  induction l with
  | nil => trivial
  | cons a r ih => unfold argLoop; repeat' (first | exact ih | ns_step)
theorem ns_extractArgs : GuardIn Unscoped NoScope extractArgs := by
  unfold extractArgs; repeat' (first | exact ns_argLoop _ | ns_step)
theorem ns_argReq (l : List Str) (i : Nat) (m : Str) : GuardIn Unscoped NoScope (argReq l i m) := by
  unfold argReq; repeat' ns_step
theorem ns_requireAllow (a b : Str) : GuardIn Unscoped NoScope (requireAllow a b) := by unfold requireAllow; repeat' ns_step
theorem ns_outUncached : GuardIn Unscoped NoScope outUncached := by unfold outUncached; repeat' ns_step
theorem ns_forList {β : Type} (l : List β) (f : β → Prog Unit) (h : ∀ x, GuardIn Unscoped NoScope (f x)) :
    GuardIn Unscoped NoScope (forList l f) := by
  induction l with
  | nil => trivial
  | cons a r ih => exact guard_bind' (h a) (fun _ => ih)

macro "ns_mid" : tactic => `(tactic| first
  | with_reducible exact ns_denyMods _
  | with_reducible exact ns_denyFlags
  | with_reducible exact ns_denyFlgParams
  | with_reducible exact ns_checkFlags _
  | with_reducible exact ns_extract _
  | with_reducible exact ns_parseCode rfl
  | with_reducible exact ns_parseCode (by assumption)
  | with_reducible exact ns_extractArgs
  | with_reducible exact ns_argReq _ _ _
  | with_reducible exact ns_requireAllow _ _
  | with_reducible exact ns_outUncached
  | with_reducible exact ns_error _
  | with_reducible refine ns_forList _ _ (fun _ => ?_)
  | ns_step)

theorem ns_cond (t : Value → Str → Bool) : GuardIn Unscoped NoScope (condBif t) := by unfold condBif; repeat' ns_mid
theorem ns_cmp (t : Str → Str → Bool) : GuardIn Unscoped NoScope (cmpBif t) := by unfold cmpBif; repeat' ns_mid
theorem ns_debugEnable (env : Env) : GuardIn Unscoped NoScope (debugEnable env) := by unfold debugEnable; repeat' ns_mid
theorem ns_setData (k v : Str) : GuardIn Unscoped NoScope (setData k v) := ⟨trivial, fun _ _ => trivial⟩
theorem ns_var (env : Env) : GuardIn Unscoped NoScope (bifVar env) := by unfold bifVar; repeat' ns_mid
theorem ns_allow (env : Env) : GuardIn Unscoped NoScope (bifAllow env) := by unfold bifAllow; repeat' ns_mid
theorem ns_coalesce : GuardIn Unscoped NoScope bifCoalesce := by unfold bifCoalesce; repeat' ns_mid
theorem ns_code : GuardIn Unscoped NoScope bifCode := by unfold bifCode; repeat' ns_mid
theorem ns_count (env : Env) : GuardIn Unscoped NoScope (bifCount env) := by unfold bifCount; repeat' ns_mid
theorem ns_date (env : Env) : GuardIn Unscoped NoScope (bifDate env) := by unfold bifDate; repeat' ns_mid
theorem ns_debug (env : Env) : GuardIn Unscoped NoScope (bifDebug env) := by
  unfold bifDebug; repeat' (first | exact ns_debugEnable _ | ns_mid)
theorem ns_each : GuardIn Unscoped NoScope bifEach := by unfold bifEach eachIter; repeat' ns_mid
theorem ns_else : GuardIn Unscoped NoScope bifElse := by unfold bifElse; repeat' ns_mid
theorem ns_eval (env : Env) : GuardIn Unscoped NoScope (bifEval env) := by unfold bifEval; repeat' ns_mid
theorem ns_exit : GuardIn Unscoped NoScope bifExit := by unfold bifExit; repeat' ns_mid
theorem ns_fetch (env : Env) : GuardIn Unscoped NoScope (bifFetch env) := by unfold bifFetch; repeat' ns_mid
theorem ns_flg : GuardIn Unscoped NoScope bifFlg := by unfold bifFlg; repeat' ns_mid
theorem ns_for (env : Env) : GuardIn Unscoped NoScope (bifFor env) := by unfold bifFor forIter; repeat' ns_mid
theorem ns_hash (env : Env) : GuardIn Unscoped NoScope (bifHash env) := by unfold bifHash; repeat' ns_mid
theorem ns_join (env : Env) : GuardIn Unscoped NoScope (bifJoin env) := by unfold bifJoin; repeat' ns_mid
theorem ns_lang : GuardIn Unscoped NoScope bifLang := by unfold bifLang; repeat' ns_mid
theorem ns_moveto (env : Env) : GuardIn Unscoped NoScope (bifMoveto env) := by unfold bifMoveto; repeat' ns_mid
theorem ns_neutral : GuardIn Unscoped NoScope bifNeutral := by unfold bifNeutral; repeat' ns_mid
theorem ns_rand (env : Env) : GuardIn Unscoped NoScope (bifRand env) := by unfold bifRand; repeat' ns_mid
theorem ns_redirect : GuardIn Unscoped NoScope bifRedirect := by unfold bifRedirect; repeat' ns_mid
theorem ns_replace : GuardIn Unscoped NoScope bifReplace := by unfold bifReplace; repeat' ns_mid
theorem ns_sum (env : Env) : GuardIn Unscoped NoScope (bifSum env) := by unfold bifSum; repeat' ns_mid
theorem ns_trans (env : Env) : GuardIn Unscoped NoScope (bifTrans env) := by unfold bifTrans; repeat' ns_mid
theorem ns_cacheParse (b : Bool) (f : Str → Prog Unit) (h : ∀ x, GuardIn Unscoped NoScope (f x)) :
    GuardIn Unscoped NoScope (cacheParse b f) := by
  unfold cacheParse; repeat' (first | exact h _ | ns_mid)
theorem ns_cacheStore (env : Env) (b : Bool) (d f : Str) : GuardIn Unscoped NoScope (cacheStore env b d f) := by
  unfold cacheStore; repeat' (first | exact ns_cacheParse _ _ (fun _ => ⟨trivial, fun _ _ => trivial⟩) | ns_mid)
theorem ns_cacheLookup (env : Env) (b : Bool) (d f e : Str) : GuardIn Unscoped NoScope (cacheLookup env b d f e) := by
  unfold cacheLookup
  repeat' (first | exact ns_cacheStore _ _ _ _ | exact ns_cacheParse _ _ (fun _ => ⟨trivial, fun _ _ => trivial⟩) | ns_mid)
theorem ns_cache (env : Env) : GuardIn Unscoped NoScope (bifCache env) := by
  unfold bifCache; repeat' (first | exact ns_cacheLookup _ _ _ _ _ | ns_mid)
theorem ns_objString (x : Str) : GuardIn Unscoped NoScope (objString x) := by unfold objString; repeat' ns_mid

mutual
theorem ns_objEntry (b : Bool) (k : Str) : ∀ v, GuardIn Unscoped NoScope (objEntry b k v)
  | .str x => by unfold objEntry; repeat' (first | exact ns_objString _ | ns_mid)
  | .obj o => by unfold objEntry; repeat' (first | exact ns_objEntries _ _ | ns_mid)
  | .null => by unfold objEntry; trivial
  | .bool _ => by unfold objEntry; trivial
  | .num _ => by unfold objEntry; trivial
  | .arr _ => by unfold objEntry; trivial
theorem ns_objEntries (b : Bool) : ∀ o, GuardIn Unscoped NoScope (objEntries b o)
  | [] => trivial
  | (k, v) :: r => by
    unfold objEntries
    exact guard_bind' (ns_objEntry b k v) (fun _ => guard_bind' (ns_objEntries b r) (fun _ => trivial))
end

theorem ns_objSource (env : Env) : GuardIn Unscoped NoScope (objSource env) := by unfold objSource; repeat' ns_mid
theorem ns_objVenv (o : Value) (d : Str) : GuardIn Unscoped NoScope (objVenv o d) := by unfold objVenv; repeat' ns_mid
theorem ns_objCall (env : Env) (o : Value) (p : Bool) (f : Str) : GuardIn Unscoped NoScope (objCall env o p f) := by
  unfold objCall ensureBridge; repeat' (first | exact ns_objVenv _ _ | ns_mid)
theorem ns_parseObj (o : Value) : GuardIn Unscoped NoScope (parseObjValues o) := by
  unfold parseObjValues; repeat' (first | exact ns_objEntries _ _ | ns_mid)
theorem ns_obj (env : Env) : GuardIn Unscoped NoScope (bifObj env) := by
  unfold bifObj
  repeat' (first | exact ns_objSource _ | exact ns_objCall _ _ _ _ | exact ns_parseObj _ | ns_mid)
theorem ns_unknown : GuardIn Unscoped NoScope bifUnknown := by unfold bifUnknown; repeat' ns_mid

end

theorem guard_ite {Q : St → Prop} {P : Op → Prop} {α : Type} {c : Prop} [Decidable c] {p q : Prog α}
    (h1 : c → GuardIn Q P p) (h2 : ¬ c → GuardIn Q P q) : GuardIn Q P (if c then p else q) := by
  by_cases h : c
  · rw [if_pos h]; exact h1 h
  · rw [if_neg h]; exact h2 h

theorem ns_body (env : Env) (name : Str) (hd : ¬ Defining name) : GuardIn Unscoped NoScope (bifBody env name) := by
  unfold Defining at hd
  unfold bifBody
  refine guard_ite (fun _ => ns_var env) (fun _ => ?_)
  refine guard_ite (fun _ => ns_allow env) (fun _ => ?_)
  refine guard_ite (fun _ => ns_cond _) (fun _ => ?_)
  refine guard_ite (fun _ => ns_cond _) (fun _ => ?_)
  refine guard_ite (fun _ => ns_cache env) (fun _ => ?_)
  refine guard_ite (fun _ => ns_coalesce) (fun _ => ?_)
  refine guard_ite (fun _ => ns_code) (fun _ => ?_)
  refine guard_ite (fun _ => ns_cmp _) (fun _ => ?_)
  refine guard_ite (fun _ => ns_count env) (fun _ => ?_)
  refine guard_ite (fun h => absurd (.inl h) hd) (fun _ => ?_)
  refine guard_ite (fun _ => ns_date env) (fun _ => ?_)
  refine guard_ite (fun h => absurd (.inr (.inr (.inl h))) hd) (fun _ => ?_)
  refine guard_ite (fun _ => ns_cond _) (fun _ => ?_)
  refine guard_ite (fun _ => ns_each) (fun _ => ?_)
  refine guard_ite (fun _ => ns_else) (fun _ => ?_)
  refine guard_ite (fun _ => ns_eval env) (fun _ => ?_)
  refine guard_ite (fun _ => ns_exit) (fun _ => ?_)
  refine guard_ite (fun _ => ns_fetch env) (fun _ => ?_)
  refine guard_ite (fun _ => ns_cond _) (fun _ => ?_)
  refine guard_ite (fun _ => ns_flg) (fun _ => ?_)
  refine guard_ite (fun _ => ns_for env) (fun _ => ?_)
  refine guard_ite (fun _ => ns_hash env) (fun _ => ?_)
  refine guard_ite (fun h => absurd (.inr (.inr (.inr (.inr (.inr (.inr h)))))) hd) (fun _ => ?_)
  refine guard_ite (fun _ => ns_join env) (fun _ => ?_)
  refine guard_ite (fun _ => ns_lang) (fun _ => ?_)
  refine guard_ite (fun h => absurd (.inr (.inl h)) hd) (fun _ => ?_)
  refine guard_ite (fun _ => ns_moveto env) (fun _ => ?_)
  refine guard_ite (fun _ => ns_neutral) (fun _ => ?_)
  refine guard_ite (fun h => absurd (.inr (.inr (.inr (.inl h)))) hd) (fun _ => ?_)
  refine guard_ite (fun _ => ns_rand env) (fun _ => ?_)
  refine guard_ite (fun _ => ns_redirect) (fun _ => ?_)
  refine guard_ite (fun _ => ns_replace) (fun _ => ?_)
  refine guard_ite (fun _ => ns_cmp _) (fun _ => ?_)
  refine guard_ite (fun h => absurd (.inr (.inr (.inr (.inr (.inl h))))) hd) (fun _ => ?_)
  refine guard_ite (fun h => absurd (.inr (.inr (.inr (.inr (.inr (.inl h)))))) hd) (fun _ => ?_)
  refine guard_ite (fun _ => ns_sum env) (fun _ => ?_)
  refine guard_ite (fun _ => ns_trans env) (fun _ => ?_)
  refine guard_ite (fun _ => ns_obj env) (fun _ => ?_)
  refine guard_ite (fun _ => ns_debug env) (fun _ => ?_)
  exact ns_unknown

theorem ns_step_scope {R : Rec} (hR : RecScope R) {name : Str} (hd : ¬ Defining name) {o : Op} (he : Effects name o)
    (hn : NoScope o) {s s1 : St} {r : o.Resp} {b : Nat} (hb : AtLevel s.inh b) (h : step R o s = .ok r s1) :
    s1.inh.indir = s.inh.indir ∧ s1.inh.blockCount = s.inh.blockCount ∧ ∀ j, j ≤ b → SameBlock s.sh s1.sh j := by
  unfold Defining at hd
  cases o with
  | createBlockSchema => exact absurd (by rcases he with h | h | h | h | h | h <;> simp [h]) hd
  | setIndir sec key v => exact absurd (by rcases he with h | h | ⟨h | h, _⟩ <;> simp [h]) hd
  | mergeIndir sec v => exact absurd (by rcases he with h | h <;> simp [h]) hd
  | child src scope =>
    simp only [step] at h
    obtain ⟨_, _, _, h4⟩ := runChild_scope (fun sh inh b hb => parseSrc_scope hR hb) hb h
    obtain ⟨h5, h6⟩ := h4 hn
    exact ⟨by rw [h5], by rw [h5], h6⟩
  | childBlocks src bs scope =>
    simp only [step] at h
    obtain ⟨_, _, _, h4⟩ := runChild_scope (fun sh inh b hb => hR sh inh src bs s.only b hb) hb h
    obtain ⟨h5, h6⟩ := h4 hn
    exact ⟨by rw [h5], by rw [h5], h6⟩
  | setData name v => obtain ⟨x, _, rfl⟩ := oresOpt_map h; exact ⟨rfl, rfl, fun j _ => .of_eq rfl⟩
  | setMoveto name v => obtain ⟨x, _, rfl⟩ := oresOpt_map h; exact ⟨rfl, rfl, fun j _ => .of_eq rfl⟩
  | pushFile kd p =>
    cases kd <;> (simp only [step, ORes.ok.injEq] at h; obtain ⟨_, rfl⟩ := h; exact ⟨rfl, rfl, fun j _ => .of_eq rfl⟩)
  | _ => simp only [step, ORes.ok.injEq] at h; obtain ⟨_, rfl⟩ := h; exact ⟨rfl, rfl, fun j _ => .of_eq rfl⟩

theorem ns_run {R : Rec} (hR : RecScope R) {name : Str} (hd : ¬ Defining name) {α : Type} (p : Prog α) :
    ∀ (s : St) (b : Nat), GuardIn Unscoped NoScope p → OpsIn (Effects name) p → Unscoped s → AtLevel s.inh b →
      (run R p s).Post (fun s' => s'.inh.indir = s.inh.indir ∧ ∀ j, j ≤ b → SameBlock s.sh s'.sh j) := by
  induction p with
  | pure a => intro s b _ _ _ _; exact ⟨rfl, fun j _ => .refl _ _⟩
  | throw e => intro s b _ _ _ _; exact ⟨rfl, fun j _ => .refl _ _⟩
  | panic p => intros; trivial
  | op o k ih =>
    intro s b hg he hu hb
    simp only [run]
    cases hst : step R o s with
    | panic p => trivial
    | oof => trivial
    | ok r s1 =>
      obtain ⟨h1, h2, h3⟩ := ns_step_scope hR hd he.1 hg.1 hb hst
      have hgr : GoodResp Unscoped o r := by
        cases o with
        | get => simp only [step, ORes.ok.injEq] at hst; rw [← hst.1]; exact hu
        | _ => trivial
      have hu1 : Unscoped s1 := (step_sameBif R name o s r s1 he.1 hst).modScope.trans hu
      have := ih r s1 b (hg.2 r hgr) (he.2 r) hu1 ⟨h2.trans hb.count, by rw [h1]; exact hb.block⟩
      dsimp only
      revert this
      cases run R (k r) s1 with
      | ok a s2 => exact fun h => ⟨h.1.trans h1, fun j hj => (h3 j hj).trans (h.2 j hj)⟩
      | err e s2 => exact fun h => ⟨h.1.trans h1, fun j hj => (h3 j hj).trans (h.2 j hj)⟩
      | panic p => exact fun _ => trivial
      | oof => exact fun _ => trivial

theorem SameBlock_visible {sh sh' : Shared} {inh inh' : Inherit} {b : Nat} (hb : AtLevel inh b) (hi : inh'.indir = inh.indir)
    (h : ∀ j, j ≤ b → SameBlock sh sh' j) (key : Str) (hk : Section key) : visible sh' inh' key = visible sh inh key := by
  obtain ⟨j, _, hj, he⟩ := hb.block
  unfold visible
  rw [hi, he]
  exact h j hj key hk

/-- **C24.** A BIF without the modifier `+`, other than `include` and the BIFs that define something, leaves the
parameters, declarations, locale and local data that the enclosing block sees exactly as they were - whatever is defined
inside it, at any depth, and whether it succeeds or fails. -/
theorem C24 (env : Env) (n : Nat) (sh sh' : Shared) (inh inh' : Inherit) (mods name src only x : Str) (b : Nat)
    (hm : Mods mods) (hn : Named name) (hplus : '+' ∉ mods) (hd : ¬ Defining name) (hb : AtLevel inh b)
    (h : runBif env (runBlocks env n) sh inh (bifText mods name src) only = .ok x sh' inh') :
    AtLevel inh' b ∧ ∀ key, Section key → visible sh' inh' key = visible sh inh key := by
  have hst : AtLevel inh' b := by
    have := runBif_stays (scope_books sh b) env (scope_bodies env (runBlocks_scope env n) sh b) sh inh (bifText mods name src)
      only ⟨hb, fun j _ => .refl _ _⟩
    rw [h] at this
    exact this.1
  refine ⟨hst, ?_⟩
  suffices hs : inh'.indir = inh.indir ∧ ∀ j, j ≤ b → SameBlock sh sh' j from
    fun key hk => SameBlock_visible hb hs.1 hs.2 key hk
  unfold runBif at h
  split at h
  · simp at h
  · unfold bifParse at h
    rw [bifSplit_text mods name src hm hn] at h
    dsimp only at h
    split at h
    · simp only [PRes.ok.injEq] at h
      obtain ⟨_, rfl, rfl⟩ := h
      exact ⟨rfl, fun j _ => .of_eq rfl⟩
    · rw [setModifiers_mods mods hm name hn] at h
      dsimp only at h
      generalize hs0 : St.mk { sh with count := sh.count + 1 } _ _ _ _ = s0 at h
      have hu : Unscoped s0 := by
        rw [← hs0]
        simp [Unscoped, BifS.new, hplus]
      have hb0 : AtLevel s0.inh b := by
        rw [← hs0]
        exact ⟨hb.count, hb.block⟩
      have hr := ns_run (runBlocks_scope env n) hd (bifBody env name) s0 b (ns_body env name hd) (effects env name) hu hb0
      have e1 : s0.inh.indir = inh.indir := by rw [← hs0]
      have e2 : s0.sh.indir = sh.indir := by rw [← hs0]
      revert h hr
      cases run (runBlocks env n) (bifBody env name) s0 with
      | ok a s =>
        intro h hr
        simp only [bifResult, bifFinish, PRes.ok.injEq] at h
        obtain ⟨_, rfl, rfl⟩ := h
        exact ⟨hr.1.trans e1, fun j hj => (Spec.SameBlock.of_eq e2).trans (hr.2 j hj)⟩
      | err e s =>
        intro h hr
        simp only [bifResult] at h
        split at h
        · simp at h
        · simp only [bifFinish, PRes.ok.injEq] at h
          obtain ⟨_, rfl, rfl⟩ := h
          exact ⟨hr.1.trans e1, fun j hj => (Spec.SameBlock.of_eq e2).trans ((hr.2 j hj).trans (.of_eq rfl))⟩
      | panic p => intro h; simp [bifResult] at h
      | oof => intro h; simp [bifResult] at h

/-! ### the hypothesis holds whenever a BIF is evaluated -/

/-- `Meets env n src only bs sh inh m raw sh1 inh1`: while the blocks `bs` of `src` are evaluated, the BIF `raw` - one of them,
or one in a block nested in them, at any depth - is evaluated in the state `sh1`, `inh1`. -/
inductive Spec.Meets (env : Env) : Nat → Str → Str → List (Nat × Nat) → Shared → Inherit →
    Nat → Str → Shared → Inherit → Prop
  | here {n : Nat} {src only : Str} {b e : Nat} {bs : List (Nat × Nat)} {sh : Shared} {inh : Inherit} :
      sh.exit = false →
      (startsWith c!"{:*" (slice src b e) || (inh.lastCoalesceOut && inh.alias = c!"coalesce")) = false →
      Meets env n src only ((b, e) :: bs) sh inh n (slice src b e) sh inh
  | skip {n m : Nat} {src only raw : Str} {b e : Nat} {bs : List (Nat × Nat)} {sh sh1 : Shared} {inh inh1 : Inherit} :
      Meets env n src only bs sh inh m raw sh1 inh1 → Meets env n src only ((b, e) :: bs) sh inh m raw sh1 inh1
  | later {n m : Nat} {src only raw x : Str} {b e : Nat} {bs : List (Nat × Nat)} {sh sh' sh1 : Shared}
      {inh inh' inh1 : Inherit} :
      runBif env (runBlocks env n) sh inh (slice src b e) only = .ok x sh' inh' →
      Meets env n src only bs sh' inh' m raw sh1 inh1 → Meets env n src only ((b, e) :: bs) sh inh m raw sh1 inh1
  | nested {n m : Nat} {src only name raw : Str} {b e : Nat} {bs : List (Nat × Nat)} {sh sh1 : Shared} {inh inh1 : Inherit}
      {s s1 : St} {o : Op} {k : o.Resp → Prog Unit} {csrc : Str} {cbs : List (Nat × Nat)} :
      Started sh inh (slice src b e) only name s →
      Moment (runBlocks env (n + 1)) (bifBody env name) s (.op o k) s1 →
      childOf o = some (csrc, cbs) →
      Meets env n csrc only cbs (childStart s1 o) (childInherit s1) m raw sh1 inh1 →
      Meets env (n + 1) src only ((b, e) :: bs) sh inh m raw sh1 inh1

theorem step_atLevel {R : Rec} {o : Op} {s s' : St} {r : o.Resp} {b : Nat} (hb : AtLevel s.inh b)
    (h : step R o s = .ok r s') : AtLevel s'.inh b := by
  have child : ∀ (scope : Bool), s'.inh = (if scope then (createBlockSchema s.sh s.inh).2 else s.inh) → AtLevel s'.inh b := by
    intro scope he
    rw [he]
    cases scope
    · exact hb
    · exact create_atLevel hb s.sh
  cases o with
  | createBlockSchema =>
    simp only [step, ORes.ok.injEq] at h; obtain ⟨_, rfl⟩ := h; exact create_atLevel hb s.sh
  | child src scope => exact child scope (step_child_ok h).2.2.2
  | childBlocks src bs scope => simp only [step] at h; exact child scope (runChild_ok h).2.2.2
  | setData name v => obtain ⟨x, _, rfl⟩ := oresOpt_map h; exact hb
  | setMoveto name v => obtain ⟨x, _, rfl⟩ := oresOpt_map h; exact hb
  | setIndir sec key v => obtain ⟨x, _, rfl⟩ := oresOpt_map h; exact hb
  | mergeIndir sec v => obtain ⟨x, _, rfl⟩ := oresOpt_map h; exact hb
  | pushFile kd p =>
    cases kd <;> (simp only [step, ORes.ok.injEq] at h; obtain ⟨_, rfl⟩ := h; exact ⟨hb.count, hb.block⟩)
  | _ => simp only [step, ORes.ok.injEq] at h; obtain ⟨_, rfl⟩ := h; exact ⟨hb.count, hb.block⟩

theorem moment_atLevel {R : Rec} {α : Type} {p p' : Prog α} {s s' : St} {b : Nat} (hm : Moment R p s p' s')
    (hb : AtLevel s.inh b) : AtLevel s'.inh b := by
  induction hm with
  | now => exact hb
  | step h _ ih => exact ih (step_atLevel hb h)

/-- Whenever a BIF is evaluated, its block sees its own definitions or those of a block that encloses it. -/
theorem C24_met {env : Env} {n m : Nat} {src only raw : Str} {bs : List (Nat × Nat)} {sh sh1 : Shared} {inh inh1 : Inherit}
    (h : Meets env n src only bs sh inh m raw sh1 inh1) : ∀ b, AtLevel inh b → ∃ b', b ≤ b' ∧ AtLevel inh1 b' := by
  induction h with
  | here _ _ => exact fun b hb => ⟨b, Nat.le_refl _, hb⟩
  | skip _ ih => exact ih
  | @later n m src only raw x b0 e bs sh sh' sh1 inh inh' inh1 hr _ ih =>
    intro b hb
    have := runBif_stays (scope_books sh b) env (scope_bodies env (runBlocks_scope env n) sh b) sh inh (slice src b0 e)
      only ⟨hb, fun j _ => .refl _ _⟩
    rw [hr] at this
    exact ih b this.1
  | @nested n m src only name raw b0 e bs sh sh1 inh inh1 s s1 o k csrc cbs hst hm _ _ ih =>
    intro b hb
    have hs : AtLevel s.inh b := by
      cases hst
      exact ⟨hb.count, hb.block⟩
    obtain ⟨b', h1, h2⟩ := ih (b + 1) (childInherit_level (moment_atLevel hm hs))
    exact ⟨b', by omega, h2⟩

/-- ... in particular in both passes of a render. -/
theorem C24_start {env : Env} {filePath raw raw' : Str} {sh sh1 : Shared} {inh : Inherit}
    (h : initShared env filePath raw sh = .ok (raw', sh1, inh)) : AtLevel { inh with blockCount := inh.blockCount + 1 } 1 := by
  unfold initShared at h
  split at h
  · simp at h
  dsimp only at h
  split at h
  · simp at h
  split at h
  · simp at h
  simp only [Except.ok.injEq, Prod.mk.injEq] at h
  obtain ⟨_, _, rfl⟩ := h
  exact ⟨rfl, 1, Nat.le_refl _, Nat.le_refl _, rfl⟩

/-! ### examples -/

/-- **C24 (passes).** The end of a pass over the template forgets nothing: the evaluation of the `{:!cache; ... :}` blocks
that follows starts with the parameters, declarations, locale and local data (and everything else) exactly as the last
BIF of the first pass left them. -/
theorem C24_passes {env : Env} {filePath raw raw' : Str} {sh0 sh1 : Shared} {inh : Inherit}
    (h : initShared env filePath raw sh0 = .ok (raw', sh1, inh)) (sh : Shared) (text only : Str) :
    pass env sh inh text only =
      parseSrc (runBlocks env (sh.max + 1)) sh { inh with blockCount := inh.blockCount + 1 } text only := by
  have hb := C24_start h
  unfold pass
  cases hp : parseSrc (runBlocks env (sh.max + 1)) sh { inh with blockCount := inh.blockCount + 1 } text only with
  | ok out sh' inh' =>
    have := (C24_block env _ _ _ _ _ _ _ _ 1 hb hp).1
    have hd : dropBlock sh' inh' = sh' := by
      unfold dropBlock
      rw [this.count]
      have h1 : blockId 1 = c!"block_1" := by decide
      simp [h1]
    simp only [hd]
  | panic p => rfl
  | oof => rfl

/-- A parameter of the first pass is seen by the second pass. -/
example : (Sample.outOf (Sample.go [] c!"{:+code; {:param; p >> v :} :}{:!cache; {:param; p :} :}")).map
    (·.1) = some c!"v" := by decide +kernel

/-- A parameter set in a nested block is not visible after it, and does not replace one that is set outside. -/
example : (Sample.outOf (Sample.go [] c!"{:code; {:code; {:param; p >> v :}{:param; p :} :}[{:param; p :}] :}")).map (·.1)
      = some c!"v[]" ∧
    (Sample.outOf (Sample.go [] c!"{:code; {:param; p >> w :}{:code; {:param; p >> v :}{:param; p :} :}[{:param; p :}] :}")).map
      (·.1) = some c!"v[w]" := by decide +kernel

/-- With the modifier `+`, it is visible: the hypothesis on the modifiers is needed. -/
theorem C24_scope_modifier :
    (Sample.outOf (Sample.go [] c!"{:code; {:+code; {:param; p >> v :}{:param; p :} :}[{:param; p :}] :}")).map (·.1)
      = some c!"v[v]" := by decide +kernel

/-- The hypotheses of `C24` are met by a BIF that sets a parameter inside. -/
example : Mods [] ∧ Named c!"code" ∧ '+' ∉ ([] : Str) ∧ ¬ Defining c!"code" ∧
    AtLevel { Inherit.new with blockCount := 1, indir := c!"block_1" } 1 := by
  refine ⟨by unfold Mods; decide, ⟨by decide, ?_⟩, by decide, by unfold Defining; decide, ⟨rfl, 1, Nat.le_refl _, Nat.le_refl _, rfl⟩⟩
  intro c r hc; injection hc with h1 h2; subst h1; decide

end Nts
