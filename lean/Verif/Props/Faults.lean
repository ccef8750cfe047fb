import Verif.Lemmas.Faults
import Verif.Props.Depends
import Verif.Props.Compose
import Verif.Props.Tune
import Verif.Props.Flags
import Verif.Props.Malformed
import Verif.Props.Debug
import Verif.Spec.Faults
/-
C124: a BIF that fails changes nothing but the list of errors.
-/
set_option autoImplicit false
namespace Nts
open Spec

/-! ### specification -/

/-- `EvaluatedIn env n only s sh inh raw sh1 inh1`: while the text `s` is evaluated from left to right (`Produces`), from the state `sh`, `inh`,
the BIF `raw` - one of the text, or one in a block nested in them, at any depth - is evaluated, in the state `sh1`, `inh1`. -/
inductive Spec.EvaluatedIn (env : Env) (n : Nat) (only : Str) : Str → Shared → Inherit → Str → Shared → Inherit → Prop
  | chr {s raw : Str} {sh sh1 : Shared} {inh inh1 : Inherit} (c : Char) : ¬ c!"{:" <+: c :: s →
      EvaluatedIn env n only s sh inh raw sh1 inh1 → EvaluatedIn env n only (c :: s) sh inh raw sh1 inh1
  | skip {b s raw : Str} {sh sh1 : Shared} {inh inh1 : Inherit} :
      IsComment b ∨ (IsBif b ∧ inh.alias = c!"coalesce" ∧ inh.lastCoalesceOut = true) →
      EvaluatedIn env n only s sh inh raw sh1 inh1 → EvaluatedIn env n only (b ++ s) sh inh raw sh1 inh1
  | here {b s : Str} {sh : Shared} {inh : Inherit} : sh.exit = false → IsBif b →
      ¬ (inh.alias = c!"coalesce" ∧ inh.lastCoalesceOut = true) → EvaluatedIn env n only (b ++ s) sh inh b sh inh
  | later {b s raw x : Str} {sh sh' sh1 : Shared} {inh inh' inh1 : Inherit} : sh.exit = false → IsBif b →
      ¬ (inh.alias = c!"coalesce" ∧ inh.lastCoalesceOut = true) → runBif env (runBlocks env n) sh inh b only = .ok x sh' inh' →
      EvaluatedIn env n only s sh' inh' raw sh1 inh1 → EvaluatedIn env n only (b ++ s) sh inh raw sh1 inh1
  | nested {k m : Nat} {b s name raw csrc : Str} {sh sh1 : Shared} {inh inh1 : Inherit} {s0 s1 : St} {o : Op} {q : o.Resp → Prog Unit}
      {cbs : List (Nat × Nat)} : sh.exit = false → IsBif b → ¬ (inh.alias = c!"coalesce" ∧ inh.lastCoalesceOut = true) →
      n = k + 1 → Started sh inh b only name s0 →
      Moment (runBlocks env n) (bifBody env name) s0 (.op o q) s1 → childOf o = some (csrc, cbs) →
      Evaluates env k csrc only cbs (childStart s1 o) (childInherit s1) m raw sh1 inh1 → EvaluatedIn env n only (b ++ s) sh inh raw sh1 inh1

/-- The BIF `raw` reads the clock (`date`, `cache`), random numbers (`rand`, `hash`) or the whole schema (`obj`, `debug`). -/
def Spec.SeesErrors (raw : Str) (sh : Shared) (inh : Inherit) (only : Str) : Prop :=
  ∃ name s, Started sh inh raw only name s ∧ name ∈ [c!"date", c!"cache", c!"rand", c!"hash", c!"obj", c!"debug"]

/-- No BIF evaluated in the text `s` sees the errors, or the time they take to be written. -/
def Spec.Unaware (env : Env) (n : Nat) (only s : Str) (sh : Shared) (inh : Inherit) : Prop :=
  ∀ raw sh1 inh1, EvaluatedIn env n only s sh inh raw sh1 inh1 → ¬ SeesErrors raw sh1 inh1 only

end Nts

namespace Nts.Flt
open Nts.Spec

theorem insert_insert (k : Str) (v w : Value) : ∀ o : Obj, Obj.insert k v (Obj.insert k w o) = Obj.insert k v o
  | [] => by simp [Obj.insert]
  | (i, x) :: r => by
    by_cases hi : i = k
    · simp [Obj.insert, hi]
    · simp [Obj.insert, hi, insert_insert k v w r]

theorem withErrs_error (E : List Value) (line line' : Str) (v : Value) :
    withError line (withErrs E v) = withErrs (E ++ [.str line]) (withError line' v) := by
  cases v with
  | obj o =>
    simp only [withErrs, withError]
    cases hg : Obj.get? c!"__error" o with
    | none => simp only [errsIn, hg]
    | some c =>
      cases c with
      | arr a =>
        simp only [errsIn, hg, Obj.get?_insert_self, insert_insert]
      | _ => simp only [errsIn, hg]
  | _ => rfl

/-- One more error, in the state with other errors. -/
theorem tune_pushError (T : Faults) (sh : Shared) (line line' : Str) :
    pushError (T.on sh) line = ({ T with errs := T.errs ++ [.str line], has := true } : Faults).on (pushError sh line') := by
  show ({ T.on sh with schema := withError line (withErrs T.errs sh.schema), hasError := true } : Shared) = _
  rw [withErrs_error _ line line']
  rfl

theorem tune_showErrors (T : Faults) (sh : Shared) : showErrors (T.on sh) = showErrors sh := by
  unfold showErrors
  have : (T.on sh).schema.index c!"config" = sh.schema.index c!"config" := withErrs_index _ _ (by decide)
  rw [this]

theorem tune_create (T : Faults) (sh : Shared) (inh : Inherit) :
    createBlockSchema (T.on sh) inh = (T.on (createBlockSchema sh inh).1, (createBlockSchema sh inh).2) := by
  unfold createBlockSchema
  dsimp only
  have h : (T.on sh).indir = sh.indir := rfl
  rw [h]
  generalize (if inh.blockCount < 1 then c!"block_1" else blockId inh.blockCount) = bid
  refine Prod.ext ?_ rfl
  dsimp only
  by_cases hb : inh.indir ≠ bid
  · rw [if_pos hb, if_pos hb]
    cases sh.indir inh.indir <;> rfl
  · rw [if_neg hb, if_neg hb]

theorem tune_update (T : Faults) (sh : Shared) (a b : Str) : updateIndir (T.on sh) a b = T.on (updateIndir sh a b) := by
  unfold updateIndir
  have h : (T.on sh).indir = sh.indir := rfl
  rw [h]
  split <;> rfl

theorem tune_drop (T : Faults) (sh : Shared) (inh : Inherit) : dropBlock (T.on sh) inh = T.on (dropBlock sh inh) := by
  unfold dropBlock
  dsimp only
  split <;> rfl

theorem tune_modIndir (T : Faults) (sh : Shared) (k : Str) (f : Value → Option Value) :
    (T.on sh).modIndir k f = (sh.modIndir k f).map T.on := by
  unfold Shared.modIndir
  show (f ((sh.indir k).getD (.obj []))).map _ = _
  cases f ((sh.indir k).getD (.obj [])) <;> rfl

/-- The evaluations of children agree. -/
def ChildrenAgree (R : Rec) (s : St) (o : Op) : Prop :=
  ∀ csrc cbs, childOf o = some (csrc, cbs) → ∀ (T : Faults) out sh' inh',
    R (childStart s o) (childInherit s) csrc cbs s.only = .ok out sh' inh' →
    ∃ T' : Faults, R (T.on (childStart s o)) (childInherit s) csrc cbs s.only = .ok out (T'.on sh') inh'

theorem tune_runChild {T : Faults} {s s' : St} {scope : Bool} {f : Shared → Inherit → PRes} {r : Str}
    (hf : ∀ out sh' inh', f (if scope then createBlockSchema s.sh s.inh else (s.sh, s.inh)).1 (childInherit s) = .ok out sh' inh' →
      ∃ T' : Faults, f (T.on (if scope then createBlockSchema s.sh s.inh else (s.sh, s.inh)).1) (childInherit s) = .ok out (T'.on sh') inh')
    (h : runChild s scope f = .ok r s') : ∃ T' : Faults, runChild (T.st s) scope f = .ok r (T'.st s') := by
  unfold runChild at h ⊢
  dsimp only at h ⊢
  have e1 : childInherit (T.st s) = childInherit s := rfl
  have e2 : (if scope = true then createBlockSchema (T.st s).sh (T.st s).inh else ((T.st s).sh, (T.st s).inh)) =
      (T.on (if scope then createBlockSchema s.sh s.inh else (s.sh, s.inh)).1, (if scope then createBlockSchema s.sh s.inh else (s.sh, s.inh)).2) := by
    cases scope
    · rfl
    · exact tune_create T s.sh s.inh
  rw [e1, e2]
  generalize (if scope then createBlockSchema s.sh s.inh else (s.sh, s.inh)) = p at h hf ⊢
  cases hx : f p.1 (childInherit s) with
  | panic q => rw [hx] at h; cases h
  | oof => rw [hx] at h; cases h
  | ok out sh2 ci2 =>
    rw [hx] at h
    dsimp only at h ⊢
    obtain ⟨T', hT⟩ := hf _ _ _ hx
    refine ⟨T', ?_⟩
    rw [hT]
    dsimp only
    injection h with h1 h2
    subst h1 h2
    congr 1
    cases scope
    · simp only [Bool.false_eq_true, if_false, tune_drop]
      rfl
    · simp only [if_true, tune_update, tune_drop]
      rfl

theorem tune_handle (T : Faults) (sh : Shared) (p : Nat) : handleUnmatched (T.on sh) p = T.on (handleUnmatched sh p) := rfl

theorem tune_step {T : Faults} {R : Rec} {o : Op} {s s' : St} {r : o.Resp} (ho : o ≠ .get) (ho2 : o ≠ .tick) (hc : ChildrenAgree R s o)
    (h : step R o s = .ok r s') : ∃ T' : Faults, step R o (T.st s) = .ok r (T'.st s') := by
  cases o with
  | get => exact absurd rfl ho
  | tick => exact absurd rfl ho2
  | pushFile k p => cases k <;> · cases h; exact ⟨T, rfl⟩
  | setData name v =>
    simp only [step] at h ⊢
    have e : (T.st s).sh.schema = withErrs T.errs s.sh.schema := rfl
    rw [e, withErrs_modIndex _ _ (by decide)]
    cases hm : s.sh.schema.modIndex c!"data" (fun d => d.setIndex name v) with
    | none => rw [hm] at h; cases h
    | some x => rw [hm] at h; cases h; exact ⟨T, rfl⟩
  | setMoveto name v =>
    simp only [step] at h ⊢
    have e : (T.st s).sh.schema = withErrs T.errs s.sh.schema := rfl
    rw [e, withErrs_modIndex _ _ (by decide)]
    cases hm : s.sh.schema.modIndex c!"__moveto" (fun d => d.setIndex name v) with
    | none => rw [hm] at h; cases h
    | some x => rw [hm] at h; cases h; exact ⟨T, rfl⟩
  | createBlockSchema =>
    simp only [step] at h ⊢
    have e : createBlockSchema (T.st s).sh (T.st s).inh = _ := tune_create T s.sh s.inh
    rw [e]
    cases h
    exact ⟨T, rfl⟩
  | setIndir sec key v =>
    simp only [step] at h ⊢
    have e := tune_modIndir T s.sh s.inh.indir (fun x => x.modIndex sec (fun y => y.setIndex key v))
    have e' : (T.st s).sh.modIndir (T.st s).inh.indir (fun x => x.modIndex sec (fun y => y.setIndex key v)) = _ := e
    rw [e']
    cases hm : s.sh.modIndir s.inh.indir (fun x => x.modIndex sec (fun y => y.setIndex key v)) with
    | none => rw [hm] at h; cases h
    | some x => rw [hm] at h; cases h; exact ⟨T, rfl⟩
  | mergeIndir sec v =>
    simp only [step] at h ⊢
    have e := tune_modIndir T s.sh s.inh.indir (fun x => x.modIndex sec (fun y => some (mergeSchemaOwned y v)))
    have e' : (T.st s).sh.modIndir (T.st s).inh.indir (fun x => x.modIndex sec (fun y => some (mergeSchemaOwned y v))) = _ := e
    rw [e']
    cases hm : s.sh.modIndir s.inh.indir (fun x => x.modIndex sec (fun y => some (mergeSchemaOwned y v))) with
    | none => rw [hm] at h; cases h
    | some x => rw [hm] at h; cases h; exact ⟨T, rfl⟩
  | child src scope =>
    have h' : runChild s scope (fun sh inh => parseSrc R sh inh src s.only) = .ok r s' := h
    refine tune_runChild (f := fun sh inh => parseSrc R sh inh src s.only) (fun out sh' inh' hx => ?_) h'
    unfold parseSrc at hx ⊢
    cases hb : extractBlocks src with
    | error p =>
      rw [hb] at hx
      cases hx
      exact ⟨T, rfl⟩
    | ok bs =>
      rw [hb] at hx
      dsimp only at hx ⊢
      have := hc src bs (by simp [childOf, hb]) T out sh' inh'
      cases scope <;> exact this hx
  | childBlocks src bs scope =>
    have h' : runChild s scope (fun sh inh => R sh inh src bs s.only) = .ok r s' := h
    refine tune_runChild (f := fun sh inh => R sh inh src bs s.only) (fun out sh' inh' hx => ?_) h'
    have := hc src bs rfl T out sh' inh'
    cases scope <;> exact this hx
  | _ => cases h; exact ⟨T, rfl⟩

theorem tune_run {R : Rec} {α : Type} (p : Prog α) : Deaf p → ∀ (T : Faults) (s : St),
    (∀ (o : Op) (k : o.Resp → Prog α) s1, Moment R p s (.op o k) s1 → s1.only = s.only → ChildrenAgree R s1 o) →
    (∀ a s', run R p s = .ok a s' → ∃ T' : Faults, run R p (T.st s) = .ok a (T'.st s')) ∧
    (∀ e s', run R p s = .err e s' → ∃ T' : Faults, run R p (T.st s) = .err e (T'.st s')) := by
  induction p with
  | pure a => intro _ T s _; exact ⟨fun a s' h => (by cases h; exact ⟨T, rfl⟩), fun e s' h => (by cases h)⟩
  | throw e => intro _ T s _; exact ⟨fun a s' h => (by cases h), fun e s' h => (by cases h; exact ⟨T, rfl⟩)⟩
  | panic q => intro _ T s _; exact ⟨fun a s' h => (by cases h), fun e s' h => (by cases h)⟩
  | op o k ih =>
    intro hd T s hc
    by_cases ho : o = .get
    · subst ho
      have := ih s (hd.2 s) T s (fun o' k' s1 hm hs => hc o' k' s1 (.step (R := R) (o := .get) rfl hm) hs)
      have e : run R (.op .get k) (T.st s) = run R (k s) (T.st s) := by
        show run R (k (T.st s)) (T.st s) = _
        rw [hd.1 T s]
      rw [e]
      exact this
    · have ho2 : o ≠ .tick := by rintro rfl; exact hd.elim
      simp only [run]
      cases hst : step R o s with
      | panic q => exact ⟨fun a s' h => (by simp at h), fun e s' h => (by simp at h)⟩
      | oof => exact ⟨fun a s' h => (by simp at h), fun e s' h => (by simp at h)⟩
      | ok r s1 =>
        obtain ⟨T1, h1⟩ := tune_step (T := T) ho ho2 (hc o k s (.now _ _) rfl) hst
        rw [h1]
        have hon := step_only hst
        exact ih r ((deaf_op ho ho2).1 hd r) T1 s1 (fun o' k' s2 hm hs => hc o' k' s2 (.step hst hm) (hs.trans hon))

theorem tune_runBif {T : Faults} {env : Env} {R : Rec} {sh sh' : Shared} {inh inh' : Inherit} {raw only x : Str}
    (hn : ∀ name s, Started sh inh raw only name s → ¬ Sees name)
    (hR : ∀ name s, Started sh inh raw only name s → ∀ (o : Op) (k : o.Resp → Prog Unit) (s1 : St),
      Moment R (bifBody env name) s (.op o k) s1 → s1.only = only → ChildrenAgree R s1 o)
    (h : runBif env R sh inh raw only = .ok x sh' inh') : ∃ T' : Faults, runBif env R (T.on sh) inh raw only = .ok x (T'.on sh') inh' := by
  unfold runBif at h ⊢
  have hmax : (T.on sh).max = sh.max := rfl
  have hcount : (T.on sh).count = sh.count := rfl
  by_cases hb : sh.count + 1 > sh.max
  · rw [if_pos hb] at h; cases h
  · rw [if_neg hb] at h
    rw [if_neg (by rw [hmax, hcount]; omega), hcount]
    unfold bifParse at h ⊢
    cases hsp : bifSplit raw with
    | none =>
      rw [hsp] at h
      dsimp only at h ⊢
      by_cases ho : (!only.isEmpty) = true
      · rw [if_pos ho] at h ⊢
        cases h
        exact ⟨T, rfl⟩
      · rw [if_neg ho] at h ⊢
        have e2 : ({ T.on sh with count := sh.count + 1 } : Shared) = T.on { sh with count := sh.count + 1 } := rfl
        rw [e2, tune_showErrors]
        cases h1 : showErrors { sh with count := sh.count + 1 } with
        | none => rw [h1] at h; cases h
        | some b =>
          rw [h1] at h
          cases h
          dsimp only
          exact ⟨_, congrArg (fun z => PRes.ok _ z _) (tune_pushError T _ _ _)⟩
    | some q =>
      obtain ⟨full, src⟩ := q
      rw [hsp] at h
      dsimp only at h ⊢
      by_cases ho : (!only.isEmpty && !contains only full && !inh.inOnly) = true
      · rw [if_pos ho] at h ⊢
        cases h
        exact ⟨T, rfl⟩
      · rw [if_neg ho] at h ⊢
        cases hm : setModifiers { BifS.new with src := src } full with
        | none => rw [hm] at h; cases h
        | some r =>
          obtain ⟨b, name⟩ := r
          rw [hm] at h
          dsimp only at h ⊢
          have hsel : only = [] ∨ contains only full = true ∨ inh.inOnly = true := by
            cases only with
            | nil => exact .inl rfl
            | cons a r =>
              right
              cases h1 : contains (a :: r) full with
              | true => exact .inl rfl
              | false =>
                right
                cases h2 : inh.inOnly with
                | true => rfl
                | false => rw [h1, h2] at ho; exact absurd rfl ho
          have hst : Started sh inh raw only name _ := .mk (by omega) hsp hsel hm
          obtain ⟨hok, herr⟩ := tune_run (R := R) (bifBody env name) (deaf_body env name (hn _ _ hst)) T
            { sh := { sh with count := sh.count + 1 }, inh := { { inh with bifCount := sh.count + 1 } with inOnly := true },
              b := { b with name := name, alias := name }, raw := raw, only := only }
            (fun o k s1 hmo hs => hR _ _ hst o k s1 hmo hs)
          have e0 : (T.st
            { sh := { sh with count := sh.count + 1 }, inh := { { inh with bifCount := sh.count + 1 } with inOnly := true },
              b := { b with name := name, alias := name }, raw := raw, only := only } : St) =
            { sh := { T.on sh with count := sh.count + 1 }, inh := { { inh with bifCount := sh.count + 1 } with inOnly := true },
              b := { b with name := name, alias := name }, raw := raw, only := only } := rfl
          rw [e0] at hok herr
          revert h
          cases hx : run R (bifBody env name)
            { sh := { sh with count := sh.count + 1 }, inh := { { inh with bifCount := sh.count + 1 } with inOnly := true },
              b := { b with name := name, alias := name }, raw := raw, only := only } with
          | panic q => intro h; cases h
          | oof => intro h; cases h
          | ok a s1 =>
            intro h
            obtain ⟨T1, h1⟩ := hok _ _ hx
            rw [h1]
            cases h
            exact ⟨T1, rfl⟩
          | err er s1 =>
            intro h
            obtain ⟨T1, h1⟩ := herr _ _ hx
            rw [h1]
            simp only [bifResult] at h ⊢
            have e3 : (T1.st s1).sh = T1.on s1.sh := rfl
            rw [e3, tune_showErrors]
            cases h2 : showErrors s1.sh with
            | none => rw [h2] at h; cases h
            | some c =>
              rw [h2] at h
              dsimp only at h ⊢
              cases h
              unfold bifFinish
              dsimp only
              have e4 : ({ T1.on s1.sh with w := { (T1.on s1.sh).w with tick := (T1.on s1.sh).w.tick + 1 } } : Shared) =
                ({ T1 with tick := T1.tick + 1 } : Faults).on { s1.sh with w := { s1.sh.w with tick := s1.sh.w.tick + 1 } } := rfl
              rw [e4]
              exact ⟨_, congrArg (fun z => PRes.ok _ z _) (tune_pushError _ _ _ _)⟩

/-! ### blocks -/

/-- No BIF evaluated in the blocks, or nested in them, sees the difference. -/
def AllSpared (env : Env) (only : Str) (n : Nat) (src : Str) (bs : List (Nat × Nat)) (sh : Shared) (inh : Inherit) : Prop :=
  ∀ m raw sh1 inh1, Evaluates env n src only bs sh inh m raw sh1 inh1 → ∀ name s, Started sh1 inh1 raw only name s → ¬ Sees name

theorem tune_blocks {env : Env} {only : Str} {n : Nat}
    (hR : ∀ k, n = k + 1 → ∀ (T : Faults) sh inh src bs out sh' inh', AllSpared env only k src bs sh inh →
      runBlocks env n sh inh src bs only = .ok out sh' inh' → ∃ T' : Faults, runBlocks env n (T.on sh) inh src bs only = .ok out (T'.on sh') inh')
    (src : Str) (bs : List (Nat × Nat)) :
    ∀ (T : Faults) (prevEnd : Nat) (out : Str) (sh : Shared) (inh : Inherit) (x : Str) (sh' : Shared) (inh' : Inherit),
      AllSpared env only n src bs sh inh →
      blocksGo env (runBlocks env n) src only prevEnd out bs sh inh = .ok x sh' inh' →
      ∃ T' : Faults, blocksGo env (runBlocks env n) src only prevEnd out bs (T.on sh) inh = .ok x (T'.on sh') inh' := by
  induction bs with
  | nil => intro T _ _ _ _ _ _ _ _ h; cases h; exact ⟨T, rfl⟩
  | cons be bs ih =>
    intro T prevEnd out sh inh x sh' inh' hf h
    obtain ⟨b, e⟩ := be
    unfold blocksGo at h ⊢
    have hexit : (T.on sh).exit = sh.exit := rfl
    rw [hexit]
    cases hx : sh.exit with
    | true =>
      rw [hx] at h
      simp only [if_true] at h ⊢
      cases h
      exact ⟨T, rfl⟩
    | false =>
      rw [hx] at h
      simp only [Bool.false_eq_true, if_false] at h ⊢
      cases hk : (startsWith c!"{:*" (slice src b e) || (inh.lastCoalesceOut && inh.alias = c!"coalesce")) with
      | true =>
        rw [hk] at h
        simp only [if_true] at h ⊢
        exact ih _ _ _ _ _ _ _ _ (fun m raw sh1 inh1 hev => hf m raw sh1 inh1 (.skip hx hk hev)) h
      | false =>
        rw [hk] at h
        simp only [Bool.false_eq_true, if_false] at h ⊢
        cases hr : runBif env (runBlocks env n) sh inh (slice src b e) only with
        | panic q => rw [hr] at h; cases h
        | oof => rw [hr] at h; cases h
        | ok y sh2 inh2 =>
          rw [hr] at h
          dsimp only at h
          have : ∃ T' : Faults, runBif env (runBlocks env n) (T.on sh) inh (slice src b e) only = .ok y (T'.on sh2) inh2 := by
            refine tune_runBif (hf _ _ _ _ (.here hx hk)) ?_ hr
            intro name s hst o k s1 hm hs csrc cbs hc T1 out' sh3 inh3 hok
            rw [hs] at hok ⊢
            cases n with
            | zero => cases hok
            | succ n => exact hR n rfl _ _ _ _ _ _ _ _ (fun m raw sh1 inh1 hev => hf m raw sh1 inh1 (.nested hx hk hst hm hc hev)) hok
          obtain ⟨T1, h1⟩ := this
          rw [h1]
          exact ih _ _ _ _ _ _ _ _ (fun m raw sh1 inh1 hev => hf m raw sh1 inh1 (.later hx hk hr hev)) h

theorem tune_runBlocks {env : Env} {only : Str} : ∀ (n : Nat) (T : Faults) (sh : Shared) (inh : Inherit) (src : Str)
    (bs : List (Nat × Nat)) (out : Str) (sh' : Shared) (inh' : Inherit), AllSpared env only n src bs sh inh →
    runBlocks env (n + 1) sh inh src bs only = .ok out sh' inh' →
    ∃ T' : Faults, runBlocks env (n + 1) (T.on sh) inh src bs only = .ok out (T'.on sh') inh' := by
  intro n
  induction n with
  | zero =>
    intro T sh inh src bs out sh' inh' hf h
    exact tune_blocks (n := 0) (fun k hk => by omega) src bs T 0 [] sh inh out sh' inh' hf h
  | succ n ih =>
    intro T sh inh src bs out sh' inh' hf h
    refine tune_blocks (n := n + 1) (fun k hk T1 sh1 inh1 src1 bs1 out1 sh2 inh2 hf' h' => ?_) src bs T 0 [] sh inh out sh' inh' hf h
    have : k = n := by omega
    subst this
    exact ih T1 sh1 inh1 src1 bs1 out1 sh2 inh2 hf' h'

theorem butErrors (T : Faults) (sh : Shared) : ButErrors sh (T.on sh) :=
  ⟨rfl, fun _ hk => withErrs_get? _ _ hk⟩

theorem not_sees {raw only name : Str} {sh : Shared} {inh : Inherit} {s : St} (h : ¬ SeesErrors raw sh inh only)
    (hst : Started sh inh raw only name s) : ¬ Sees name := by
  intro hs
  refine h ⟨name, s, hst, ?_⟩
  unfold Sees at hs
  simp only [List.mem_cons, List.not_mem_nil, or_false]
  rcases hs with h | h | h | h | h | h <;> simp [h]

theorem tune_produces {env : Env} {only b y : Str} {n : Nat} {sh sh' : Shared} {inh inh' : Inherit} {e : Bool}
    (h : Produces env (runBlocks env n) only b sh inh e y sh' inh') : ∀ T : Faults, Unaware env n only b sh inh →
    ∃ T' : Faults, Produces env (runBlocks env n) only b (T.on sh) inh e y (T'.on sh') inh' := by
  induction h with
  | nil => exact fun T _ => ⟨T, .nil _ _⟩
  | stop h1 h2 => exact fun T _ => ⟨T, .stop h1 h2⟩
  | chr c h1 h2 _ ih =>
    intro T hu
    obtain ⟨T', hT⟩ := ih T (fun raw sh1 inh1 hr => hu _ _ _ (.chr c h1 hr))
    exact ⟨T', .chr c h1 h2 hT⟩
  | comment h1 h2 _ ih =>
    intro T hu
    obtain ⟨T', hT⟩ := ih T (fun raw sh1 inh1 hr => hu _ _ _ (.skip (.inl h2) hr))
    exact ⟨T', .comment h1 h2 hT⟩
  | skipped h1 h2 h3 h4 _ ih =>
    intro T hu
    obtain ⟨T', hT⟩ := ih T (fun raw sh1 inh1 hr => hu _ _ _ (.skip (.inr ⟨h2, h3, h4⟩) hr))
    exact ⟨T', .skipped h1 h2 h3 h4 hT⟩
  | @evaluated b s x y sh sh1 sh' inh inh1 inh' e h1 h2 h3 h4 _ ih =>
    intro T hu
    have : ∃ T' : Faults, runBif env (runBlocks env n) (T.on sh) inh b only = .ok x (T'.on sh1) inh1 := by
      refine tune_runBif (fun name s0 hst => not_sees (hu _ _ _ (.here h1 h2 h3)) hst) ?_ h4
      intro name s0 hst o k s1 hm hs csrc cbs hc T1 out' sh3 inh3 hok
      rw [hs] at hok ⊢
      cases n with
      | zero => cases hok
      | succ n =>
        exact tune_runBlocks n T1 _ _ _ _ _ _ _ (fun m raw sh1 inh1 hev name' s' hst' => not_sees (hu _ _ _ (.nested h1 h2 h3 rfl hst hm hc hev)) hst') hok
    obtain ⟨T1, e1⟩ := this
    obtain ⟨T', hT⟩ := ih T1 (fun raw sh1 inh1 hr => hu _ _ _ (.later h1 h2 h3 h4 hr))
    exact ⟨T', .evaluated h1 h2 h3 e1 hT⟩

/-- A failure, as the same BIF without its error. -/
theorem failed_is {env : Env} {mods name raw msg x : Str} {sh sh2 : Shared} {inh inh2 : Inherit}
    (h : failed env mods name raw msg sh inh = .ok x sh2 inh2) :
    ∃ T : Faults, sh2 = T.on sh ∧ hidden mods sh inh = .ok x sh inh2 := by
  unfold failed at h
  cases hs : showErrors sh with
  | none => rw [hs] at h; cases h
  | some c =>
    rw [hs] at h
    dsimp only at h
    unfold finish at h
    unfold hidden finish
    injection h with h1 h2 h3
    subst h1 h2 h3
    generalize errorLine _ _ = line
    cases hv : sh.schema with
    | obj o =>
      cases hg : Obj.get? c!"__error" o with
      | none => exact ⟨⟨[], true, sh.w.tick + 1⟩, by simp [pushError, Faults.on, withErrs, errsIn, hv, hg], rfl⟩
      | some v =>
        cases v with
        | arr a => exact ⟨⟨a ++ [.str line], true, sh.w.tick + 1⟩, by simp [pushError, Faults.on, withErrs, errsIn, hv, hg], rfl⟩
        | _ => exact ⟨⟨[], true, sh.w.tick + 1⟩, by simp [pushError, Faults.on, withErrs, errsIn, hv, hg], rfl⟩
    | _ => exact ⟨⟨[], true, sh.w.tick + 1⟩, by simp [pushError, Faults.on, withErrs, hv], rfl⟩

theorem insert_same {k : Str} {v : Value} : ∀ {o : Obj}, Obj.get? k o = some v → Obj.insert k v o = o
  | [], h => by cases h
  | (i, x) :: r, h => by
    by_cases hi : i = k
    · subst hi
      have : x = v := by simpa [Obj.get?] using h
      simp [Obj.insert, this]
    · have : Obj.get? k r = some v := by simpa [Obj.get?, hi] using h
      simp [Obj.insert, hi, insert_same this]

theorem errsIn_errsIn (E E' : List Value) (o : Obj) : errsIn E (errsIn E' o) = errsIn E o := by
  cases hg : Obj.get? c!"__error" o with
  | none => simp [errsIn, hg]
  | some v =>
    cases v with
    | arr a => simp [errsIn, hg, Obj.get?_insert_self, insert_insert]
    | _ => simp [errsIn, hg]

theorem errsIn_same (o : Obj) : ∃ E, errsIn E o = o := by
  cases hg : Obj.get? c!"__error" o with
  | none => exact ⟨[], by simp [errsIn, hg]⟩
  | some v =>
    cases v with
    | arr a => exact ⟨a, by simp [errsIn, hg, insert_same hg]⟩
    | _ => exact ⟨[], by simp [errsIn, hg]⟩

/-- Back to the errors as they were. -/
theorem undo (T : Faults) (sh : Shared) : ∃ T0 : Faults, T0.on (T.on sh) = sh := by
  cases hv : sh.schema with
  | obj o =>
    obtain ⟨E, hE⟩ := errsIn_same o
    refine ⟨⟨E, sh.hasError, sh.w.tick⟩, ?_⟩
    have h1 : withErrs E (withErrs T.errs (.obj o)) = .obj o := by simp only [withErrs, errsIn_errsIn, hE]
    obtain ⟨⟩ := sh
    subst hv
    simp only [Faults.on, h1]
  | _ =>
    refine ⟨⟨[], sh.hasError, sh.w.tick⟩, ?_⟩
    obtain ⟨⟩ := sh
    subst hv
    simp only [Faults.on, withErrs]

end Nts.Flt

namespace Nts
open Spec

/-- **C124 (a text).** In a text `a`, the BIF `B`, `b` - a page, or a block nested in one - where `B` fails with an error, put another
BIF `B'` in the place of `B` that shows nothing, without an error, in the same state.  The text after it is evaluated in the same way: the
same text is printed and the same state is left, but for the error and the time it takes to write it - provided that no BIF evaluated after
it sees these. -/
theorem C124_text (env : Env) (n : Nat) (only a B B' b ya x y mods mods' name raw msg : Str) (sh sh1 sh2 shF sh' : Shared)
    (inh inh1 inh2 inhF inh' : Inherit) (e : Bool) (hB : IsBif B) (hB' : IsBif B')
    (ha : Produces env (runBlocks env n) only a sh inh true ya sh1 inh1) (hx : sh1.exit = false)
    (hc : ¬ (inh1.alias = c!"coalesce" ∧ inh1.lastCoalesceOut = true))
    (hrun : runBif env (runBlocks env n) sh1 inh1 B only = failed env mods name raw msg sh2 inh2)
    (hok : failed env mods name raw msg sh2 inh2 = .ok x shF inhF)
    (hrun' : runBif env (runBlocks env n) sh1 inh1 B' only = hidden mods' sh2 inh2) (hmods : '^' ∈ mods' ↔ '^' ∈ mods)
    (hb : Produces env (runBlocks env n) only b shF inhF e y sh' inh') (hun : Unaware env n only b shF inhF) :
    Produces env (runBlocks env n) only (a ++ (B ++ b)) sh inh e (ya ++ (x ++ y)) sh' inh' ∧
    ∃ sh'', ButErrors sh' sh'' ∧ Produces env (runBlocks env n) only (a ++ (B' ++ b)) sh inh e (ya ++ (x ++ y)) sh'' inh' := by
  obtain ⟨T, rfl, hh⟩ := Flt.failed_is hok
  obtain ⟨T0, h0⟩ := Flt.undo T sh2
  obtain ⟨T', hT⟩ := Flt.tune_produces hb T0 hun
  rw [h0] at hT
  have hb1 : ∀ {z : Str}, IsBif z → ∀ r, ¬ c!":" <+: z ++ r := by
    rintro z ⟨w, rfl, _⟩ r ⟨r', hr⟩
    have hr' : (':' :: r' : Str) = '{' :: (':' :: (w ++ c!":}" ++ r)) := by
      simpa using hr
    injection hr' with h1 _
    exact absurd h1 (by decide)
  have hhid : hidden mods' sh2 inh2 = .ok x sh2 inhF := by
    rw [← hh]
    unfold hidden
    rw [show decide ('^' ∈ mods') = decide ('^' ∈ mods) from decide_eq_decide.2 hmods]
  refine ⟨C68_append ha rfl hx (hb1 hB _) (.evaluated hx hB hc (hrun.trans hok) hb), T'.on sh', Flt.butErrors T' sh',
    C68_append ha rfl hx (hb1 hB' _) (.evaluated hx hB' hc (hrun'.trans hhid) hT)⟩

/-- The state a render starts from does not depend on the text. -/
theorem init_text {env : Env} {w : World} {t1 t2 : Tpl} {f r1 src2 : Str} {sh sh0 : Shared} {inh : Inherit} (hs : t2.schema = t1.schema)
    (hsrc : Source env w t2 src2) (hsh : Shared.new env w t1.schema = some sh) (hi : initShared env f t1.raw sh = .ok (r1, sh0, inh)) :
    initShared env f t2.raw sh = .ok (src2, sh0, inh) := by
  have h2 := hsrc sh (by rw [hs]; exact hsh)
  have hr : (if contains c!"remove" sh.comments then removeComments t2.raw else some t2.raw) = some src2 := by
    by_cases hcc : c!"remove" <:+: sh.comments
    · rw [if_pos hcc] at h2
      rw [(contains_iff (by decide)).2 hcc, if_pos rfl, C16_removes _ _ h2]
    · rw [if_neg hcc] at h2
      rw [(contains_false_iff (by decide)).2 hcc, if_neg (by decide), h2]
  unfold initShared at hi ⊢
  rw [hr]
  dsimp only at hi ⊢
  cases h1 : (if contains c!"remove" sh.comments then removeComments t1.raw else some t1.raw) with
  | none => rw [h1] at hi; cases hi
  | some z =>
    rw [h1] at hi
    dsimp only at hi
    generalize createBlockSchema sh Inherit.new = p at hi ⊢
    cases h3 : (p.1.schema.setIndex c!"__moveto" (.obj [])).bind (fun s => s.setIndex c!"__error" (.arr [])) with
    | none => rw [h3] at hi; cases hi
    | some v1 =>
      rw [h3] at hi
      dsimp only at hi ⊢
      cases h4 : filterContext v1 with
      | none => rw [h4] at hi; cases hi
      | some v2 =>
        rw [h4] at hi
        injection hi with hi
        injection hi with h5 h6
        injection h6 with h6 h7
        rw [← h6, ← h7]

theorem endsRender_butErrors {sh sh' : Shared} (h : ButErrors sh sh') (out : Str) : endsRender sh' out = endsRender sh out := by
  have e1 : applyMoveto sh'.schema out = applyMoveto sh.schema out := by
    unfold applyMoveto
    have : sh'.schema.index c!"__moveto" = sh.schema.index c!"__moveto" := by
      unfold Value.index
      rw [h.schema _ (by decide)]
    rw [this]
  have e2 : ∀ o, finalOut sh' o = finalOut sh o := by
    intro o
    rw [h.rest]
    rfl
  unfold endsRender
  rw [e1]
  simp only [e2]

/-- **C124 (a page).** Render a page in which a BIF `B` fails, and the page with a BIF that shows nothing in its place (as in `C124_text`):
the output, the status, the number of BIFs, the files and the data afterwards are the same.  Only the list of errors is different. -/
theorem C124_render (env : Env) (n : Nat) (w : World) (t1 t2 t1' : Tpl) (a B B' b r ya x y mods mods' name raw msg : Str)
    (sh0 sh sh1 sh2 shF sh' : Shared) (inh inh1 inh2 inhF inh' : Inherit) (e : Bool) (l1 l2 : List (Nat × Nat))
    (hschema : t2.schema = t1.schema) (hfile : t2.filePath = t1.filePath)
    (ho1 : c!"{:" <:+: t1.raw) (ho2 : c!"{:" <:+: t2.raw)
    (hs1 : Source env w t1 (a ++ (B ++ b))) (hs2 : Source env w t2 (a ++ (B' ++ b)))
    (hwf1 : WellFormed 0 (a ++ (B ++ b)) l1) (hwf2 : WellFormed 0 (a ++ (B' ++ b)) l2)
    (hnew : Shared.new env w t1.schema = some sh0) (hi : initShared env t1.filePath t1.raw sh0 = .ok (r, sh, inh))
    (hB : IsBif B) (hB' : IsBif B')
    (ha : Produces env (runBlocks env sh.max) [] a sh (inside [] inh) true ya sh1 inh1) (hx : sh1.exit = false)
    (hc : ¬ (inh1.alias = c!"coalesce" ∧ inh1.lastCoalesceOut = true))
    (hrun : runBif env (runBlocks env sh.max) sh1 inh1 B [] = failed env mods name raw msg sh2 inh2)
    (hok : failed env mods name raw msg sh2 inh2 = .ok x shF inhF)
    (hrun' : runBif env (runBlocks env sh.max) sh1 inh1 B' [] = hidden mods' sh2 inh2) (hmods : '^' ∈ mods' ↔ '^' ∈ mods)
    (hb : Produces env (runBlocks env sh.max) [] b shF inhF e y sh' inh') (hun : Unaware env sh.max [] b shF inhF)
    (hcache : ¬ c!"{:!cache;" <:+: ended e (ya ++ (x ++ y)))
    (h : t1.render env n w = .ok t1') :
    ∃ t2', t2.render env n w = .ok t2' ∧ t2'.out = t1'.out ∧ t2'.statusCode = t1'.statusCode ∧ t2'.statusText = t1'.statusText ∧
      t2'.statusParam = t1'.statusParam ∧ t2'.shared.count = t1'.shared.count ∧ t2'.shared.w.fs = t1'.shared.w.fs ∧
      t2'.shared.schema.get? c!"data" = t1'.shared.schema.get? c!"data" := by
  obtain ⟨p1, sh'', hbut, p2⟩ := C124_text env sh.max [] a B B' b ya x y mods mods' name raw msg sh sh1 sh2 shF sh' (inside [] inh)
    inh1 inh2 inhF inh' e hB hB' ha hx hc hrun hok hrun' hmods hb hun
  have hal := (initShared_ok hi).2.2.2
  have hin : ({ inh with blockCount := inh.blockCount + 1 } : Inherit) = inside [] inh := by
    unfold inside; rw [← hal]
  have hr := source_init hs1 hnew hi
  subst hr
  have hi2 := init_text hschema hs2 hnew hi
  have q1 := (C68_blocks env sh.max sh sh' _ inh' _ [] _ l1 hwf1).2 ⟨e, _, p1, rfl⟩
  have q2 := (C68_blocks env sh.max sh sh'' _ inh' _ [] _ l2 hwf2).2 ⟨e, _, p2, rfl⟩
  unfold Tpl.render at h ⊢
  simp only [(contains_iff (p := bifOpen) (by decide)).2 ho1, Bool.not_true, Bool.false_eq_true, if_false] at h
  simp only [(contains_iff (p := bifOpen) (by decide)).2 ho2, Bool.not_true, Bool.false_eq_true, if_false]
  rw [hschema, hnew]
  rw [hnew] at h
  unfold renderWith at h ⊢
  dsimp only at h ⊢
  rw [hfile, hi2]
  rw [hi] at h
  dsimp only at h ⊢
  rw [C24_passes hi2, hin, q2]
  rw [C24_passes hi, hin, q1] at h
  dsimp only at h ⊢
  rw [cacheLoop_done env inh n _ _ hcache] at h ⊢
  dsimp only at h ⊢
  rw [endsRender_butErrors hbut]
  cases he : endsRender sh' (ended e (ya ++ (x ++ y))) with
  | none => rw [he] at h; cases h
  | some out =>
    rw [he] at h
    cases h
    refine ⟨_, rfl, rfl, ?_, ?_, ?_, ?_, ?_, hbut.schema _ (by decide)⟩
    all_goals
      dsimp only [Tpl.statusCode, Tpl.statusText, Tpl.statusParam]
      rw [hbut.rest]

/-- `{:code;:}` is a BIF that shows nothing. -/
theorem C124_silent (env : Env) (R : Rec) (sh : Shared) (inh : Inherit) (only : Str) (hmax : sh.count < sh.max)
    (hsel : Selected inh [] c!"code" only) :
    runBif env R sh inh c!"{:code;:}" only = hidden [] (counted sh) (entered sh inh) := by
  have e0 : flagsOf (counted sh) ((none : Option Str).getD []) = [] := by unfold flagsOf; rw [if_neg (by decide)]
  have hp : Parts [] none [] := .code (.nil _)
  have h := C70_code env R sh (counted sh) (counted sh) inh (entered sh inh) (entered sh inh) [] [] only [] [] [] none (by unfold Mods; simp)
    (by simp) (by simp) hmax hsel hp
    (by
      show nested R false (if contains c!"{:" ([] : Str) then _ else _) _ _ _ _ = _
      rw [if_neg (by decide)]
      exact nested_plain (by decide))
    (by rw [e0]; unfold Flag; decide) (by rw [e0]; unfold FlagsIn; decide)
    (by rw [e0]; rw [if_neg (by unfold Flag; decide)]; exact nested_plain (by decide))
  rw [e0] at h
  exact h

/-- **C124 (a name that does not exist).** A BIF with an unknown name - `{:nosuch; anything :}` - leaves the text after it as if it were
`{:code;:}`, but for its error. -/
theorem C124_unknown (env : Env) (n : Nat) (only a b ya y name src : Str) (sh sh1 shF sh' : Shared)
    (inh inh1 inhF inh' : Inherit) (e : Bool) (x : Str)
    (hname : ∀ acc, (name, acc) ∉ accepts) (hn : Named name) (hB : IsBif (bifText [] name src))
    (ha : Produces env (runBlocks env n) only a sh inh true ya sh1 inh1) (hx : sh1.exit = false)
    (hc : ¬ (inh1.alias = c!"coalesce" ∧ inh1.lastCoalesceOut = true)) (hmax : sh1.count < sh1.max)
    (hsel : Selected inh1 [] name only) (hsel' : Selected inh1 [] c!"code" only)
    (hok : runBif env (runBlocks env n) sh1 inh1 (bifText [] name src) only = .ok x shF inhF)
    (hb : Produces env (runBlocks env n) only b shF inhF e y sh' inh') (hun : Unaware env n only b shF inhF) :
    Produces env (runBlocks env n) only (a ++ (bifText [] name src ++ b)) sh inh e (ya ++ (x ++ y)) sh' inh' ∧
    ∃ sh'', ButErrors sh' sh'' ∧ Produces env (runBlocks env n) only (a ++ (c!"{:code;:}" ++ b)) sh inh e (ya ++ (x ++ y)) sh'' inh' := by
  have h1 := C42_unknown env (runBlocks env n) sh1 inh1 [] name src only hname hn (by unfold Mods; simp) hmax hsel
  refine C124_text env n only a _ c!"{:code;:}" b ya x y [] [] _ _ _ sh sh1 _ shF sh' inh inh1 _ inhF inh' e hB ?_ ha hx hc h1
    (h1 ▸ hok) (C124_silent env _ sh1 inh1 only hmax hsel') Iff.rfl hb hun
  refine ⟨c!"code;", rfl, ?_, by decide⟩
  repeat' first
    | exact .nil _
    | refine .chr _ (by decide) (by decide) ?_

/-! ### cases -/

theorem reaches_open {env : Env} {n : Nat} {only s raw : Str} {sh sh1 : Shared} {inh inh1 : Inherit}
    (h : EvaluatedIn env n only s sh inh raw sh1 inh1) : c!"{:" <:+: s := by
  have hb : ∀ {b s : Str}, IsBif b → c!"{:" <:+: b ++ s := by
    rintro b s ⟨w, rfl, _⟩
    exact ⟨[], w ++ c!":}" ++ s, by simp⟩
  induction h with
  | chr c _ _ ih =>
    obtain ⟨p, q, hq⟩ := ih
    exact ⟨c :: p, q, by simp [← hq]⟩
  | @skip b _ _ _ _ _ _ _ _ ih =>
    obtain ⟨p, q, hq⟩ := ih
    exact ⟨b ++ p, q, by rw [← hq]; simp⟩
  | here _ h _ => exact hb h
  | later _ h _ _ _ _ => exact hb h
  | nested _ h _ _ _ _ _ _ => exact hb h

/-- After the failure there may be any text without BIFs ... -/
theorem unaware_plain (env : Env) (n : Nat) (only s : Str) (sh : Shared) (inh : Inherit) (h : ¬ c!"{:" <:+: s) : Unaware env n only s sh inh :=
  fun _ _ _ hr => absurd (reaches_open hr) h

/-- Plain text around an unknown BIF, in any state. -/
theorem Sample.unknown_between (env : Env) (n : Nat) (sh : Shared) (inh : Inherit) (hx : sh.exit = false) (hmax : sh.count < sh.max)
    (hs : (showErrors sh).isSome) :
    ∃ shF inhF, IsBif c!"{:nosuch; x :}" ∧ IsBif c!"{:code;:}" ∧
      Produces env (runBlocks env n) [] c!"a" sh inh true c!"a" sh inh ∧
      runBif env (runBlocks env n) sh inh c!"{:nosuch; x :}" [] =
        failed env [] c!"unknown" c!"{:nosuch; x :}" c!"unknown bif" (counted sh) (entered sh inh) ∧
      failed env [] c!"unknown" c!"{:nosuch; x :}" c!"unknown bif" (counted sh) (entered sh inh) = .ok [] shF inhF ∧
      runBif env (runBlocks env n) sh inh c!"{:code;:}" [] = hidden [] (counted sh) (entered sh inh) ∧
      Produces env (runBlocks env n) [] c!"b" shF inhF true c!"b" shF inhF ∧ Unaware env n [] c!"b" shF inhF := by
  obtain ⟨c, hs⟩ := Option.isSome_iff_exists.1 hs
  have hn : Named c!"nosuch" := ⟨by decide, fun c r h => by injection h with h _; subst h; decide⟩
  have h1 := C42_unknown env (runBlocks env n) sh inh [] c!"nosuch" c!" x " [] (by unfold accepts; simp) hn (by unfold Mods; simp) hmax (.inl rfl)
  have hs' : showErrors (counted sh) = some c := hs
  obtain ⟨shF, inhF, h2, hxF⟩ : ∃ shF inhF, failed env [] c!"unknown" c!"{:nosuch; x :}" c!"unknown bif" (counted sh) (entered sh inh) =
      .ok [] shF inhF ∧ shF.exit = false := by
    unfold failed
    rw [hs']
    refine ⟨_, _, rfl, ?_⟩
    exact hx
  have plain : ∀ (ch : Char), ch ≠ '{' → ∀ s : Shared, ∀ i : Inherit, s.exit = false → Produces env (runBlocks env n) [] [ch] s i true [ch] s i := by
    intro ch hch s i hx
    refine .chr ch ?_ (fun h => by rw [hx] at h; cases h.1) (.nil _ _)
    rintro ⟨r, hr⟩
    injection hr with h _
    exact hch h.symm
  refine ⟨shF, inhF, ⟨c!"nosuch; x ", rfl, ?_, by decide⟩, ⟨c!"code;", rfl, ?_, by decide⟩, plain 'a' (by decide) sh inh hx, h1, h2,
    C124_silent env _ sh inh [] hmax (.inl rfl), plain 'b' (by decide) _ _ hxF, unaware_plain _ _ _ _ _ _ (by decide)⟩
  all_goals
    repeat' first
      | exact .nil _
      | refine .chr _ (by decide) (by decide) ?_

/-- ... for instance a page `ab`, with an unknown BIF between the letters: whatever the state. -/
example (env : Env) (n : Nat) (sh : Shared) (inh : Inherit) (hx : sh.exit = false) (hmax : sh.count < sh.max)
    (hc : inh.alias ≠ c!"coalesce") (hs : (showErrors sh).isSome) :
    ∃ sh' sh'' inh', Produces env (runBlocks env n) [] c!"a{:nosuch; x :}b" sh inh true c!"ab" sh' inh' ∧ ButErrors sh' sh'' ∧
      Produces env (runBlocks env n) [] c!"a{:code;:}b" sh inh true c!"ab" sh'' inh' := by
  obtain ⟨shF, inhF, hB, hB', ha, h1, h2, h3, hb, hu⟩ := Sample.unknown_between env n sh inh hx hmax hs
  obtain ⟨p1, sh'', hbut, p2⟩ := C124_text env n [] c!"a" _ _ c!"b" c!"a" [] c!"b" [] [] _ _ _ sh sh _ shF shF inh inh _ inhF inhF true hB hB'
    ha hx (fun h => hc h.1) h1 h2 h3 Iff.rfl hb hu
  exact ⟨_, sh'', _, p1, hbut, p2⟩

/-- What the sample page is before it is evaluated. -/
def Sample.starts : Bool :=
  match Shared.new Sample.env Sample.world (Sample.schema 1000 [] Sample.inherit) with
  | none => false
  | some sh0 =>
    match initShared Sample.env [] c!"a{:nosuch; x :}b" sh0 with
    | .error _ => false
    | .ok (_, sh, inh) => !sh.exit && decide (sh.count < sh.max) && (showErrors sh).isSome

set_option maxRecDepth 10000 in
/-- The hypotheses of `C124_render` can be met: that page with the sample schema. -/
example (t1' : Tpl) (h : (Sample.tpl (Sample.schema 1000 [] Sample.inherit) c!"a{:nosuch; x :}b").render Sample.env 2 Sample.world = .ok t1') :
    ∃ t2', (Sample.tpl (Sample.schema 1000 [] Sample.inherit) c!"a{:code;:}b").render Sample.env 2 Sample.world = .ok t2' ∧ t2'.out = t1'.out := by
  have key : Sample.starts = true := by decide +kernel
  unfold Sample.starts at key
  cases hnew : Shared.new Sample.env Sample.world (Sample.schema 1000 [] Sample.inherit) with
  | none => rw [hnew] at key; cases key
  | some sh0 =>
    rw [hnew] at key
    dsimp only at key
    cases hi : initShared Sample.env [] c!"a{:nosuch; x :}b" sh0 with
    | error p => rw [hi] at key; cases key
    | ok r =>
      obtain ⟨r, sh, inh⟩ := r
      rw [hi] at key
      simp only [Bool.and_eq_true, Bool.not_eq_true', decide_eq_true_eq] at key
      obtain ⟨⟨k1, k2⟩, k3⟩ := key
      obtain ⟨shF, inhF, hB, hB', ha, h1, h2, h3, hb, hu⟩ := Sample.unknown_between Sample.env sh.max sh (inside [] inh) k1 k2 k3
      have str : ∀ raw : Str, ¬ c!"{:*" <:+: raw → Stripped raw raw := by
        intro raw
        induction raw with
        | nil => exact fun _ => .nil
        | cons c s ih =>
          intro hr
          exact .chr c (fun hp => hr hp.isInfix) (ih fun hp => hr (hp.trans (List.suffix_cons c s).isInfix))
      have src : ∀ raw, ¬ c!"{:*" <:+: raw → Source Sample.env Sample.world (Sample.tpl (Sample.schema 1000 [] Sample.inherit) raw) raw := by
        intro raw hr s hs
        by_cases hrem : c!"remove" <:+: s.comments
        · rw [if_pos hrem]
          exact str raw hr
        · rw [if_neg hrem]
          rfl
      have wf : ∀ {B : Str} {k : Nat}, B.length = k → IsBif B → WellFormed 0 (c!"a" ++ (B ++ c!"b")) [(1, 1 + k)] := by
        intro B k hk hB
        subst hk
        refine .chr 'a' ?_ ?_ (.block (.inl hB) (.chr 'b' (by decide) (by decide) (.nil _)))
        all_goals
          rintro ⟨r, hr⟩
          injection hr with h _
          revert h
          decide
      obtain ⟨t2', h4, h5, _⟩ := C124_render Sample.env 2 Sample.world (Sample.tpl (Sample.schema 1000 [] Sample.inherit) c!"a{:nosuch; x :}b")
        (Sample.tpl (Sample.schema 1000 [] Sample.inherit) c!"a{:code;:}b") t1' c!"a" _ _ c!"b" r c!"a" [] c!"b" [] [] _ _ _ sh0 sh sh _ shF shF inh _ _
        inhF inhF true _ _ rfl rfl ⟨c!"a", c!"nosuch; x :}b", rfl⟩ ⟨c!"a", c!"code;:}b", rfl⟩ (src _ (by decide)) (src _ (by decide)) (wf rfl hB) (wf rfl hB') hnew hi hB hB'
        ha k1 (fun h => absurd h.1 (by show ([] : Str) ≠ _; decide)) h1 h2 h3 Iff.rfl hb hu (by decide) h
      exact ⟨t2', h4, h5⟩

set_option maxRecDepth 10000 in
/-- A page with variables and `lang` after the failure ... -/
example :
    Sample.outOf (Sample.go [(c!"x", .str c!"X")] c!"a{:nosuch; q :}b{:;x:}{:lang;:}") = some (c!"abXen", c!"200") ∧
    Sample.outOf (Sample.go [(c!"x", .str c!"X")] c!"a{:code;:}b{:;x:}{:lang;:}") = some (c!"abXen", c!"200") := by
  decide +kernel

set_option maxRecDepth 10000 in
/-- ... while `debug`, which shows the schema, sees the error. -/
example :
    Sample.outOf (Sample.goDebug (some 990) [] c!"{:nosuch; q :}{:debug; __error/0 :}") ≠
    Sample.outOf (Sample.goDebug (some 990) [] c!"{:code;:}{:debug; __error/0 :}") := by
  decide +kernel

end Nts
