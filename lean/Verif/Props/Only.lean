import Verif.Lemmas.Only
import Verif.Props.Invariants
import Verif.Props.Where
/-
C119: code evaluated in the second pass, in an excluded part, is evaluated like anywhere else.
-/
set_option autoImplicit false
namespace Nts
open Spec

/-! ### errors are not forgotten -/

/-- Once there was an error, there was an error. -/
def ErrorStays (a b : Shared) : Prop := a.hasError = true → b.hasError = true

theorem errorStays_steps : StepsE (fun _ => True) ErrorStays where
  refl _ := id
  trans _ _ _ h1 h2 := fun h => h2 (h1 h)
  indir _ _ := id
  unmatched _ _ := id
  err _ _ _ := fun _ => rfl
  world _ _ := id
  flags _ _ := id
  status _ _ _ _ := id
  exit _ _ _ := id
  redirectJs _ _ := id
  alreadyJs _ := id
  data _ _ _ _ _ _ := id
  moveto _ _ _ _ _ _ := id

theorem errorStays_closed : Closed (fun _ => True) ErrorStays := (errorStays_steps).closed (fun _ _ => id)

theorem errorStays_rec (env : Env) (n : Nat) : RecRel ErrorStays (runBlocks env n) :=
  runBlocks_rel errorStays_closed env (fun _ => OpsIn_true _) n

theorem stays_false {a b : Shared} (h : ErrorStays a b) (hb : b.hasError = false) : a.hasError = false := by
  cases ha : a.hasError with
  | false => rfl
  | true => rw [h ha] at hb; cases hb

/-! ### the second pass stays in what it selected -/

theorem create_inOnly (sh : Shared) (inh : Inherit) : (createBlockSchema sh inh).2.inOnly = inh.inOnly := rfl

theorem step_inOnly {R : Rec} {o : Op} {s s' : St} {r : o.Resp} (h : step R o s = .ok r s') : s'.inh.inOnly = s.inh.inOnly := by
  have child : ∀ (scope : Bool) (f : Shared → Inherit → PRes) (x : Str), runChild s scope f = .ok x s' → s'.inh.inOnly = s.inh.inOnly := by
    intro scope f x h
    unfold runChild at h
    dsimp only at h
    split at h
    · simp only [ORes.ok.injEq] at h
      rw [← h.2]
      cases scope <;> rfl
    · simp at h
    · simp at h
  cases o with
  | child src scope => simp only [step] at h; exact child _ _ _ h
  | childBlocks src bs scope => simp only [step] at h; exact child _ _ _ h
  | pushFile k p => cases k <;> (simp only [step, ORes.ok.injEq] at h; rw [← h.2])
  | setData name v =>
    obtain ⟨sc, hsc, rfl⟩ := Option.map_eq_some_iff.1 (oresOpt_ok h)
    rfl
  | setMoveto name v =>
    obtain ⟨sc, hsc, rfl⟩ := Option.map_eq_some_iff.1 (oresOpt_ok h)
    rfl
  | setIndir sec key v =>
    obtain ⟨sc, hsc, rfl⟩ := Option.map_eq_some_iff.1 (oresOpt_ok h)
    rfl
  | mergeIndir sec v =>
    obtain ⟨sc, hsc, rfl⟩ := Option.map_eq_some_iff.1 (oresOpt_ok h)
    rfl
  | createBlockSchema =>
    simp only [step, ORes.ok.injEq] at h
    rw [← h.2]
    rfl
  | _ => simp only [step, ORes.ok.injEq] at h; rw [← h.2]

/-! ### the same evaluation -/

/-- Evaluations without errors are the same in the pass over the excluded parts. -/
def Carried (ol : Str) (R : Rec) : Prop :=
  ∀ sh inh src bs out sh' inh', inh.inOnly = true → R sh inh src bs [] = .ok out sh' inh' → sh'.hasError = false →
    R sh inh src bs ol = .ok out sh' inh'

theorem carried_child {ol : Str} {s s' : St} {scope : Bool} {f1 f2 : Shared → Inherit → PRes} {r : Str}
    (hf : ∀ sh out sh' inh', f1 sh (childInherit s) = .ok out sh' inh' → sh'.hasError = false → f2 sh (childInherit s) = .ok out sh' inh')
    (h : runChild s scope f1 = .ok r s') (he : s'.sh.hasError = false) : runChild (withOnly ol s) scope f2 = .ok r (withOnly ol s') := by
  unfold runChild at h ⊢
  dsimp only at h ⊢
  have e1 : childInherit (withOnly ol s) = childInherit s := rfl
  have e2 : (withOnly ol s).sh = s.sh := rfl
  have e3 : (withOnly ol s).inh = s.inh := rfl
  rw [e1, e2, e3]
  generalize (if scope then createBlockSchema s.sh s.inh else (s.sh, s.inh)) = p at h ⊢
  cases hx : f1 p.1 (childInherit s) with
  | panic q => rw [hx] at h; cases h
  | oof => rw [hx] at h; cases h
  | ok out sh2 ci2 =>
    rw [hx] at h
    dsimp only at h ⊢
    injection h with h1 h2
    subst h1 h2
    have : sh2.hasError = false := by
      obtain ⟨g1, hg1⟩ := updateIndir_sh sh2 ci2.indir p.2.indir
      obtain ⟨g2, hg2⟩ := dropBlock_sh (if scope then updateIndir sh2 ci2.indir p.2.indir else sh2) ci2
      simp only [hg2] at he
      cases scope
      · exact he
      · simp only [if_true, hg1] at he
        exact he
    rw [hf _ _ _ _ hx this]
    rfl

theorem carried_step {ol : Str} {R : Rec} (hR : Carried ol R) {o : Op} {s s' : St} {r : o.Resp} (ho : o ≠ .get) (hs : s.only = [])
    (hi : s.inh.inOnly = true) (h : step R o s = .ok r s') (he : s'.sh.hasError = false) :
    step R o (withOnly ol s) = .ok r (withOnly ol s') := by
  cases o with
  | get => exact absurd rfl ho
  | pushFile k p => cases k <;> · cases h; rfl
  | setData name v =>
    obtain ⟨sc, hsc, rfl⟩ := Option.map_eq_some_iff.1 (oresOpt_ok h)
    show oresOpt ((s.sh.schema.modIndex c!"data" (fun d => d.setIndex name v)).map _) = _
    rw [hsc]
    rfl
  | setMoveto name v =>
    obtain ⟨sc, hsc, rfl⟩ := Option.map_eq_some_iff.1 (oresOpt_ok h)
    show oresOpt ((s.sh.schema.modIndex c!"__moveto" (fun d => d.setIndex name v)).map _) = _
    rw [hsc]
    rfl
  | createBlockSchema => cases h; rfl
  | setIndir sec key v =>
    obtain ⟨sc, hsc, rfl⟩ := Option.map_eq_some_iff.1 (oresOpt_ok h)
    show oresOpt ((s.sh.modIndir s.inh.indir (fun x => x.modIndex sec (fun y => y.setIndex key v))).map _) = _
    rw [hsc]
    rfl
  | mergeIndir sec v =>
    obtain ⟨sc, hsc, rfl⟩ := Option.map_eq_some_iff.1 (oresOpt_ok h)
    show oresOpt ((s.sh.modIndir s.inh.indir (fun x => x.modIndex sec (fun y => some (mergeSchemaOwned y v)))).map _) = _
    rw [hsc]
    rfl
  | child src scope =>
    have h' : runChild s scope (fun sh inh => parseSrc R sh inh src s.only) = .ok r s' := h
    refine carried_child (f2 := fun sh inh => parseSrc R sh inh src ol) (fun sh out sh' inh' hx hx2 => ?_) h' he
    rw [hs] at hx
    unfold parseSrc at hx ⊢
    cases hb : extractBlocks src with
    | error p => rw [hb] at hx; exact hx
    | ok bs =>
      rw [hb] at hx
      exact hR _ _ _ _ _ _ _ hi hx hx2
  | childBlocks src bs scope =>
    have h' : runChild s scope (fun sh inh => R sh inh src bs s.only) = .ok r s' := h
    refine carried_child (f2 := fun sh inh => R sh inh src bs ol) (fun sh out sh' inh' hx hx2 => ?_) h' he
    rw [hs] at hx
    exact hR _ _ _ _ _ _ _ hi hx hx2
  | _ => cases h; rfl

theorem carried_run {ol : Str} {R : Rec} (hR : Carried ol R) (hE : RecRel ErrorStays R) {α : Type} (p : Prog α) : Heed ol p → ∀ (s : St),
    s.only = [] → s.inh.inOnly = true → ∀ a s', run R p s = .ok a s' → s'.sh.hasError = false →
    run R p (withOnly ol s) = .ok a (withOnly ol s') := by
  induction p with
  | pure a => intro _ s _ _ a s' h _; cases h; rfl
  | throw e => intro _ s _ _ a s' h _; cases h
  | panic q => intro _ s _ _ a s' h _; cases h
  | op o k ih =>
    intro hd s hs hi a s' h he
    by_cases ho : o = .get
    · subst ho
      have := ih s (hd.2 s) s hs hi a s' h he
      have e : run R (.op .get k) (withOnly ol s) = run R (k s) (withOnly ol s) := by
        show run R (k (withOnly ol s)) (withOnly ol s) = _
        rw [hd.1 s]
      rw [e]
      exact this
    · simp only [run] at h ⊢
      cases hst : step R o s with
      | panic q => rw [hst] at h; cases h
      | oof => rw [hst] at h; cases h
      | ok r s1 =>
        rw [hst] at h
        dsimp only at h
        have hmono := run_rel (errorStays_steps).toSteps hE (OpsIn_true (k r)) s1
        rw [h] at hmono
        rw [carried_step hR ho hs hi hst (stays_false hmono he)]
        exact ih r ((heed_op ho).1 hd r) s1 ((step_only hst).trans hs) ((step_inOnly hst).trans hi) a s' h he

theorem carried_selected {ol : Str} {env : Env} {R : Rec} (hR : Carried ol R) (hE : RecRel ErrorStays R) {sh sh' : Shared} {inh inh' : Inherit}
    {raw x : Str} (hi : ∀ full src, bifSplit raw = some (full, src) → (!contains ol full && !inh.inOnly) = false)
    (h : runBif env R sh inh raw [] = .ok x sh' inh') (he : sh'.hasError = false) :
    runBif env R sh inh raw ol = .ok x sh' inh' ∧ inh'.inOnly = true := by
  unfold runBif at h ⊢
  by_cases hb : sh.count + 1 > sh.max
  · rw [if_pos hb] at h; cases h
  · rw [if_neg hb] at h ⊢
    unfold bifParse at h ⊢
    cases hsp : bifSplit raw with
    | none =>
      exfalso
      rw [hsp] at h
      dsimp only at h
      rw [if_neg (by simp)] at h
      split at h
      · cases h
      · simp only [PRes.ok.injEq] at h
        rw [← h.2.1] at he
        simp [pushError] at he
    | some q =>
      obtain ⟨full, src⟩ := q
      rw [hsp] at h
      dsimp only at h ⊢
      rw [if_neg (by simp)] at h
      rw [if_neg (by
        have := hi full src hsp
        rw [Bool.and_assoc, this]
        simp)]
      cases hm : setModifiers { BifS.new with src := src } full with
      | none => rw [hm] at h; cases h
      | some r =>
        obtain ⟨b, name⟩ := r
        rw [hm] at h
        dsimp only at h ⊢
        have hrun := carried_run hR hE (bifBody env name) (heed_body env name)
          { sh := { sh with count := sh.count + 1 }, inh := { { inh with bifCount := sh.count + 1 } with inOnly := true }
            b := { b with name := name, alias := name }, raw := raw, only := [] } rfl rfl
        revert h
        have hpost : ∀ a s', run R (bifBody env name)
          { sh := { sh with count := sh.count + 1 }, inh := { { inh with bifCount := sh.count + 1 } with inOnly := true }
            b := { b with name := name, alias := name }, raw := raw, only := [] } = .ok a s' → s'.inh.inOnly = true := by
          intro a s' hr
          have := run_post R (P := fun _ => True) (Rel := fun s s' => s.inh.inOnly = true → s'.inh.inOnly = true) (fun _ => id)
            (fun _ _ _ h1 h2 h => h2 (h1 h)) (fun o s r s' _ h hi => (step_inOnly h).trans hi) (bifBody env name) (OpsIn_true _)
            { sh := { sh with count := sh.count + 1 }, inh := { { inh with bifCount := sh.count + 1 } with inOnly := true }
              b := { b with name := name, alias := name }, raw := raw, only := [] }
          rw [hr] at this
          exact this rfl
        cases hx : run R (bifBody env name)
          { sh := { sh with count := sh.count + 1 }, inh := { { inh with bifCount := sh.count + 1 } with inOnly := true }
            b := { b with name := name, alias := name }, raw := raw, only := [] } with
        | panic q => intro h; cases h
        | oof => intro h; cases h
        | ok a s1 =>
          intro h
          simp only [bifResult, bifFinish, PRes.ok.injEq] at h
          have h3 := hrun _ _ hx (by rw [h.2.1]; exact he)
          refine ⟨?_, by rw [← h.2.2]; exact hpost _ _ hx⟩
          have h3' : run R (bifBody env name)
            { sh := { sh with count := sh.count + 1 }, inh := { { inh with bifCount := sh.count + 1 } with inOnly := true }
              b := { b with name := name, alias := name }, raw := raw, only := ol } = Res.ok a (withOnly ol s1) := h3
          rw [h3']
          simp only [bifResult, bifFinish, PRes.ok.injEq]
          exact h
        | err er s1 =>
          intro h
          exfalso
          simp only [bifResult] at h
          split at h
          · cases h
          · simp only [bifFinish, PRes.ok.injEq] at h
            rw [← h.2.1] at he
            simp [pushError] at he

theorem carried_bif {ol : Str} {env : Env} {R : Rec} (hR : Carried ol R) (hE : RecRel ErrorStays R) {sh sh' : Shared} {inh inh' : Inherit}
    {raw x : Str} (hi : inh.inOnly = true) (h : runBif env R sh inh raw [] = .ok x sh' inh') (he : sh'.hasError = false) :
    runBif env R sh inh raw ol = .ok x sh' inh' ∧ inh'.inOnly = true :=
  carried_selected hR hE (fun _ _ _ => by simp [hi]) h he

theorem carried_blocks {ol : Str} {env : Env} {R : Rec} (hR : Carried ol R) (hE : RecRel ErrorStays R) (src : Str) (bs : List (Nat × Nat)) :
    ∀ (prevEnd : Nat) (out : Str) (sh : Shared) (inh : Inherit) (x : Str) (sh' : Shared) (inh' : Inherit), inh.inOnly = true →
      blocksGo env R src [] prevEnd out bs sh inh = .ok x sh' inh' → sh'.hasError = false →
      blocksGo env R src ol prevEnd out bs sh inh = .ok x sh' inh' := by
  induction bs with
  | nil => intro _ _ _ _ _ _ _ _ h _; exact h
  | cons be bs ih =>
    intro prevEnd out sh inh x sh' inh' hi h he
    obtain ⟨b, e⟩ := be
    unfold blocksGo at h ⊢
    cases hx : sh.exit with
    | true =>
      rw [hx] at h
      simp only [if_true] at h ⊢
      exact h
    | false =>
      rw [hx] at h
      simp only [Bool.false_eq_true, if_false] at h ⊢
      cases hk : (startsWith c!"{:*" (slice src b e) || (inh.lastCoalesceOut && inh.alias = c!"coalesce")) with
      | true =>
        rw [hk] at h
        simp only [if_true] at h ⊢
        exact ih _ _ _ _ _ _ _ hi h he
      | false =>
        rw [hk] at h
        simp only [Bool.false_eq_true, if_false] at h ⊢
        cases hr : runBif env R sh inh (slice src b e) [] with
        | panic q => rw [hr] at h; cases h
        | oof => rw [hr] at h; cases h
        | ok y sh2 inh2 =>
          rw [hr] at h
          dsimp only at h
          have hmono := blocksGo_rel errorStays_closed env hE (fun _ => OpsIn_true _) src [] bs e
            ((if prevEnd < b then out ++ slice src prevEnd b else out) ++ y) sh2 inh2
          rw [h] at hmono
          obtain ⟨h1, h2⟩ := carried_bif hR hE hi hr (stays_false hmono he)
          rw [h1]
          exact ih _ _ _ _ _ _ _ h2 h he

/-- Evaluations without errors are the same in the pass over the excluded parts, at any depth. -/
theorem carried (ol : Str) (env : Env) : ∀ n, Carried ol (runBlocks env n)
  | 0 => fun _ _ _ _ _ _ _ _ h _ => by cases h
  | n + 1 => fun sh inh src bs out sh' inh' hi h he =>
    carried_blocks (carried ol env n) (errorStays_rec env n) src bs 0 [] sh inh out sh' inh' hi h he

end Nts
