import Verif.Lemmas.RunInh
/-
Two recursive calls that agree on the states that can occur give the same results.
-/
set_option autoImplicit false
namespace Nts

/-- A property of the states that holds throughout an execution once it holds at its start; `P` says which operations are
performed. -/
structure Stays (R : Rec) (P : Op → Prop) (I : Shared → Inherit → Prop) : Prop where
  step : ∀ o s r s', P o → I s.sh s.inh → step R o s = .ok r s' → I s'.sh s'.inh
  child : ∀ (s : St) (scope : Bool), I s.sh s.inh →
    I (if scope then createBlockSchema s.sh s.inh else (s.sh, s.inh)).1 (childInherit s)

theorem parseSrc_agree {R R' : Rec} {I : Shared → Inherit → Prop}
    (h : ∀ sh inh src bs only, I sh inh → R sh inh src bs only = R' sh inh src bs only) {sh : Shared} {inh : Inherit}
    (hi : I sh inh) (src only : Str) : parseSrc R sh inh src only = parseSrc R' sh inh src only := by
  unfold parseSrc
  split
  · rfl
  · exact h _ _ _ _ _ hi

theorem step_agree {R R' : Rec} {P : Op → Prop} {I : Shared → Inherit → Prop} (hs : Stays R P I)
    (h : ∀ sh inh src bs only, I sh inh → R sh inh src bs only = R' sh inh src bs only) (o : Op) (s : St)
    (hi : I s.sh s.inh) : step R o s = step R' o s := by
  cases o with
  | child src scope =>
    simp only [step, runChild]
    rw [parseSrc_agree h (hs.child s scope hi)]
  | childBlocks src bs scope =>
    simp only [step, runChild]
    rw [h _ _ _ _ _ (hs.child s scope hi)]
  | pushFile k p => cases k <;> rfl
  | _ => rfl

theorem run_agree {R R' : Rec} {P : Op → Prop} {I : Shared → Inherit → Prop} (hs : Stays R P I)
    (h : ∀ sh inh src bs only, I sh inh → R sh inh src bs only = R' sh inh src bs only) {α : Type} (p : Prog α) :
    OpsIn P p → ∀ s, I s.sh s.inh → run R p s = run R' p s := by
  induction p with
  | op o k ih =>
    intro hp s hi
    simp only [run]
    rw [← step_agree hs h o s hi]
    cases hst : step R o s with
    | ok r s' => exact ih r (hp.2 r) s' (hs.step o s r s' hp.1 hi hst)
    | panic p => rfl
    | oof => rfl
  | _ => intro _ s _; rfl

theorem run_stays {R : Rec} {P : Op → Prop} {I : Shared → Inherit → Prop} (hs : Stays R P I) {α : Type} (p : Prog α)
    (hp : OpsIn P p) (s : St) (hi : I s.sh s.inh) : (run R p s).Post (fun s' => I s'.sh s'.inh) := by
  have := run_post R (P := P) (Rel := fun s s' => I s.sh s.inh → I s'.sh s'.inh) (fun _ => id)
    (fun _ _ _ h1 h2 h => h2 (h1 h)) (fun o s r s' hpo h hi => hs.step o s r s' hpo hi h) p hp s
  revert this
  cases run R p s with
  | ok a s' => exact fun h => h hi
  | err e s' => exact fun h => h hi
  | panic p => exact fun h => h
  | oof => exact fun h => h

/-! ### from bodies to BIFs and blocks -/

/-- What a block leaves behind. -/
def PRes.Post2 (Q : Shared → Inherit → Prop) : PRes → Prop
  | .ok _ sh inh => Q sh inh
  | .panic _ => True
  | .oof => True

/-- A property of the states that the bookkeeping around a body respects. -/
structure Books (I : Shared → Inherit → Prop) : Prop where
  count : ∀ sh inh, I sh inh → sh.count < sh.max → I { sh with count := sh.count + 1 } { inh with bifCount := sh.count + 1 }
  only : ∀ sh inh, I sh inh → I sh { inh with inOnly := true }
  err : ∀ sh inh line, I sh inh → I (pushError sh line) inh
  tick : ∀ (sh : Shared) inh, I sh inh → I { sh with w := { sh.w with tick := sh.w.tick + 1 } } inh
  out : ∀ sh inh b, I sh inh → I sh { inh with lastBifOut := b, lastCoalesceOut := b }

theorem runBif_stays {I : Shared → Inherit → Prop} (hb : Books I) (env : Env) {R : Rec}
    (hbody : ∀ name s, I s.sh s.inh → (run R (bifBody env name) s).Post (fun s' => I s'.sh s'.inh))
    (sh : Shared) (inh : Inherit) (raw only : Str) (hi : I sh inh) : (runBif env R sh inh raw only).Post2 I := by
  unfold runBif
  split
  · trivial
  · next hlt =>
    have h0 := hb.count sh inh hi (by omega)
    unfold bifParse
    split
    · split
      · exact h0
      · split
        · trivial
        · exact hb.err _ _ _ h0
    · split
      · exact h0
      · split
        · trivial
        · next b name' _ =>
          have := hbody name'
            { sh := { sh with count := sh.count + 1 }, inh := { { inh with bifCount := sh.count + 1 } with inOnly := true },
              b := { b with name := name', alias := name' }, raw := raw, only := only } (hb.only _ _ h0)
          revert this
          generalize run R (bifBody env name') _ = res
          intro this
          cases res with
          | ok a s => exact hb.out _ _ _ this
          | err e s =>
            simp only [bifResult]
            split
            · trivial
            · exact hb.out _ _ _ (hb.err _ _ _ (hb.tick _ _ this))
          | panic p => trivial
          | oof => trivial

theorem blocksGo_stays {I : Shared → Inherit → Prop} (hb : Books I) (env : Env) {R : Rec}
    (hbody : ∀ name s, I s.sh s.inh → (run R (bifBody env name) s).Post (fun s' => I s'.sh s'.inh))
    (src only : Str) (bs : List (Nat × Nat)) :
    ∀ prevEnd out sh inh, I sh inh → (blocksGo env R src only prevEnd out bs sh inh).Post2 I := by
  induction bs with
  | nil => intro _ _ sh inh hi; exact hi
  | cons b r ih =>
    intro prevEnd out sh inh hi
    obtain ⟨s, e⟩ := b
    simp only [blocksGo]
    split
    · exact hi
    · split
      · exact ih _ _ _ _ hi
      · have h1 := runBif_stays hb env hbody sh inh (slice src s e) only hi
        cases hx : runBif env R sh inh (slice src s e) only with
        | ok x sh' inh' => rw [hx] at h1; exact ih _ _ _ _ h1
        | panic p => trivial
        | oof => trivial

theorem bifResult_agree {env env' : Env} (ht : env.localTime = env'.localTime) (r : Res Unit) :
    bifResult env r = bifResult env' r := by
  unfold bifResult
  rw [ht]

theorem runBif_agree {I : Shared → Inherit → Prop} (hb : Books I) {env env' : Env} (ht : env.localTime = env'.localTime)
    {R R' : Rec} (hbody : ∀ name s, I s.sh s.inh → run R (bifBody env name) s = run R' (bifBody env' name) s)
    (sh : Shared) (inh : Inherit) (raw only : Str) (hi : I sh inh) :
    runBif env R sh inh raw only = runBif env' R' sh inh raw only := by
  unfold runBif
  split
  · rfl
  · next hlt =>
    have h0 := hb.count sh inh hi (by omega)
    unfold bifParse
    split
    · rfl
    · split
      · rfl
      · split
        · rfl
        · rw [bifResult_agree ht, hbody _ _ (hb.only _ _ h0)]

theorem blocksGo_agree {I : Shared → Inherit → Prop} (hb : Books I) {env env' : Env} (ht : env.localTime = env'.localTime)
    {R R' : Rec} (hbody : ∀ name s, I s.sh s.inh → run R (bifBody env name) s = run R' (bifBody env' name) s)
    (hstay : ∀ name s, I s.sh s.inh → (run R (bifBody env name) s).Post (fun s' => I s'.sh s'.inh))
    (src only : Str) (bs : List (Nat × Nat)) :
    ∀ prevEnd out sh inh, I sh inh →
      blocksGo env R src only prevEnd out bs sh inh = blocksGo env' R' src only prevEnd out bs sh inh := by
  induction bs with
  | nil => intro _ _ sh inh hi; rfl
  | cons b r ih =>
    intro prevEnd out sh inh hi
    obtain ⟨s, e⟩ := b
    simp only [blocksGo]
    split
    · rfl
    · split
      · exact ih _ _ _ _ hi
      · rw [← runBif_agree hb ht hbody sh inh _ only hi]
        have h1 := runBif_stays hb env hstay sh inh (slice src s e) only hi
        cases hx : runBif env R sh inh (slice src s e) only with
        | ok x sh' inh' => rw [hx] at h1; exact ih _ _ _ _ h1
        | panic p => rfl
        | oof => rfl

end Nts
