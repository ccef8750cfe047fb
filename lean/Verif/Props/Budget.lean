import Verif.Props.Invariants
/-
C19, C20: termination and the BIF budget.
-/
set_option autoImplicit false
namespace Nts
open Spec

/-- The relation of C19: the limit is fixed, the counter never decreases and never passes the limit. -/
def Spec.Counted (a b : Shared) : Prop := b.max = a.max ∧ a.count ≤ b.count ∧ (a.count ≤ a.max → b.count ≤ b.max)

theorem counted_steps : StepsE (fun _ => True) Counted where
  refl _ := ⟨rfl, Nat.le_refl _, id⟩
  trans _ _ _ h1 h2 := ⟨h2.1.trans h1.1, Nat.le_trans h1.2.1 h2.2.1, fun h => h2.2.2 (h1.2.2 h)⟩
  indir _ _ := ⟨rfl, Nat.le_refl _, id⟩
  unmatched _ _ := ⟨rfl, Nat.le_refl _, id⟩
  err _ _ _ := ⟨rfl, Nat.le_refl _, id⟩
  world _ _ := ⟨rfl, Nat.le_refl _, id⟩
  flags _ _ := ⟨rfl, Nat.le_refl _, id⟩
  status _ _ _ _ := ⟨rfl, Nat.le_refl _, id⟩
  exit _ _ _ := ⟨rfl, Nat.le_refl _, id⟩
  redirectJs _ _ := ⟨rfl, Nat.le_refl _, id⟩
  alreadyJs _ := ⟨rfl, Nat.le_refl _, id⟩
  data _ _ _ _ _ _ := ⟨rfl, Nat.le_refl _, id⟩
  moveto _ _ _ _ _ _ := ⟨rfl, Nat.le_refl _, id⟩

theorem counted_closed : Closed (fun _ => True) Counted :=
  (counted_steps).closed (fun sh h => ⟨rfl, Nat.le_succ _, fun _ => h⟩)

theorem counted_runBlocks (env : Env) (n : Nat) : RecRel Counted (runBlocks env n) :=
  runBlocks_rel counted_closed env (fun _ => OpsIn_true _) n

/-- The recursion bound `n` is enough in a state: there are at most `n - 1` BIFs left to create. -/
def Enough (n : Nat) (sh : Shared) : Prop := sh.count ≤ sh.max ∧ sh.max < sh.count + n

/-- `R` does not run out of fuel when `n` is enough. -/
def NoOof (n : Nat) (R : Rec) : Prop :=
  ∀ sh inh src bs only, Enough n sh → R sh inh src bs only ≠ .oof

theorem enough_mono {n : Nat} {a b : Shared} (h : Counted a b) (ha : Enough n a) : Enough n b := by
  refine ⟨h.2.2 ha.1, ?_⟩
  have := ha.2
  have := h.1
  have := h.2.1
  omega

theorem enough_indir {n : Nat} {a : Shared} {f : Str → Option Value} (h : Enough n a) :
    Enough n { a with indir := f } := h

theorem step_noOof {R : Rec} {n : Nat} (hR : NoOof n R) (o : Op) (s : St) (h : Enough n s.sh) :
    step R o s ≠ .oof := by
  have child : ∀ (scope : Bool) (f : Shared → Inherit → PRes), (∀ sh inh, Enough n sh → f sh inh ≠ .oof) →
      runChild s scope f ≠ .oof := by
    intro scope f hf hx
    unfold runChild at hx
    dsimp only at hx
    split at hx
    · simp at hx
    · simp at hx
    · next he =>
      refine hf _ _ ?_ he
      cases scope with
      | false => exact h
      | true =>
        obtain ⟨g, hg⟩ := createBlockSchema_sh s.sh s.inh
        simp only [if_true, hg]
        exact h
  have opt : ∀ o : Option St, oresOpt o ≠ .oof := by intro o; cases o <;> simp [oresOpt]
  cases o with
  | child src scope =>
    simp only [step]
    apply child
    intro sh inh he hp
    unfold parseSrc at hp
    split at hp
    · simp at hp
    · exact hR _ _ _ _ _ he hp
  | childBlocks src blocks scope =>
    simp only [step]
    apply child
    intro sh inh he hp
    exact hR _ _ _ _ _ he hp
  | setData name v => exact opt _
  | setMoveto name v => exact opt _
  | setIndir sec key v => exact opt _
  | mergeIndir sec v => exact opt _
  | pushFile k p => cases k <;> simp [step]
  | _ => simp [step]

theorem run_noOof {R : Rec} {n : Nat} (hR : NoOof n R) (hc : RecRel Counted R) {α : Type} (p : Prog α) :
    ∀ s : St, Enough n s.sh → run R p s ≠ .oof := by
  induction p with
  | pure a => intro s _; simp [run]
  | throw e => intro s _; simp [run]
  | panic p => intro s _; simp [run]
  | op o k ih =>
    intro s h
    simp only [run]
    cases hs : step R o s with
    | ok r s' =>
      exact ih r s' (enough_mono (step_rel counted_closed.toSteps hc o s r s' trivial hs) h)
    | panic p => simp
    | oof => exact absurd hs (step_noOof hR o s h)

theorem runBif_noOof {R : Rec} {n : Nat} (env : Env) (hR : NoOof n R) (hc : RecRel Counted R) (sh : Shared)
    (inh : Inherit) (raw only : Str) (h : sh.max < sh.count + (n + 1)) : runBif env R sh inh raw only ≠ .oof := by
  unfold runBif
  split
  · simp
  · next hlt =>
    have he : Enough n { sh with count := sh.count + 1 } := ⟨by simp only; omega, by simp only; omega⟩
    unfold bifParse
    split
    · split
      · simp
      · split <;> simp
    · split
      · simp
      · split
        · simp
        · next b name' _ =>
          have h1 := run_noOof hR hc (bifBody env name')
            { sh := { sh with count := sh.count + 1 }, inh := { { inh with bifCount := sh.count + 1 } with inOnly := true },
              b := { b with name := name', alias := name' }, raw := raw, only := only } he
          unfold bifResult
          split
          · simp [bifFinish]
          · split <;> simp [bifFinish]
          · simp
          · next hx => exact absurd hx h1

theorem blocksGo_noOof {R : Rec} {n : Nat} (env : Env) (hR : NoOof n R) (hc : RecRel Counted R) (src only : Str)
    (bs : List (Nat × Nat)) : ∀ prevEnd out sh inh, sh.max < sh.count + (n + 1) →
      blocksGo env R src only prevEnd out bs sh inh ≠ .oof := by
  induction bs with
  | nil => intro _ _ sh _ _; simp [blocksGo]
  | cons b r ih =>
    intro prevEnd out sh inh h
    obtain ⟨s, e⟩ := b
    simp only [blocksGo]
    split
    · simp
    · split
      · exact ih _ _ _ _ h
      · have h1 := runBif_noOof env hR hc sh inh (slice src s e) only h
        have h2 := runBif_rel counted_closed env hc (fun _ => OpsIn_true _) sh inh (slice src s e) only
        cases hx : runBif env R sh inh (slice src s e) only with
        | ok x sh' inh' =>
          rw [hx] at h2
          simp only
          apply ih
          have := h2.1; have := h2.2.1
          omega
        | panic p => simp
        | oof => exact absurd hx h1

theorem noOof_runBlocks (env : Env) (n : Nat) : NoOof n (runBlocks env n) := by
  induction n with
  | zero =>
    intro sh inh src bs only h
    have := h.1; have := h.2
    omega
  | succ n ih =>
    intro sh inh src bs only h
    exact blocksGo_noOof env ih (counted_runBlocks env n) src only bs 0 [] sh inh h.2

/-- **C19 (termination).** Evaluating any source in any state with the BIF limit `infinite_loop_max_bifs = sh.max` ends
within recursion depth `max - count + 1`: it gives an output or a panic, it never goes on forever. -/
theorem C19_terminates (env : Env) (n : Nat) (sh : Shared) (inh : Inherit) (src only : Str) (blocks : List (Nat × Nat))
    (hc : sh.count ≤ sh.max) (hn : sh.max - sh.count < n) :
    (∃ out sh' inh', runBlocks env n sh inh src blocks only = .ok out sh' inh') ∨
    (∃ p, runBlocks env n sh inh src blocks only = .panic p) := by
  have := noOof_runBlocks env n sh inh src blocks only ⟨hc, by omega⟩
  cases h : runBlocks env n sh inh src blocks only with
  | ok o s i => exact .inl ⟨o, s, i, rfl⟩
  | panic p => exact .inr ⟨p, rfl⟩
  | oof => exact absurd h this

/-- **C19 (budget).** At the end of any evaluation the counter is at least what it was and at most the limit, and the
limit is the same. -/
theorem C19_budget (env : Env) (n : Nat) (sh sh' : Shared) (inh inh' : Inherit) (src only out : Str)
    (blocks : List (Nat × Nat)) (hc : sh.count ≤ sh.max)
    (h : runBlocks env n sh inh src blocks only = .ok out sh' inh') :
    sh.count ≤ sh'.count ∧ sh'.count ≤ sh.max ∧ sh'.max = sh.max := by
  have := counted_runBlocks env n sh inh src blocks only
  rw [h] at this
  have hm := this.1
  exact ⟨this.2.1, by have := this.2.2 hc; omega, hm⟩

/-- **C19 (each BIF counts).** Creating a BIF when the limit is reached panics; otherwise it counts as one (at least:
the BIFs inside it count too). -/
theorem C19_each_counts (env : Env) (n : Nat) (sh : Shared) (inh : Inherit) (raw only : Str) :
    (sh.max ≤ sh.count → runBif env (runBlocks env n) sh inh raw only = .panic .budget) ∧
    ∀ out sh' inh', runBif env (runBlocks env n) sh inh raw only = .ok out sh' inh' →
      sh.count + 1 ≤ sh'.count ∧ sh'.count ≤ sh.max := by
  constructor
  · intro h
    unfold runBif
    rw [if_pos (by omega)]
  · intro out sh' inh' h
    unfold runBif at h
    split at h
    · simp at h
    · next hlt =>
      have hcl := counted_runBlocks env n
      have key : (bifParse env (runBlocks env n) { sh with count := sh.count + 1 } { inh with bifCount := sh.count + 1 }
          raw only).Post (Counted { sh with count := sh.count + 1 }) := by
        unfold bifParse
        split
        · split
          · exact counted_closed.refl _
          · split
            · trivial
            · exact counted_steps.err _ _ (.inr ⟨_, rfl⟩)
        · split
          · exact counted_closed.refl _
          · split
            · trivial
            · exact bifResult_post counted_steps env (run_rel counted_closed.toSteps hcl (OpsIn_true _) _)
      rw [h] at key
      refine ⟨key.2.1, ?_⟩
      have h1 := key.1
      have h2 := key.2.2 (by simp only; omega)
      simp only at h1
      omega

/-- A pass of the renderer never runs out of fuel. -/
theorem pass_noOof (env : Env) (sh : Shared) (inh : Inherit) (text only : Str) (h : sh.count ≤ sh.max) :
    pass env sh inh text only ≠ .oof := by
  unfold pass
  split
  · simp
  · simp
  · next he =>
    unfold parseSrc at he
    split at he
    · simp at he
    · exact absurd he (noOof_runBlocks env _ _ _ _ _ _ ⟨h, by omega⟩)

/-- **C19 (whole render).** The number of BIFs a finished render has created, in all its passes together, is at most
`infinite_loop_max_bifs`. -/
theorem C19_render (env : Env) (n : Nat) (w : World) (t t' : Tpl) (hb : contains bifOpen t.raw = true)
    (h : t.render env n w = .ok t') :
    ∃ limit, ((t.schema.index c!"config").index c!"infinite_loop_max_bifs").asU64? = some limit ∧
      t'.shared.count ≤ limit := by
  unfold Tpl.render at h
  simp only [hb, Bool.not_true, Bool.false_eq_true, if_false] at h
  obtain ⟨sh, raw, sh1, inh, h0, h1, h2⟩ := renderWith_rel counted_closed env (fun _ => OpsIn_true _) h
  obtain ⟨sc1, f, hf⟩ := initShared_frame h1
  have hz := (sharedNew_fields h0).2.2.2.2.2.1
  have hm : ((t.schema.index c!"config").index c!"infinite_loop_max_bifs").asU64? = some sh.max := by
    unfold Shared.new at h0
    dsimp only at h0
    split at h0
    · next hx _ => simp only [Option.some.injEq] at h0; subst h0; simpa using hx
    · simp at h0
  refine ⟨sh.max, hm, ?_⟩
  have e1 : sh1.max = sh.max := by rw [hf]
  have e2 : sh1.count = sh.count := by rw [hf]
  have := h2.2.2 (by omega)
  have := h2.1
  omega

/-- A template that calls itself for ever is stopped by the limit, and only by it. -/
example : Sample.panicOf ((Sample.tpl (Sample.schema 7 [(c!"a", .str c!"x")] (
    (c!"snippets", .obj [(c!"s", .str c!"{:snippet; s :}")]) :: Sample.inherit)) c!"{:snippet; s :}").render
      Sample.env 10 Sample.world) = some .budget := by decide +kernel
example : (Sample.outOf ((Sample.tpl (Sample.schema 7 [] []) c!"{:code; {:code; a{:lang;:} :} :}").render
      Sample.env 10 Sample.world)).isSome = true := by decide +kernel

end Nts
