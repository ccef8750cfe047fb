import Verif.Lemmas.Agree
import Verif.Spec.Sample
import Verif.Props.Invariants
/-
C46: the script of `fetch` is emitted at most once.
-/
set_option autoImplicit false
namespace Nts

/-- No script will be emitted any more: it is disabled or it has been emitted. -/
def Spec.Done (sh : Shared) : Prop := sh.disableJs = true ∨ sh.alreadyJs = true

/-- The same program with another script. -/
def Spec.withScript (env : Env) (j : Str) : Env := { env with neutralJs := j }
open Spec

theorem bodies_js (env : Env) (j name : Str) (h : name ≠ c!"fetch") :
    bifBody (withScript env j) name = bifBody env name := by
  unfold bifBody
  simp only [if_neg h,
    show bifVar (withScript env j) = bifVar env from rfl,
    show bifAllow (withScript env j) = bifAllow env from rfl,
    show bifBool (withScript env j) = bifBool env from rfl,
    show bifCache (withScript env j) = bifCache env from rfl,
    show bifCount (withScript env j) = bifCount env from rfl,
    show bifData (withScript env j) = bifData env from rfl,
    show bifDate (withScript env j) = bifDate env from rfl,
    show bifEval (withScript env j) = bifEval env from rfl,
    show bifFor (withScript env j) = bifFor env from rfl,
    show bifHash (withScript env j) = bifHash env from rfl,
    show bifInclude (withScript env j) = bifInclude env from rfl,
    show bifJoin (withScript env j) = bifJoin env from rfl,
    show bifLocale (withScript env j) = bifLocale env from rfl,
    show bifMoveto (withScript env j) = bifMoveto env from rfl,
    show bifParam (withScript env j) = bifParam env from rfl,
    show bifRand (withScript env j) = bifRand env from rfl,
    show bifSnippet (withScript env j) = bifSnippet env from rfl,
    show bifSum (withScript env j) = bifSum env from rfl,
    show bifTrans (withScript env j) = bifTrans env from rfl,
    show bifObj (withScript env j) = bifObj env from rfl,
    show bifDebug (withScript env j) = bifDebug env from rfl]

/-- Once nothing more will be emitted, it stays so. -/
def Spec.KeepDone (a b : Shared) : Prop := Done a → Done b

theorem keepDone_steps : StepsE (fun _ => True) KeepDone where
  refl _ := id
  trans _ _ _ h1 h2 := h2 ∘ h1
  indir _ _ := id
  unmatched _ _ := id
  err _ _ _ := id
  world _ _ := id
  flags _ _ := id
  status _ _ _ _ := id
  exit _ _ _ := id
  redirectJs _ _ := id
  alreadyJs _ := fun _ => .inr rfl
  data _ _ _ _ _ _ := id
  moveto _ _ _ _ _ _ := id

theorem keepDone_closed : Closed (fun _ => True) KeepDone :=
  (keepDone_steps).closed (fun _ _ => id)

theorem keepDone_rec (env : Env) (n : Nat) : RecRel KeepDone (runBlocks env n) :=
  runBlocks_rel keepDone_closed env (fun _ => OpsIn_true _) n

/-! ### once done -/

theorem done_stays {R : Rec} (hR : RecRel KeepDone R) : Stays R (fun _ => True) (fun sh _ => Done sh) where
  step o s r s' _ hi h := step_rel keepDone_closed.toSteps hR o s r s' trivial h hi
  child s scope hi := by
    cases scope
    · exact hi
    · obtain ⟨f, hf⟩ := createBlockSchema_sh s.sh s.inh
      simp only [if_true]
      rw [hf]
      exact hi

theorem done_books : Books (fun sh _ => Done sh) where
  count _ _ h _ := h
  only _ _ h := h
  err _ _ _ h := h
  tick _ _ h := h
  out _ _ _ h := h

/-- The body of `fetch` up to the point where the script is added. -/
def fetchHead : Prog Str := do
  denyMods (fun b => b.modFilter || b.modNegate || b.modScope)
  let _ ← extractParamsCode true
  denyFlags
  let args ← extractArgs
  let url ← argReq args 1 c!"arguments not found"
  parseCode false
  let s ← getSt
  .pure
    (replaceAll c!"{endpoint}" url
      (replaceAll c!"{body}" s.b.code
        (replaceAll c!"{class}" (argOpt args 4)
          (replaceAll c!"{wrap}" (argOpt args 3)
            (replaceAll c!"{name}" (argOpt args 6)
              (replaceAll c!"{id}" (argOpt args 5) (fetchDiv (argOpt args 2))))))))

/-- The end of `fetch`. -/
def fetchTail (env : Env) (out : Str) : Prog Unit := do
  let s ← getSt
  if !s.sh.disableJs && !s.sh.alreadyJs then do
    setOut (out ++ c!"{:!cache;{:moveto;</body>>" ++ env.neutralJs ++ c!":}:}")
    perform .setAlreadyJs
  else setOut out

theorem run_fetch (env : Env) (R : Rec) (s : St) : run R (bifFetch env) s = run R (fetchHead >>= fetchTail env) s := by
  unfold bifFetch fetchHead fetchTail
  simp only [run_bind, andThen_assoc, run_pure', andThen_ok, run_getSt]

theorem fetchTail_done (env : Env) (j : Str) (R : Rec) (out : Str) (s : St) (h : Done s.sh) :
    run R (fetchTail env out) s = run R (fetchTail (withScript env j) out) s := by
  have hc : ¬ (!s.sh.disableJs && !s.sh.alreadyJs) = true := by
    rcases h with h | h <;> simp [h]
  unfold fetchTail
  simp only [run_bind, run_getSt, andThen_ok, run_ite, if_neg hc]

theorem body_done (env : Env) (j name : Str) {R : Rec} (hR : RecRel KeepDone R) (s : St) (h : Done s.sh) :
    run R (bifBody env name) s = run R (bifBody (withScript env j) name) s := by
  by_cases hn : name = c!"fetch"
  · subst hn
    change run R (bifFetch env) s = run R (bifFetch (withScript env j)) s
    rw [run_fetch, run_fetch]
    simp only [run_bind]
    have hp := run_stays (done_stays hR) fetchHead (OpsIn_true _) s h
    cases hr : run R fetchHead s with
    | ok a s1 => rw [hr] at hp; exact fetchTail_done env j R a s1 hp
    | err e s1 => rfl
    | panic p => rfl
    | oof => rfl
  · rw [bodies_js env j name hn]

theorem blocks_done (env : Env) (j : Str) (n : Nat) (sh : Shared) (inh : Inherit) (src only : Str) (bs : List (Nat × Nat))
    (h : Done sh) : runBlocks env n sh inh src bs only = runBlocks (withScript env j) n sh inh src bs only := by
  induction n generalizing sh inh src bs only with
  | zero => rfl
  | succ n ih =>
    simp only [runBlocks]
    have hR := keepDone_rec env n
    have hst := done_stays hR
    refine blocksGo_agree done_books (by rfl) ?_ (fun name s hi => run_stays hst _ (OpsIn_true _) s hi) src only bs 0 [] sh inh h
    intro name s hi
    rw [body_done env j name hR s hi]
    exact run_agree hst (fun sh inh src bs only hi => ih sh inh src only bs hi) _ (OpsIn_true _) s hi

/-- **C46 (at most once, any evaluation).** When scripts are disabled, or the script has been emitted, no evaluation
depends on what the script is: it emits no script, at any depth. -/
theorem C46_once (env : Env) (j : Str) (n : Nat) (sh : Shared) (inh : Inherit) (src only : Str) (h : Done sh) :
    parseSrc (runBlocks env n) sh inh src only = parseSrc (runBlocks (withScript env j) n) sh inh src only := by
  exact parseSrc_agree (I := fun sh _ => Done sh) (fun sh inh src bs only hi => blocks_done env j n sh inh src only bs hi) h src only

/-! ### nothing emitted -/

/-- The results are the same, unless scripts are disabled or emitted by the first one. -/
def ResUnless {α : Type} (r r' : Res α) : Prop :=
  match r with
  | .ok _ s => ¬ Done s.sh → r' = r
  | .err _ s => ¬ Done s.sh → r' = r
  | _ => True

/-- Likewise for blocks. -/
def PUnless (r r' : PRes) : Prop :=
  match r with
  | .ok _ sh _ => ¬ Done sh → r' = r
  | _ => True

theorem done_indir {sh sh' : Shared} (h : ∃ f, sh' = { sh with indir := f }) : Done sh' ↔ Done sh := by
  obtain ⟨f, rfl⟩ := h
  exact Iff.rfl

theorem runChild_unless {s : St} {scope : Bool} {f f' : Shared → Inherit → PRes} (h : ∀ sh inh, PUnless (f sh inh) (f' sh inh))
    {x : Str} {s' : St} (hr : runChild s scope f = .ok x s') (hd : ¬ Done s'.sh) : runChild s scope f' = .ok x s' := by
  unfold runChild at hr ⊢
  dsimp only at hr ⊢
  generalize hp : (if (scope : Bool) then createBlockSchema s.sh s.inh else (s.sh, s.inh)) = p at hr ⊢
  have h := h p.1 (childInherit s)
  cases hf : f p.1 (childInherit s) with
  | ok y sh2 ci2 =>
    rw [hf] at h hr
    simp only [ORes.ok.injEq] at hr
    have hd2 : ¬ Done sh2 := by
      intro h2
      apply hd
      rw [← hr.2]
      dsimp only
      rw [done_indir (dropBlock_sh _ _)]
      split
      · rw [done_indir (updateIndir_sh _ _ _)]; exact h2
      · exact h2
    rw [h hd2]
    simp only [ORes.ok.injEq]
    exact hr
  | panic p => rw [hf] at hr; simp at hr
  | oof => rw [hf] at hr; simp at hr

theorem parseSrc_unless {R R' : Rec} (h : ∀ sh inh src bs only, PUnless (R sh inh src bs only) (R' sh inh src bs only))
    (src only : Str) (sh : Shared) (inh : Inherit) : PUnless (parseSrc R sh inh src only) (parseSrc R' sh inh src only) := by
  unfold parseSrc
  split
  · intro _; rfl
  · exact h _ _ _ _ _

theorem step_unless {R R' : Rec} (h : ∀ sh inh src bs only, PUnless (R sh inh src bs only) (R' sh inh src bs only))
    (o : Op) (s s' : St) (r : o.Resp) (hs : step R o s = .ok r s') (hd : ¬ Done s'.sh) : step R' o s = .ok r s' := by
  cases o with
  | child src scope =>
    simp only [step] at hs ⊢
    exact runChild_unless (parseSrc_unless h src s.only) hs hd
  | childBlocks src bs scope =>
    simp only [step] at hs ⊢
    exact runChild_unless (fun sh inh => h sh inh src bs s.only) hs hd
  | pushFile k p => cases k <;> exact hs
  | _ => exact hs

theorem run_unless {R R' : Rec} (hR : RecRel KeepDone R)
    (h : ∀ sh inh src bs only, PUnless (R sh inh src bs only) (R' sh inh src bs only)) {α : Type} (p : Prog α) :
    ∀ s, ResUnless (run R p s) (run R' p s) := by
  induction p with
  | pure a => intro s _; rfl
  | throw e => intro s _; rfl
  | panic p => intro s; trivial
  | op o k ih =>
    intro s
    simp only [run]
    cases hs : step R o s with
    | ok r s' =>
      have hk := run_rel keepDone_closed.toSteps hR (OpsIn_true (k r)) s'
      have ih := ih r s'
      dsimp only
      have key : ∀ s1 : St, (Done s'.sh → Done s1.sh) → ¬ Done s1.sh → step R' o s = .ok r s' :=
        fun s1 h1 h2 => step_unless h o s s' r hs (fun h3 => h2 (h1 h3))
      cases hr : run R (k r) s' with
      | ok a s1 =>
        rw [hr] at hk ih
        intro hd
        rw [key s1 hk hd]
        exact ih hd
      | err e s1 =>
        rw [hr] at hk ih
        intro hd
        rw [key s1 hk hd]
        exact ih hd
      | panic p => trivial
      | oof => trivial
    | panic p => trivial
    | oof => trivial

theorem andThen_unless {α β : Type} {r r' : Res α} {f f' : α → St → Res β} (hr : ResUnless r r')
    (hf : ∀ a s, ResUnless (f a s) (f' a s))
    (hm : ∀ a s, (f a s).Post (fun s' => KeepDone s.sh s'.sh)) : ResUnless (r.andThen f) (r'.andThen f') := by
  cases r with
  | ok a s =>
    have h1 := hf a s
    have h2 := hm a s
    simp only [andThen_ok]
    cases hx : f a s with
    | ok b s1 =>
      rw [hx] at h1 h2
      intro hd
      rw [hr (fun h => hd (h2 h))]
      exact h1 hd
    | err b s1 =>
      rw [hx] at h1 h2
      intro hd
      rw [hr (fun h => hd (h2 h))]
      exact h1 hd
    | panic p => trivial
    | oof => trivial
  | err e s => intro hd; rw [hr hd]; rfl
  | panic p => trivial
  | oof => trivial

theorem fetchTail_unless (env : Env) (j : Str) (R R' : Rec) (out : Str) (s : St) :
    ResUnless (run R (fetchTail env out) s) (run R' (fetchTail (withScript env j) out) s) := by
  unfold fetchTail
  simp only [run_bind, run_getSt, andThen_ok, run_ite]
  split
  · intro hd
    exact absurd (.inr rfl) hd
  · intro _; rfl

theorem body_unless (env : Env) (j name : Str) {R R' : Rec} (hR : RecRel KeepDone R)
    (h : ∀ sh inh src bs only, PUnless (R sh inh src bs only) (R' sh inh src bs only)) (s : St) :
    ResUnless (run R (bifBody env name) s) (run R' (bifBody (withScript env j) name) s) := by
  by_cases hn : name = c!"fetch"
  · subst hn
    change ResUnless (run R (bifFetch env) s) (run R' (bifFetch (withScript env j)) s)
    rw [run_fetch, run_fetch]
    simp only [run_bind]
    exact andThen_unless (run_unless hR h fetchHead s) (fetchTail_unless env j R R')
      (fun a s => run_rel keepDone_closed.toSteps hR (OpsIn_true _) s)
  · rw [bodies_js env j name hn]
    exact run_unless hR h _ s

theorem runBif_unless (env : Env) (j : Str) {R R' : Rec} (hR : RecRel KeepDone R)
    (h : ∀ sh inh src bs only, PUnless (R sh inh src bs only) (R' sh inh src bs only)) (sh : Shared) (inh : Inherit) (raw only : Str) :
    PUnless (runBif env R sh inh raw only) (runBif (withScript env j) R' sh inh raw only) := by
  unfold runBif
  split
  · trivial
  · unfold bifParse
    split
    · split
      · intro _; rfl
      · split
        · trivial
        · intro _; rfl
    · split
      · intro _; rfl
      · split
        · trivial
        · next b name' _ =>
          have hb := body_unless env j name' hR h
            { sh := { sh with count := sh.count + 1 }, inh := { { inh with bifCount := sh.count + 1 } with inOnly := true },
              b := { b with name := name', alias := name' }, raw := raw, only := only }
          revert hb
          generalize run R (bifBody env name') _ = r
          generalize run R' (bifBody (withScript env j) name') _ = r'
          intro hb
          cases r with
          | ok a s => intro hd; rw [hb hd]; rfl
          | err e s =>
            simp only [bifResult]
            split
            · trivial
            · next hse =>
              intro hd
              rw [hb (by exact hd)]
              simp only [hse]
              rfl
          | panic p => trivial
          | oof => trivial

theorem blocksGo_unless (env : Env) (j : Str) {R R' : Rec} (hR : RecRel KeepDone R)
    (h : ∀ sh inh src bs only, PUnless (R sh inh src bs only) (R' sh inh src bs only)) (src only : Str) (bs : List (Nat × Nat)) :
    ∀ prevEnd out sh inh,
      PUnless (blocksGo env R src only prevEnd out bs sh inh) (blocksGo (withScript env j) R' src only prevEnd out bs sh inh) := by
  induction bs with
  | nil => intro _ _ sh inh _; rfl
  | cons b r ih =>
    intro prevEnd out sh inh
    obtain ⟨s, e⟩ := b
    simp only [blocksGo]
    split
    · intro _; rfl
    · split
      · exact ih _ _ _ _
      · have h1 := runBif_unless env j hR h sh inh (slice src s e) only
        cases hx : runBif env R sh inh (slice src s e) only with
        | ok x sh' inh' =>
          rw [hx] at h1
          dsimp only
          have h2 := ih e ((if prevEnd < s then out ++ slice src prevEnd s else out) ++ x) sh' inh'
          have h3 := blocksGo_rel keepDone_closed env hR (fun _ => OpsIn_true _) src only r e
            ((if prevEnd < s then out ++ slice src prevEnd s else out) ++ x) sh' inh'
          revert h2 h3
          cases blocksGo env R src only e ((if prevEnd < s then out ++ slice src prevEnd s else out) ++ x) r sh' inh' with
          | ok y sh2 inh2 =>
            intro h2 h3 hd
            rw [h1 (fun hd1 => hd (h3 hd1))]
            exact h2 hd
          | panic p => intros; trivial
          | oof => intros; trivial
        | panic p => trivial
        | oof => trivial

theorem blocks_unless (env : Env) (j : Str) (n : Nat) (sh : Shared) (inh : Inherit) (src : Str) (bs : List (Nat × Nat)) (only : Str) :
    PUnless (runBlocks env n sh inh src bs only) (runBlocks (withScript env j) n sh inh src bs only) := by
  induction n generalizing sh inh src bs only with
  | zero => trivial
  | succ n ih => exact blocksGo_unless env j (keepDone_rec env n) ih src only bs 0 [] sh inh

/-- **C46 (emitting is remembered, any evaluation).** An evaluation after which scripts are not disabled and not marked as
emitted has emitted none: its result is the same whatever the script is. -/
theorem C46_marked (env : Env) (j : Str) (n : Nat) (sh sh' : Shared) (inh inh' : Inherit) (src only x : Str)
    (h : parseSrc (runBlocks env n) sh inh src only = .ok x sh' inh') (hd : ¬ Done sh') :
    parseSrc (runBlocks (withScript env j) n) sh inh src only = .ok x sh' inh' := by
  have := parseSrc_unless (blocks_unless env j n) src only sh inh
  rw [h] at this
  exact this hd

/-- **C46 (emitting is remembered, one BIF).** Likewise for a single BIF: if its result depends on the script, it has
marked the script as emitted, so that (`C46_once`) nothing after it emits the script. -/
theorem C46_marked_bif (env : Env) (j : Str) (n : Nat) (sh sh' : Shared) (inh inh' : Inherit) (raw only x : Str)
    (h : runBif env (runBlocks env n) sh inh raw only = .ok x sh' inh')
    (hdep : runBif (withScript env j) (runBlocks (withScript env j) n) sh inh raw only ≠ .ok x sh' inh') : Done sh' := by
  have := runBif_unless env j (keepDone_rec env n) (blocks_unless env j n) sh inh raw only
  rw [h] at this
  exact Classical.byContradiction fun hd => hdep (this hd)

/-! ### the whole render -/

theorem pass_done (env : Env) (j : Str) (sh : Shared) (inh : Inherit) (text only : Str) (h : Done sh) :
    pass env sh inh text only = pass (withScript env j) sh inh text only := by
  unfold pass
  rw [C46_once env j _ _ _ _ _ h]

theorem cacheLoop_done_js (env : Env) (j : Str) (inh : Inherit) (n : Nat) :
    ∀ sh out, Done sh → cacheLoop env inh n sh out = cacheLoop (withScript env j) inh n sh out := by
  induction n with
  | zero => intro sh out _; rfl
  | succ n ih =>
    intro sh out h
    simp only [cacheLoop]
    rw [← pass_done env j sh inh out _ h]
    have hp := pass_rel keepDone_closed env (fun _ => OpsIn_true _) sh inh out c!"!cache"
    cases hx : pass env sh inh out c!"!cache" with
    | ok o sh' inh' => rw [hx] at hp; simp only; rw [ih sh' o (hp h)]
    | panic p => rfl
    | oof => rfl

theorem renderWith_done (env : Env) (j : Str) (n : Nat) (t : Tpl) (sc : Value) (sh : Shared) (h : Done sh) :
    renderWith env n t sc (some sh) = renderWith (withScript env j) n t sc (some sh) := by
  unfold renderWith
  dsimp only
  rw [show initShared (withScript env j) t.filePath t.raw sh = initShared env t.filePath t.raw sh from rfl]
  cases hi : initShared env t.filePath t.raw sh with
  | error p => rfl
  | ok v =>
    obtain ⟨raw, sh1, inh⟩ := v
    have h1 : Done sh1 := by
      obtain ⟨sc1, f, hf⟩ := initShared_frame hi
      rw [hf]
      exact h
    dsimp only
    rw [← pass_done env j sh1 inh raw [] h1]
    have hp := pass_rel keepDone_closed env (fun _ => OpsIn_true _) sh1 inh raw []
    cases hx : pass env sh1 inh raw [] with
    | ok o sh' inh' => rw [hx] at hp; dsimp only; rw [cacheLoop_done_js env j inh n sh' o (hp h1)]
    | panic p => rfl
    | oof => rfl

/-- **C46 (disabled).** With `config.disable_js` the whole render does not depend on the script: it is never emitted. -/
theorem C46_disabled (env : Env) (j : Str) (n : Nat) (w : World) (t : Tpl)
    (h : (t.schema.index c!"config").index c!"disable_js" = .bool true) :
    t.render env n w = t.render (withScript env j) n w ∧ t.renderOnce env n w = t.renderOnce (withScript env j) n w := by
  have key : ∀ sc, renderWith env n t sc (Shared.new env w t.schema) =
      renderWith (withScript env j) n t sc (Shared.new (withScript env j) w t.schema) := by
    intro sc
    rw [show Shared.new (withScript env j) w t.schema = Shared.new env w t.schema from rfl]
    cases hs : Shared.new env w t.schema with
    | none => rfl
    | some sh =>
      apply renderWith_done
      refine .inl ?_
      unfold Shared.new at hs
      dsimp only at hs
      split at hs
      · simp only [Option.some.injEq] at hs
        rw [← hs]
        dsimp only
        have hr : resolvePointer (t.schema.index c!"config") c!"disable_js" = (t.schema.index c!"config").get? c!"disable_js" := by
          unfold resolvePointer
          rw [if_pos (by decide)]
        unfold isBoolKey
        rw [hr]
        revert h
        generalize t.schema.index c!"config" = cfg
        unfold Value.index
        cases cfg.get? c!"disable_js" with
        | none => intro h; simp at h
        | some v => intro h; simp only [Option.getD_some] at h; subst h; rfl
      · simp at hs
  unfold Tpl.render Tpl.renderOnce
  rw [renderOnceWith_eq]
  constructor
  · split
    · rfl
    · exact key _
  · split
    · rfl
    · exact key _

/-- Two fetches: one script, moved to the end of the body. -/
example : ∃ a b, Sample.outOf (Sample.go [] c!"<body>{:fetch; |/u|none| >> :}{:fetch; |/v|none| >> :}</body>") =
      some (c!"<body>" ++ a ++ b ++ c!"<script></script></body>", c!"200") ∧ ¬ c!"<script>" <:+: a ∧ ¬ c!"<script>" <:+: b := by
  refine ⟨c!"<div id=\"\" class=\"neutral-fetch-none \" data-url=\"/u\" data-wrap=\"\">\n    \n</div>\n",
    c!"<div id=\"\" class=\"neutral-fetch-none \" data-url=\"/v\" data-wrap=\"\">\n    \n</div>", ?_, ?_, ?_⟩ <;> decide +kernel

/-- `Done` is reached by a render that fetches, and not before. -/
example :
    ((Sample.tpl (Sample.schema 1000 [] Sample.inherit) c!"{:fetch; |/u|none| >> :}").render Sample.env 10 Sample.world |> fun r =>
      match r with | .ok t => t.shared.alreadyJs | _ => false) = true ∧
    (Sample.shared (Sample.schema 1000 [] Sample.inherit)).alreadyJs = false := by
  constructor <;> decide +kernel

end Nts
