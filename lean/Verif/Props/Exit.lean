import Verif.Lemmas.Agree
import Verif.Lemmas.RunInh
import Verif.Spec.Sample
import Verif.Props.Invariants
import Verif.Props.Redirect
/-
C23: exit stops evaluation.
-/
set_option autoImplicit false
namespace Nts
open Spec

/-- **C23 (block).** When the exit mark is set, evaluating what remains of a block executes no BIF and changes nothing,
whatever remains; what is printed is what was printed so far, followed (only when no BIF remains) by the text that remains. -/
theorem C23_block (env : Env) (R : Rec) (src only out : Str) (prevEnd : Nat) (bs : List (Nat × Nat)) (sh : Shared) (inh : Inherit)
    (h : sh.exit = true) :
    blocksGo env R src only prevEnd out bs sh inh =
      .ok (if bs = [] then trim (out ++ src.drop prevEnd) else out) sh inh := by
  cases bs with
  | nil => rfl
  | cons b r =>
    obtain ⟨s, e⟩ := b
    simp only [blocksGo, h, if_true]
    rfl

/-- After the exit mark: it stays, and no BIF is executed. -/
def Spec.Stopped (a b : Shared) : Prop := a.exit = true → b.exit = true ∧ b.count = a.count

theorem stopped_rec (env : Env) (n : Nat) : RecRel Stopped (runBlocks env n) := by
  intro sh inh src bs only
  cases n with
  | zero => trivial
  | succ n =>
    simp only [runBlocks]
    by_cases h : sh.exit = true
    · rw [C23_block _ _ _ _ _ _ _ _ _ h]
      exact fun _ => ⟨h, rfl⟩
    · cases blocksGo env (runBlocks env n) src only 0 [] bs sh inh with
      | ok x sh' inh' => exact fun h' => absurd h' h
      | panic p => trivial
      | oof => trivial

/-- The operations that do not withdraw the exit mark. -/
def NoUnexit : Op → Prop
  | .setExit b => b = true
  | _ => True

theorem stopped_steps : StepsE NoUnexit Stopped where
  refl _ := fun h => ⟨h, rfl⟩
  trans _ _ _ h1 h2 := fun h => ⟨(h2 (h1 h).1).1, (h2 (h1 h).1).2.trans (h1 h).2⟩
  indir _ _ := fun h => ⟨h, rfl⟩
  unmatched _ _ := fun h => ⟨h, rfl⟩
  err _ _ _ := fun h => ⟨h, rfl⟩
  world _ _ := fun h => ⟨h, rfl⟩
  flags _ _ := fun h => ⟨h, rfl⟩
  status _ _ _ _ := fun h => ⟨h, rfl⟩
  exit _ _ hb := fun _ => ⟨hb, rfl⟩
  redirectJs _ _ := fun h => ⟨h, rfl⟩
  alreadyJs _ := fun h => ⟨h, rfl⟩
  data _ _ _ _ _ _ := fun h => ⟨h, rfl⟩
  moveto _ _ _ _ _ _ := fun h => ⟨h, rfl⟩

/-! ### the moments of an evaluation -/

/-- `Moment R p s p' s'`: running `p` from `s`, the state is at some moment `s'`, and `p'` remains to be done. -/
inductive Spec.Moment {α : Type} (R : Rec) : Prog α → St → Prog α → St → Prop
  | now (p : Prog α) (s : St) : Moment R p s p s
  | step {o : Op} {k : o.Resp → Prog α} {s s1 s' : St} {r : o.Resp} {p' : Prog α} :
      step R o s = .ok r s1 → Moment R (k r) s1 p' s' → Moment R (.op o k) s p' s'

/-- `Started sh inh raw only name s`: the BIF `raw` (called `name`) starts, in the state `s`. -/
inductive Spec.Started (sh : Shared) (inh : Inherit) (raw only : Str) : Str → St → Prop
  | mk {full src name : Str} {b : BifS} : sh.count < sh.max → bifSplit raw = some (full, src) →
      (only = [] ∨ contains only full = true ∨ inh.inOnly = true) →
      setModifiers { BifS.new with src := src } full = some (b, name) →
      Started sh inh raw only name
        ⟨{ sh with count := sh.count + 1 }, { inh with bifCount := sh.count + 1, inOnly := true },
          { b with name := name, alias := name }, raw, only⟩

/-- The child blocks an operation evaluates: source and blocks. -/
def Spec.childOf (o : Op) : Option (Str × List (Nat × Nat)) :=
  match o with
  | .child src _ => match extractBlocks src with
    | .ok bs => some (src, bs)
    | .error _ => none
  | .childBlocks src bs _ => some (src, bs)
  | _ => none

/-- The state in which an operation evaluates its child. -/
def Spec.childStart (s : St) (o : Op) : Shared :=
  match o with
  | .child _ true => (createBlockSchema s.sh s.inh).1
  | .childBlocks _ _ true => (createBlockSchema s.sh s.inh).1
  | _ => s.sh

/-- `Within env n src only prevEnd bs sh inh m`: `m` is the shared state at some moment of the evaluation of the blocks
`bs` of `src`: before or after one of the BIFs, in the middle of one of them, or likewise in a block nested in one of them.
No `{:!exit; ... :}` is in progress at that moment. -/
inductive Spec.Within (env : Env) : Nat → Str → Str → List (Nat × Nat) → Shared → Inherit → Shared → Prop
  | now {n : Nat} {src only : Str} {bs : List (Nat × Nat)} {sh : Shared} {inh : Inherit} : Within env n src only bs sh inh sh
  | skip {n : Nat} {src only : Str} {b e : Nat} {bs : List (Nat × Nat)} {sh m : Shared} {inh : Inherit} :
      sh.exit = false →
      (startsWith c!"{:*" (slice src b e) || (inh.lastCoalesceOut && inh.alias = c!"coalesce")) = true →
      Within env n src only bs sh inh m → Within env n src only ((b, e) :: bs) sh inh m
  | later {n : Nat} {src only x : Str} {b e : Nat} {bs : List (Nat × Nat)} {sh sh' m : Shared} {inh inh' : Inherit} :
      sh.exit = false →
      (startsWith c!"{:*" (slice src b e) || (inh.lastCoalesceOut && inh.alias = c!"coalesce")) = false →
      runBif env (runBlocks env n) sh inh (slice src b e) only = .ok x sh' inh' →
      Within env n src only bs sh' inh' m → Within env n src only ((b, e) :: bs) sh inh m
  | inside {n : Nat} {src only name : Str} {b e : Nat} {bs : List (Nat × Nat)} {sh : Shared} {inh : Inherit} {s s1 : St}
      {p : Prog Unit} :
      sh.exit = false →
      (startsWith c!"{:*" (slice src b e) || (inh.lastCoalesceOut && inh.alias = c!"coalesce")) = false →
      Started sh inh (slice src b e) only name s →
      (name = c!"exit" → s.b.modNegate = false) →
      Moment (runBlocks env n) (bifBody env name) s p s1 →
      Within env n src only ((b, e) :: bs) sh inh s1.sh
  | nested {n : Nat} {src only name : Str} {b e : Nat} {bs : List (Nat × Nat)} {sh m : Shared} {inh : Inherit} {s s1 : St}
      {o : Op} {k : o.Resp → Prog Unit} {csrc : Str} {cbs : List (Nat × Nat)} :
      sh.exit = false →
      (startsWith c!"{:*" (slice src b e) || (inh.lastCoalesceOut && inh.alias = c!"coalesce")) = false →
      Started sh inh (slice src b e) only name s →
      (name = c!"exit" → s.b.modNegate = false) →
      Moment (runBlocks env (n + 1)) (bifBody env name) s (.op o k) s1 →
      childOf o = some (csrc, cbs) →
      Within env n csrc only cbs (childStart s1 o) (childInherit s1) m →
      Within env (n + 1) src only ((b, e) :: bs) sh inh m

/-! ### the proof -/

/-- What is known about the response to an operation, when all states satisfy `Q`. -/
def GoodResp (Q : St → Prop) : (o : Op) → o.Resp → Prop
  | .get, s => Q s
  | _, _ => True

/-- The operations of a program satisfy `P`, as long as the states it sees satisfy `Q`. -/
def GuardIn (Q : St → Prop) (P : Op → Prop) {α : Type} : Prog α → Prop
  | .pure _ => True
  | .throw _ => True
  | .panic _ => True
  | .op o k => P o ∧ ∀ r, GoodResp Q o r → GuardIn Q P (k r)

theorem guard_ops {Q : St → Prop} {P : Op → Prop} {α : Type} {p : Prog α} (h : OpsIn P p) : GuardIn Q P p := by
  induction p with
  | op o k ih => exact ⟨h.1, fun r _ => ih r (h.2 r)⟩
  | _ => trivial

theorem guard_bind {Q : St → Prop} {P : Op → Prop} {α β : Type} {p : Prog α} {f : α → Prog β} (hp : GuardIn Q P p)
    (hf : ∀ a, GuardIn Q P (f a)) : GuardIn Q P (p >>= f) := by
  change GuardIn Q P (p.bind f)
  induction p with
  | pure a => exact hf a
  | op o k ih => exact ⟨hp.1, fun r hr => ih r (hp.2 r hr)⟩
  | _ => trivial

theorem guard_get {Q : St → Prop} {P : Op → Prop} {β : Type} {f : St → Prog β} (hget : P .get)
    (hf : ∀ s, Q s → GuardIn Q P (f s)) : GuardIn Q P (getSt >>= f) := ⟨hget, fun s hs => hf s hs⟩

theorem noUnexit_of {o : Op} (h : Effects c!"code" o) : NoUnexit o := by
  cases o with
  | setExit b => rcases h with h | h <;> exact absurd h (by decide)
  | _ => trivial

theorem guard_code {Q : St → Prop} {α : Type} {p : Prog α} (h : OpsIn (Effects c!"code") p) : GuardIn Q NoUnexit p :=
  guard_ops (OpsIn_mono (fun _ => noUnexit_of) h)

theorem guard_exit {Q : St → Prop} (hQ : ∀ s, Q s → s.b.modNegate = false) : GuardIn Q NoUnexit bifExit := by
  unfold bifExit
  refine guard_bind (guard_code (eff_denyMods _)) fun _ => ?_
  refine guard_bind (guard_code eff_outUncached) fun _ => ?_
  refine guard_bind (guard_code (eff_extract _)) fun _ => ?_
  refine guard_bind (guard_code eff_denyFlags) fun _ => ?_
  refine guard_bind (guard_code (eff_parseCode _)) fun _ => ?_
  refine guard_get trivial fun s hs => ?_
  refine guard_bind (p := perform _) ⟨trivial, fun _ _ => trivial⟩ fun _ => ?_
  refine ⟨?_, fun _ _ => trivial⟩
  change (!s.b.modNegate) = true
  rw [hQ s hs]
  rfl

theorem guard_redirect {Q : St → Prop} (neg : Bool) (hQ : ∀ s, Q s → s.b.modNegate = neg) : GuardIn Q NoUnexit bifRedirect := by
  unfold bifRedirect
  cases neg with
  | true =>
    refine ⟨trivial, fun s hs => ?_⟩
    have : (s.b.modFilter || s.b.modScope || s.b.modNegate) = true := by rw [hQ s hs]; simp
    change GuardIn Q NoUnexit (Prog.bind (if (s.b.modFilter || s.b.modScope || s.b.modNegate) = true then _ else _) _)
    rw [if_pos this]
    exact ⟨trivial, fun _ _ => trivial⟩
  | false =>
    refine guard_bind (guard_code (eff_denyMods _)) fun _ => ?_
    refine guard_bind (guard_code eff_outUncached) fun _ => ?_
    refine guard_bind (guard_code (eff_extract _)) fun _ => ?_
    refine guard_bind (guard_code eff_denyFlags) fun _ => ?_
    refine guard_bind (guard_code (eff_parseCode _)) fun _ => ?_
    refine guard_get trivial fun s hs => ?_
    split
    · exact guard_code (eff_error _)
    · refine guard_bind ?_ fun _ => ?_
      · split
        · exact ⟨trivial, fun _ _ => trivial⟩
        · trivial
      refine guard_bind (p := perform _) ⟨trivial, fun _ _ => trivial⟩ fun _ => ?_
      refine ⟨?_, fun _ _ => trivial⟩
      change (!s.b.modNegate) = true
      rw [hQ s hs]
      rfl

/-- The body of a BIF other than `!exit` never withdraws the exit mark. -/
theorem guard_body (env : Env) (name : Str) (s0 : St) (hne : name = c!"exit" → s0.b.modNegate = false) :
    GuardIn (fun s => s.b.modNegate = s0.b.modNegate) NoUnexit (bifBody env name) := by
  by_cases h1 : name = c!"exit"
  · subst h1
    exact guard_exit (fun s hs => hs.trans (hne rfl))
  · by_cases h2 : name = c!"redirect"
    · subst h2
      exact guard_redirect s0.b.modNegate (fun s hs => hs)
    · refine guard_ops (OpsIn_mono ?_ (effects env name))
      intro o ho
      cases o with
      | setExit b =>
        rcases ho with ho | ho
        · exact absurd ho h1
        · exact absurd ho h2
      | _ => trivial

theorem goodResp_step {R : Rec} {n : Str} {o : Op} {s s' s0 : St} {r : o.Resp} (he : Effects n o)
    (hs : s.b.modNegate = s0.b.modNegate) (h : step R o s = .ok r s') :
    GoodResp (fun s => s.b.modNegate = s0.b.modNegate) o r ∧ s'.b.modNegate = s0.b.modNegate := by
  refine ⟨?_, (step_sameBif R n o s r s' he h).modNegate.trans hs⟩
  cases o with
  | get =>
    simp only [step, ORes.ok.injEq] at h
    rw [← h.1]
    exact hs
  | _ => trivial

theorem guard_run {R : Rec} (hR : RecRel Stopped R) (n : Str) (s0 : St) {α : Type} (p : Prog α) :
    GuardIn (fun s => s.b.modNegate = s0.b.modNegate) NoUnexit p → OpsIn (Effects n) p → ∀ s, s.b.modNegate = s0.b.modNegate →
      (run R p s).Post (fun s' => Stopped s.sh s'.sh) := by
  induction p with
  | pure a => intro _ _ s _; exact fun h => ⟨h, rfl⟩
  | throw e => intro _ _ s _; exact fun h => ⟨h, rfl⟩
  | panic p => intro _ _ s _; trivial
  | op o k ih =>
    intro hg he s hs
    simp only [run]
    cases hst : step R o s with
    | ok r s1 =>
      have h1 := goodResp_step he.1 hs hst
      have h2 := ih r (hg.2 r h1.1) (he.2 r) s1 h1.2
      have h3 := step_rel stopped_steps.toSteps hR o s r s1 hg.1 hst
      dsimp only
      revert h2
      cases run R (k r) s1 with
      | ok a s2 => exact fun h2 => stopped_steps.trans _ _ _ h3 h2
      | err e s2 => exact fun h2 => stopped_steps.trans _ _ _ h3 h2
      | panic p => exact fun _ => trivial
      | oof => exact fun _ => trivial
    | panic p => trivial
    | oof => trivial

theorem guard_moment {n : Str} {s0 : St} {α : Type} {R : Rec} {p p' : Prog α} {s s' : St} (hm : Moment R p s p' s')
    (hs : s.b.modNegate = s0.b.modNegate)
    (hg : GuardIn (fun s => s.b.modNegate = s0.b.modNegate) NoUnexit p) (hp : OpsIn (Effects n) p) :
    s'.b.modNegate = s0.b.modNegate ∧ GuardIn (fun s => s.b.modNegate = s0.b.modNegate) NoUnexit p' ∧ OpsIn (Effects n) p' := by
  induction hm with
  | now => exact ⟨hs, hg, hp⟩
  | step h _ ih =>
    have h1 := goodResp_step hp.1 hs h
    exact ih h1.2 (hg.2 _ h1.1) (hp.2 _)

theorem run_moment {α : Type} {R : Rec} {p p' : Prog α} {s s' : St} (hm : Moment R p s p' s') : run R p s = run R p' s' := by
  induction hm with
  | now => rfl
  | step h _ ih => simp only [run, h]; exact ih

theorem moment_next {α : Type} {R : Rec} {p : Prog α} {s s1 s2 : St} {o : Op} {k : o.Resp → Prog α} {r : o.Resp}
    (hm : Moment R p s (.op o k) s1) (h : step R o s1 = .ok r s2) : Moment R p s (k r) s2 := by
  generalize hq : Prog.op o k = q at hm
  induction hm with
  | now => subst hq; exact .step h (.now _ _)
  | step h' _ ih => exact .step h' (ih h hq)

/-- From any moment of the body of a BIF other than `!exit`, the exit mark stays and no BIF is counted. -/
theorem stopped_body {R : Rec} (hR : RecRel Stopped R) (env : Env) {name : Str} {s s1 : St} {p : Prog Unit}
    (hne : name = c!"exit" → s.b.modNegate = false) (hm : Moment R (bifBody env name) s p s1) :
    (run R p s1).Post (fun s' => Stopped s1.sh s'.sh) := by
  obtain ⟨h1, h2, h3⟩ := guard_moment (s0 := s) hm rfl (guard_body env name s hne) (effects env name)
  exact guard_run hR name s p h2 h3 s1 h1

theorem runBif_started {env : Env} {R : Rec} {sh : Shared} {inh : Inherit} {raw only name : Str} {s : St}
    (h : Started sh inh raw only name s) : runBif env R sh inh raw only = bifResult env (run R (bifBody env name) s) := by
  cases h with
  | @mk full src name b hmax hsp hsel hset =>
    unfold runBif
    rw [if_neg (by omega)]
    unfold bifParse
    rw [hsp]
    dsimp only
    rw [if_neg (by
      rcases hsel with h | h | h
      · subst h; simp
      · rw [h]; simp
      · rw [h]; simp), hset]

theorem stopped_bifResult (env : Env) {m : Shared} {r : Res Unit} {x : Str} {sh' : Shared} {inh' : Inherit}
    (hr : r.Post (fun s' => Stopped m s'.sh)) (h : bifResult env r = .ok x sh' inh') : Stopped m sh' := by
  have := bifResult_post stopped_steps env hr
  rw [h] at this
  exact this

theorem stopped_rest {env : Env} {R : Rec} {src only : Str} {prevEnd : Nat} {out : Str} {bs : List (Nat × Nat)} {sh sh' m : Shared}
    {inh inh' : Inherit} {x : Str} (hm : Stopped m sh)
    (h : blocksGo env R src only prevEnd out bs sh inh = .ok x sh' inh') : Stopped m sh' := by
  intro he
  rw [C23_block env R src only out prevEnd bs sh inh (hm he).1] at h
  simp only [PRes.ok.injEq] at h
  rw [← h.2.1]
  exact hm he

/-- The child evaluated by an operation. -/
theorem step_child {R : Rec} {o : Op} {s s' : St} {r : o.Resp} {csrc : Str} {cbs : List (Nat × Nat)}
    (hc : childOf o = some (csrc, cbs)) (h : step R o s = .ok r s') :
    ∃ x sh' inh' f, R (childStart s o) (childInherit s) csrc cbs s.only = .ok x sh' inh' ∧ s'.sh = { sh' with indir := f } := by
  have key : ∀ (scope : Bool) (f : Shared → Inherit → PRes) (x : Str), runChild s scope f = .ok x s' →
      ∃ y sh' inh' g, f (if scope then (createBlockSchema s.sh s.inh).1 else s.sh) (childInherit s) = .ok y sh' inh' ∧
        s'.sh = { sh' with indir := g } := by
    intro scope f x h
    unfold runChild at h
    dsimp only at h
    cases scope with
    | false =>
      simp only [Bool.false_eq_true, if_false] at h ⊢
      split at h
      · next o sh2 ci2 he =>
        simp only [ORes.ok.injEq] at h
        obtain ⟨g, hg⟩ := dropBlock_sh sh2 ci2
        exact ⟨_, _, _, g, he, by rw [← h.2]; exact hg⟩
      · simp at h
      · simp at h
    | true =>
      simp only [if_true] at h ⊢
      split at h
      · next o sh2 ci2 he =>
        simp only [ORes.ok.injEq] at h
        obtain ⟨g1, hg1⟩ := updateIndir_sh sh2 ci2.indir (createBlockSchema s.sh s.inh).2.indir
        obtain ⟨g, hg⟩ := dropBlock_sh { sh2 with indir := g1 } ci2
        exact ⟨_, _, _, g, he, by rw [← h.2]; simp only [hg1]; exact hg⟩
      · simp at h
      · simp at h
  cases o with
  | child src scope =>
    simp only [step] at h
    obtain ⟨y, sh', inh', g, h1, h2⟩ := key scope _ _ h
    simp only [childOf] at hc
    unfold parseSrc at h1
    split at hc
    · next bs hbs =>
      simp only [Option.some.injEq, Prod.mk.injEq] at hc
      rw [hbs] at h1
      dsimp only at h1
      rw [hc.1, hc.2] at h1
      refine ⟨y, sh', inh', g, ?_, h2⟩
      cases scope <;> exact h1
    · simp at hc
  | childBlocks src bs scope =>
    simp only [step] at h
    obtain ⟨y, sh', inh', g, h1, h2⟩ := key scope _ _ h
    simp only [childOf, Option.some.injEq, Prod.mk.injEq] at hc
    rw [hc.1, hc.2] at h1
    refine ⟨y, sh', inh', g, ?_, h2⟩
    cases scope <;> exact h1
  | _ => simp [childOf] at hc

theorem only_moment {n : Str} {α : Type} {R : Rec} {p p' : Prog α} {s s' : St} (hm : Moment R p s p' s')
    (hp : OpsIn (Effects n) p) : s'.only = s.only := by
  induction hm with
  | now => rfl
  | step h _ ih => exact (ih (hp.2 _)).trans (step_sameBif R n _ _ _ _ hp.1 h).only

/-- **C23 (partial).** Take any moment of the evaluation of a block, at any depth of nesting, at which the exit mark is set
and no `{:!exit; ... :}` is in progress: when the evaluation of the block ends, the exit mark is still set and no BIF
has been executed since (in this block, the nested ones and, applying this to them, the enclosing ones).
Missing from the full statement: `{:!exit; ... :}` in progress withdraws the mark (`C23_refuted`), and a BIF in progress
still completes its own effect (`C23_completes`). -/
theorem C23_partial (env : Env) (n : Nat) (src only x : Str) (bs : List (Nat × Nat)) (sh sh' m : Shared) (inh inh' : Inherit)
    (hw : Within env n src only bs sh inh m) (prevEnd : Nat) (out : Str)
    (h : blocksGo env (runBlocks env n) src only prevEnd out bs sh inh = .ok x sh' inh') (hm : m.exit = true) :
    sh'.exit = true ∧ sh'.count = m.count := by
  suffices Stopped m sh' from this hm
  clear hm
  induction hw generalizing prevEnd out x sh' inh' with
  | now => exact stopped_rest (fun h => ⟨h, rfl⟩) h
  | skip hex hskip _ ih =>
    simp only [blocksGo, hex, hskip, Bool.false_eq_true, if_false, if_true] at h
    exact ih _ _ _ _ _ h
  | later hex hskip hrun _ ih =>
    simp only [blocksGo, hex, hskip, Bool.false_eq_true, if_false, hrun] at h
    exact ih _ _ _ _ _ h
  | @inside n src only name b e bs sh inh s s1 p hex hskip hst hne hmom =>
    simp only [blocksGo, hex, hskip, Bool.false_eq_true, if_false] at h
    split at h
    · next y sh1 inh1 hrun =>
      refine stopped_rest ?_ h
      rw [runBif_started hst, run_moment hmom] at hrun
      exact stopped_bifResult env (stopped_body (stopped_rec env n) env hne hmom) hrun
    · simp at h
    · simp at h
  | @nested n src only name b e bs sh m inh s s1 o k csrc cbs hex hskip hst hne hmom hchild _ ih =>
    simp only [blocksGo, hex, hskip, Bool.false_eq_true, if_false] at h
    split at h
    · next y sh1 inh1 hrun =>
      refine stopped_rest ?_ h
      have honly : s1.only = only := by
        rw [only_moment hmom (effects env name)]
        cases hst; rfl
      rw [runBif_started hst, run_moment hmom] at hrun
      simp only [run] at hrun
      cases hstep : step (runBlocks env (n + 1)) o s1 with
      | ok r s2 =>
        rw [hstep] at hrun
        obtain ⟨z, sh2, inh2, f, h1, h2⟩ := step_child hchild hstep
        rw [honly] at h1
        have h3 := ih _ _ _ 0 [] h1
        have h4 : Stopped m s2.sh := by
          intro he
          rw [h2]
          exact h3 he
        have hmom2 : Moment (runBlocks env (n + 1)) (bifBody env name) s (k r) s2 := moment_next hmom hstep
        have h5 := stopped_body (stopped_rec env (n + 1)) env hne hmom2
        refine stopped_bifResult env ?_ hrun
        dsimp only
        revert h5
        cases run (runBlocks env (n + 1)) (k r) s2 with
        | ok a s3 => exact fun h5 => stopped_steps.trans _ _ _ h4 h5
        | err e s3 => exact fun h5 => stopped_steps.trans _ _ _ h4 h5
        | panic p => exact fun _ => trivial
        | oof => exact fun _ => trivial
      | panic p => rw [hstep] at hrun; simp [bifResult] at hrun
      | oof => rw [hstep] at hrun; simp [bifResult] at hrun
    · simp at h
    · simp at h

/-- **C23 (second pass).** When the first pass ends with the exit mark, the passes over `{:!cache; ... :}` execute no BIF
and keep the mark. -/
theorem C23_cache (env : Env) (inh : Inherit) (n : Nat) : ∀ (sh sh' : Shared) (out x : Str) (inh' : Inherit), sh.exit = true →
    cacheLoop env inh n sh out = .ok x sh' inh' → sh'.exit = true ∧ sh'.count = sh.count := by
  induction n with
  | zero =>
    intro sh sh' out x inh' he h
    simp only [cacheLoop] at h
    split at h
    · simp at h
    · simp only [PRes.ok.injEq] at h; rw [← h.2.1]; exact ⟨he, rfl⟩
  | succ n ih =>
    intro sh sh' out x inh' he h
    simp only [cacheLoop] at h
    split at h
    · split at h
      · next o sh1 inh1 hp =>
        have h1 : Stopped sh sh1 := by
          unfold pass at hp
          have := parseSrc_post stopped_steps.toSteps (stopped_rec env (sh.max + 1)) sh { inh with blockCount := inh.blockCount + 1 } out c!"!cache"
          split at hp
          · next o2 sh2 inh2 hp2 =>
            rw [hp2] at this
            simp only [PRes.ok.injEq] at hp
            obtain ⟨g, hg⟩ := dropBlock_sh sh2 inh2
            intro he
            rw [← hp.2.1, hg]
            exact this he
          · simp at hp
          · simp at hp
        have h2 := ih sh1 sh' o x inh' (h1 he).1 h
        exact ⟨h2.1, h2.2.trans (h1 he).2⟩
      · simp at h
      · simp at h
    · simp only [PRes.ok.injEq] at h; rw [← h.2.1]; exact ⟨he, rfl⟩

theorem named_exit : Named c!"exit" := by
  refine ⟨by decide, ?_⟩
  intro c r hc
  injection hc with h1 h2
  subst h1
  decide

/-- The state after `exit` with a status code and a parameter. -/
def Spec.exited (sh : Shared) (neg : Bool) (status param : Str) : Shared :=
  { sh with statusCode := status, statusParam := param, statusText := statusTextOf status, exit := !neg }

/-- **C23 (effect).** What `{:exit; status :}` and `{:exit; status >> param :}` do, once parameters and code have been
evaluated: the status is set (200 when none is given), and the exit mark (not with `!`); nothing else changes and nothing
is printed (inside a cached block the BIF itself is kept, for the second pass). -/
theorem C23_effect (env : Env) (R : Rec) (sh sh1 sh2 : Shared) (inh inh1 inh2 : Inherit) (mods src only c params code : Str)
    (p : Option Str) (hm : Mods mods) (hf : '&' ∉ mods ∧ '+' ∉ mods) (hmax : sh.count < sh.max)
    (hsel : Selected inh mods c!"exit" only) (hp : Parts src p c)
    (hev : evalParams R (counted sh) (entered sh inh) c!"exit" (p.getD []) only = .ok params sh1 inh1)
    (hfl : flagsOf sh1 (p.getD []) = [])
    (hcode : nested R false sh1 inh1 c!"exit" c only = .ok code sh2 inh2) :
    runBif env R sh inh (bifText mods c!"exit" src) only =
      finish (decide ('^' ∈ mods)) (uncached inh (bifText mods c!"exit" src))
        (match p with
          | none => exited sh2 (decide ('!' ∈ mods)) (if code = [] then c!"200" else code) []
          | some _ => exited sh2 (decide ('!' ∈ mods)) (if params = [] then c!"200" else params) code) inh2 := by
  rw [runBif_text env R sh inh mods c!"exit" src only hm named_exit hmax hsel]
  have hbody : bifBody env c!"exit" = bifExit := rfl
  rw [hbody]
  unfold bifExit
  simp only [run_bind, run_denyMods]
  rw [if_neg (by simp [start, hf.1, hf.2])]
  simp only [andThen_ok, outUncached, run_bind, run_getSt, run_setOut]
  rw [run_extract R hp _ rfl rfl rfl rfl]
  change bifResult env (Res.andThen (match evalParams R (counted sh) (entered sh inh) c!"exit" (p.getD []) only with
    | .ok x sh' inh' => _
    | .panic p => _
    | .oof => _) _) = _
  rw [hev]
  simp only [andThen_ok, run_denyFlags, hfl, List.isEmpty_nil, if_true]
  rw [run_parseCode_nested R _ _ rfl rfl]
  change bifResult env (Res.andThen (match nested R false sh1 inh1 c!"exit" c only with
    | .ok x sh' inh' => _
    | .panic p => _
    | .oof => _) _) = _
  rw [hcode]
  simp only [andThen_ok, run_getSt, run_op_setStatus, step, toRes_ok, run_op_setExit]
  cases p with
  | none => cases code <;> rfl
  | some q => cases params <;> rfl

/-- Nothing after an exit at depth two is evaluated (only trailing text of the blocks it ends is printed), and the moment
after the exit is one the theorem speaks about. -/
example : Sample.outOf (Sample.go [(c!"x", .str c!"X")] c!"a{:code; b{:code; c{:exit; 202 :}d{:;x:}e :}f{:;x:}g :}h{:;x:}i") =
    some (c!"abc", c!"202") := by decide +kernel

/-- The mark is set at a moment of this evaluation: after its first BIF, when another one remains. -/
example : ∃ m, Within Sample.env 3 c!"{:exit; 202 :}{:;x:}" [] [(0, 14), (14, 20)] (Sample.shared (Sample.schema 9 [] Sample.inherit))
    Inherit.new m ∧ m.exit = true := by
  have h : ∃ sh' inh', runBif Sample.env (runBlocks Sample.env 3) (Sample.shared (Sample.schema 9 [] Sample.inherit)) Inherit.new
      (slice c!"{:exit; 202 :}{:;x:}" 0 14) [] = .ok [] sh' inh' ∧ sh'.exit = true := ⟨_, _, rfl, rfl⟩
  obtain ⟨sh', inh', h1, h2⟩ := h
  exact ⟨sh', .later rfl rfl h1 .now, h2⟩

/-- The full statement is false: `{:!exit; ... :}` withdraws an exit made while computing its status code, and everything
after it is evaluated. -/
theorem C23_refuted :
    Sample.outOf (Sample.go [(c!"x", .str c!"X")] c!"{:!exit; {:exit; 202 :} :}a{:;x:}") = some (c!"aX", c!"200") := by
  decide +kernel

/-- A BIF in progress still completes its own effect: the outer exit replaces the status of the inner one. -/
theorem C23_completes :
    Sample.outOf (Sample.go [] c!"{:exit; 203 >> {:exit; 202 :} :}a") = some (c!"a", c!"203") := by
  decide +kernel

end Nts
