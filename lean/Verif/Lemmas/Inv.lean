import Verif.Model.Template
import Verif.Lemmas.Run
import Verif.Lemmas.State
/-
Relations between the shared state before and after, preserved by every execution.
-/
set_option autoImplicit false
namespace Nts

/-- Every operation a program may perform satisfies `P`. -/
def OpsIn (P : Op → Prop) {α : Type} : Prog α → Prop
  | .pure _ => True
  | .throw _ => True
  | .panic _ => True
  | .op o k => P o ∧ ∀ r, OpsIn P (k r)

theorem OpsIn_true {α : Type} (p : Prog α) : OpsIn (fun _ => True) p := by
  induction p with
  | op o k ih => exact ⟨trivial, ih⟩
  | _ => trivial

theorem OpsIn_mono {P Q : Op → Prop} (h : ∀ o, P o → Q o) {α : Type} {p : Prog α} (hp : OpsIn P p) :
    OpsIn Q p := by
  induction p with
  | op o k ih => exact ⟨h _ hp.1, fun r => ih r (hp.2 r)⟩
  | _ => trivial

theorem OpsIn_bind' {P : Op → Prop} {α β : Type} {p : Prog α} {f : α → Prog β} (hp : OpsIn P p)
    (hf : ∀ a, OpsIn P (f a)) : OpsIn P (p.bind f) := by
  induction p with
  | pure a => exact hf a
  | op o k ih => exact ⟨hp.1, fun r => ih r (hp.2 r)⟩
  | _ => trivial

theorem OpsIn_bind {P : Op → Prop} {α β : Type} {p : Prog α} {f : α → Prog β} (hp : OpsIn P p)
    (hf : ∀ a, OpsIn P (f a)) : OpsIn P (p >>= f) := OpsIn_bind' hp hf

theorem OpsIn_perform {P : Op → Prop} {o : Op} (h : P o) : OpsIn P (perform o) := ⟨h, fun _ => trivial⟩

/-- What a program leaves behind, whether it succeeds or returns an error. -/
def Res.Post {α : Type} (Q : St → Prop) : Res α → Prop
  | .ok _ s => Q s
  | .err _ s => Q s
  | .panic _ => True
  | .oof => True

/-- Likewise for blocks. -/
def PRes.Post (Q : Shared → Prop) : PRes → Prop
  | .ok _ sh _ => Q sh
  | .panic _ => True
  | .oof => True

theorem run_post (R : Rec) {P : Op → Prop} {Rel : St → St → Prop} (refl : ∀ s, Rel s s)
    (trans : ∀ a b c, Rel a b → Rel b c → Rel a c)
    (hop : ∀ o s r s', P o → step R o s = .ok r s' → Rel s s') {α : Type} (p : Prog α) :
    OpsIn P p → ∀ s, (run R p s).Post (Rel s) := by
  induction p with
  | pure a => intro _ s; exact refl s
  | throw e => intro _ s; exact refl s
  | panic p => intro _ s; trivial
  | op o k ih =>
    intro hp s
    simp only [run]
    cases hs : step R o s with
    | ok r s' =>
      have h1 := hop o s r s' hp.1 hs
      have h2 := ih r (hp.2 r) s'
      simp only
      revert h2
      generalize run R (k r) s' = res
      intro h2
      cases res with
      | ok _ s2 => exact trans _ _ _ h1 h2
      | err _ s2 => exact trans _ _ _ h1 h2
      | panic _ => trivial
      | oof => trivial
    | panic p => trivial
    | oof => trivial

/-- A preorder on shared states that every operation respects; `P` says which operations are allowed. -/
structure Steps (P : Op → Prop) (Rel : Shared → Shared → Prop) : Prop where
  refl : ∀ sh, Rel sh sh
  trans : ∀ a b c, Rel a b → Rel b c → Rel a c
  indir : ∀ (sh : Shared) f, Rel sh { sh with indir := f }
  unmatched : ∀ sh p, Rel sh (handleUnmatched sh p)
  world : ∀ (sh : Shared) w, Rel sh { sh with w := w }
  flags : ∀ (sh : Shared) f, Rel sh { sh with flags := f }
  status : ∀ (sh : Shared) c p, P (.setStatus c p) →
    Rel sh { sh with statusCode := c, statusParam := p, statusText := statusTextOf c }
  exit : ∀ (sh : Shared) b, P (.setExit b) → Rel sh { sh with exit := b }
  redirectJs : ∀ (sh : Shared) x, Rel sh { sh with redirectJs := x }
  alreadyJs : ∀ (sh : Shared), Rel sh { sh with alreadyJs := true }
  data : ∀ (sh : Shared) name v sc, P (.setData name v) →
    sh.schema.modIndex c!"data" (fun d => d.setIndex name v) = some sc → Rel sh { sh with schema := sc }
  moveto : ∀ (sh : Shared) h v sc, P (.setMoveto h v) →
    sh.schema.modIndex c!"__moveto" (fun d => d.setIndex h v) = some sc → Rel sh { sh with schema := sc }

/-- The lines the program writes to the list of errors. -/
def ErrLine (line : Str) : Prop :=
  (∃ time e, line = errorLine time e) ∨ ∃ raw, line = oneLine (c!"The delimiter was not found: " ++ raw)

/-- ... and that recording an error respects, too. -/
structure StepsE (P : Op → Prop) (Rel : Shared → Shared → Prop) : Prop extends Steps P Rel where
  err : ∀ sh line, ErrLine line → Rel sh (pushError sh line)

/-- ... and that counting a BIF, and counting a BIF that fails, respects, too. -/
structure Closed (P : Op → Prop) (Rel : Shared → Shared → Prop) : Prop extends Steps P Rel where
  count : ∀ sh : Shared, sh.count < sh.max → Rel sh { sh with count := sh.count + 1 }
  fail : ∀ (sh s : Shared) line, sh.count < sh.max → Rel { sh with count := sh.count + 1 } s → ErrLine line →
    Rel sh (pushError s line)

theorem StepsE.closed {P : Op → Prop} {Rel : Shared → Shared → Prop} (h : StepsE P Rel)
    (hc : ∀ sh : Shared, sh.count < sh.max → Rel sh { sh with count := sh.count + 1 }) : Closed P Rel :=
  { h.toSteps with
    count := hc
    fail := fun sh s line hlt hr hl => h.trans _ _ _ (hc sh hlt) (h.trans _ _ _ hr (h.err s line hl)) }

/-- The relation holds across the recursive call. -/
def RecRel (Rel : Shared → Shared → Prop) (R : Rec) : Prop :=
  ∀ sh inh src bs only, (R sh inh src bs only).Post (Rel sh)

theorem oresOpt_ok {o : Option St} {s' : St} (h : oresOpt o = .ok () s') : o = some s' := by
  cases o with
  | none => simp [oresOpt] at h
  | some s => simp only [oresOpt, ORes.ok.injEq, true_and] at h; rw [h]

theorem parseSrc_post {Rel : Shared → Shared → Prop} {P : Op → Prop} (hc : Steps P Rel) {R : Rec}
    (hR : RecRel Rel R) (sh : Shared) (inh : Inherit) (src only : Str) :
    (parseSrc R sh inh src only).Post (Rel sh) := by
  unfold parseSrc
  split
  · exact hc.unmatched _ _
  · exact hR _ _ _ _ _

theorem runChild_post {Rel : Shared → Shared → Prop} {P : Op → Prop} (hc : Steps P Rel)
    {f : Shared → Inherit → PRes} (hf : ∀ sh inh, (f sh inh).Post (Rel sh)) {s s' : St} {scope : Bool} {out : Str}
    (h : runChild s scope f = .ok out s') : Rel s.sh s'.sh := by
  unfold runChild at h
  dsimp only at h
  cases scope with
  | false =>
    simp only [if_false, Bool.false_eq_true] at h
    have h1 := hf s.sh (childInherit s)
    split at h
    · next o sh2 ci2 he =>
      rw [he] at h1
      simp only [ORes.ok.injEq] at h
      obtain ⟨_, rfl⟩ := h
      obtain ⟨g, hg⟩ := dropBlock_sh sh2 ci2
      simp only [hg]
      exact hc.trans _ _ _ h1 (hc.indir _ _)
    · simp at h
    · simp at h
  | true =>
    simp only [if_true] at h
    have h1 := hf (createBlockSchema s.sh s.inh).1 (childInherit s)
    obtain ⟨g0, hg0⟩ := createBlockSchema_sh s.sh s.inh
    split at h
    · next o sh2 ci2 he =>
      rw [he] at h1
      simp only [ORes.ok.injEq] at h
      obtain ⟨_, rfl⟩ := h
      obtain ⟨g1, hg1⟩ := updateIndir_sh sh2 ci2.indir (createBlockSchema s.sh s.inh).2.indir
      obtain ⟨g2, hg2⟩ := dropBlock_sh { sh2 with indir := g1 } ci2
      simp only [hg1, hg2]
      rw [hg0] at h1
      exact hc.trans _ _ _ (hc.indir _ g0) (hc.trans _ _ _ h1
        (hc.trans _ _ _ (hc.indir _ g1) (hc.indir _ g2)))
    · simp at h
    · simp at h

theorem step_rel {Rel : Shared → Shared → Prop} {P : Op → Prop} (hc : Steps P Rel) {R : Rec}
    (hR : RecRel Rel R) (o : Op) (s : St) (r : o.Resp) (s' : St) (hP : P o) (h : step R o s = .ok r s') :
    Rel s.sh s'.sh := by
  cases o with
  | get => simp only [step, ORes.ok.injEq] at h; rw [← h.2]; exact hc.refl _
  | modB f => simp only [step, ORes.ok.injEq] at h; rw [← h.2]; exact hc.refl _
  | setInCache b => simp only [step, ORes.ok.injEq] at h; rw [← h.2]; exact hc.refl _
  | setLastCoalesce b => simp only [step, ORes.ok.injEq] at h; rw [← h.2]; exact hc.refl _
  | setCurrentDir d => simp only [step, ORes.ok.injEq] at h; rw [← h.2]; exact hc.refl _
  | pushFile k p => cases k <;> simp only [step, ORes.ok.injEq] at h <;> rw [← h.2] <;> exact hc.refl _
  | setFlags f => simp only [step, ORes.ok.injEq] at h; rw [← h.2]; exact hc.flags _ _
  | setStatus c p => simp only [step, ORes.ok.injEq] at h; rw [← h.2]; exact hc.status _ _ _ hP
  | setExit b => simp only [step, ORes.ok.injEq] at h; rw [← h.2]; exact hc.exit _ _ hP
  | setRedirectJs x => simp only [step, ORes.ok.injEq] at h; rw [← h.2]; exact hc.redirectJs _ _
  | setAlreadyJs => simp only [step, ORes.ok.injEq] at h; rw [← h.2]; exact hc.alreadyJs _
  | setData name v =>
    obtain ⟨sc, hsc, rfl⟩ := Option.map_eq_some_iff.1 (oresOpt_ok h)
    exact hc.data _ _ _ _ hP hsc
  | setMoveto name v =>
    obtain ⟨sc, hsc, rfl⟩ := Option.map_eq_some_iff.1 (oresOpt_ok h)
    exact hc.moveto _ _ _ _ hP hsc
  | createBlockSchema =>
    simp only [step, ORes.ok.injEq] at h
    rw [← h.2]
    obtain ⟨g, hg⟩ := createBlockSchema_sh s.sh s.inh
    simp only [hg]; exact hc.indir _ _
  | setIndir sec key v =>
    obtain ⟨sc, hsc, rfl⟩ := Option.map_eq_some_iff.1 (oresOpt_ok h)
    obtain ⟨g, rfl⟩ := modIndir_sh hsc
    exact hc.indir _ _
  | mergeIndir sec v =>
    obtain ⟨sc, hsc, rfl⟩ := Option.map_eq_some_iff.1 (oresOpt_ok h)
    obtain ⟨g, rfl⟩ := modIndir_sh hsc
    exact hc.indir _ _
  | tick => simp only [step, ORes.ok.injEq] at h; rw [← h.2]; exact hc.world _ _
  | writeFile a b c => simp only [step, ORes.ok.injEq] at h; rw [← h.2]; exact hc.world _ _
  | child src scope =>
    simp only [step] at h
    exact runChild_post hc (fun sh inh => parseSrc_post hc hR sh inh _ _) h
  | childBlocks src blocks scope =>
    simp only [step] at h
    exact runChild_post hc (fun sh inh => hR sh inh _ _ _) h

theorem run_rel {Rel : Shared → Shared → Prop} {P : Op → Prop} (hc : Steps P Rel) {R : Rec}
    (hR : RecRel Rel R) {α : Type} {p : Prog α} (hp : OpsIn P p) (s : St) :
    (run R p s).Post (fun s' => Rel s.sh s'.sh) :=
  run_post R (Rel := fun s s' => Rel s.sh s'.sh) (fun _ => hc.refl _) (fun _ _ _ => hc.trans _ _ _)
    (fun o s r s' hP h => step_rel hc hR o s r s' hP h) p hp s

theorem bifResult_post {Rel : Shared → Shared → Prop} {P : Op → Prop} (hc : StepsE P Rel) (env : Env)
    {sh : Shared} {r : Res Unit} (h : r.Post (fun s => Rel sh s.sh)) : (bifResult env r).Post (Rel sh) := by
  unfold bifResult
  cases r with
  | ok _ s => exact h
  | err e s =>
    simp only
    split
    · trivial
    · simp only [bifFinish, PRes.Post]
      exact hc.trans _ _ _ (hc.trans _ _ _ h (hc.world _ _)) (hc.err _ _ (.inl ⟨_, _, rfl⟩))
  | panic p => trivial
  | oof => trivial

theorem bifResult_fail {Rel : Shared → Shared → Prop} {P : Op → Prop} (hc : Closed P Rel) (env : Env)
    {sh : Shared} (hlt : sh.count < sh.max) {r : Res Unit}
    (h : r.Post (fun s => Rel { sh with count := sh.count + 1 } s.sh)) : (bifResult env r).Post (Rel sh) := by
  unfold bifResult
  cases r with
  | ok _ s => exact hc.trans _ _ _ (hc.count sh hlt) h
  | err e s =>
    simp only
    split
    · trivial
    · simp only [bifFinish, PRes.Post]
      exact hc.fail _ _ _ hlt (hc.trans _ _ _ h (hc.world _ _)) (.inl ⟨_, _, rfl⟩)
  | panic p => trivial
  | oof => trivial

theorem runBif_rel {Rel : Shared → Shared → Prop} {P : Op → Prop} (hc : Closed P Rel) {R : Rec} (env : Env)
    (hR : RecRel Rel R) (hbody : ∀ name, OpsIn P (bifBody env name)) (sh : Shared) (inh : Inherit) (raw only : Str) :
    (runBif env R sh inh raw only).Post (Rel sh) := by
  unfold runBif
  split
  · trivial
  · next hlt =>
    have hcount := hc.count sh (by omega)
    unfold bifParse
    split
    · split
      · exact hcount
      · split
        · trivial
        · exact hc.fail _ _ _ (by omega) (hc.refl _) (.inr ⟨_, rfl⟩)
    · split
      · exact hcount
      · split
        · trivial
        · next b name' _ =>
          exact bifResult_fail hc env (by omega) (run_rel hc.toSteps hR (hbody name')
            { sh := { sh with count := sh.count + 1 }, inh := { { inh with bifCount := sh.count + 1 } with inOnly := true },
              b := { b with name := name', alias := name' }, raw := raw, only := only })

theorem blocksGo_rel {Rel : Shared → Shared → Prop} {P : Op → Prop} (hc : Closed P Rel) {R : Rec} (env : Env)
    (hR : RecRel Rel R) (hbody : ∀ name, OpsIn P (bifBody env name)) (src only : Str) (bs : List (Nat × Nat)) :
    ∀ prevEnd out sh inh, (blocksGo env R src only prevEnd out bs sh inh).Post (Rel sh) := by
  induction bs with
  | nil => intro _ _ sh _; exact hc.refl sh
  | cons b r ih =>
    intro prevEnd out sh inh
    obtain ⟨s, e⟩ := b
    simp only [blocksGo]
    split
    · exact hc.refl sh
    · split
      · exact ih _ _ _ _
      · have h1 := runBif_rel hc env hR hbody sh inh (slice src s e) only
        cases hx : runBif env R sh inh (slice src s e) only with
        | ok x sh' inh' =>
          rw [hx] at h1
          have h2 := ih e ((if prevEnd < s then out ++ slice src prevEnd s else out) ++ x) sh' inh'
          simp only
          revert h2
          generalize blocksGo env R src only e _ r sh' inh' = res
          intro h2
          cases res with
          | ok o sh2 inh2 => exact hc.trans _ _ _ h1 h2
          | panic p => trivial
          | oof => trivial
        | panic p => trivial
        | oof => trivial

/-- The relation holds across the evaluation of any block, at any recursion depth. -/
theorem runBlocks_rel {Rel : Shared → Shared → Prop} {P : Op → Prop} (hc : Closed P Rel) (env : Env)
    (hbody : ∀ name, OpsIn P (bifBody env name)) (n : Nat) : RecRel Rel (runBlocks env n) := by
  induction n with
  | zero => intro sh inh src bs only; trivial
  | succ n ih => intro sh inh src bs only; exact blocksGo_rel hc env ih hbody src only bs 0 [] sh inh

/-- ... across a pass of the renderer. -/
theorem pass_rel {Rel : Shared → Shared → Prop} {P : Op → Prop} (hc : Closed P Rel) (env : Env)
    (hbody : ∀ name, OpsIn P (bifBody env name)) (sh : Shared) (inh : Inherit) (text only : Str) :
    (pass env sh inh text only).Post (Rel sh) := by
  unfold pass
  have h := parseSrc_post hc.toSteps (runBlocks_rel hc env hbody (sh.max + 1)) sh
    { inh with blockCount := inh.blockCount + 1 } text only
  split
  · next o sh' inh' he =>
    rw [he] at h
    obtain ⟨g, hg⟩ := dropBlock_sh sh' inh'
    rw [hg]
    exact hc.trans _ _ _ h (hc.indir _ _)
  · trivial
  · trivial

/-- ... across the post-processing loop. -/
theorem cacheLoop_rel {Rel : Shared → Shared → Prop} {P : Op → Prop} (hc : Closed P Rel) (env : Env)
    (hbody : ∀ name, OpsIn P (bifBody env name)) (inh : Inherit) (n : Nat) :
    ∀ sh out, (cacheLoop env inh n sh out).Post (Rel sh) := by
  induction n with
  | zero => intro sh out; simp only [cacheLoop]; split; trivial; exact hc.refl sh
  | succ n ih =>
    intro sh out
    simp only [cacheLoop]
    split
    · have h1 := pass_rel hc env hbody sh inh out c!"!cache"
      split
      · next o sh' inh' he =>
        rw [he] at h1
        have h2 := ih sh' o
        revert h2
        generalize cacheLoop env inh n sh' o = res
        intro h2
        cases res with
        | ok o sh2 inh2 => exact hc.trans _ _ _ h1 h2
        | panic p => trivial
        | oof => trivial
      · trivial
      · trivial
    · exact hc.refl sh

theorem initSharedOnce_eq : initSharedOnce = initShared := rfl

theorem renderOnceWith_eq : renderOnceWith = renderWith := rfl

/-- From the initial shared state of a render to its final one. -/
theorem renderWith_rel {Rel : Shared → Shared → Prop} {P : Op → Prop} (hc : Closed P Rel) (env : Env)
    (hbody : ∀ name, OpsIn P (bifBody env name)) {n : Nat} {t t' : Tpl} {sc : Value} {sh0 : Option Shared}
    (h : renderWith env n t sc sh0 = .ok t') :
    ∃ sh raw sh1 inh, sh0 = some sh ∧ initShared env t.filePath t.raw sh = .ok (raw, sh1, inh) ∧ Rel sh1 t'.shared := by
  unfold renderWith at h
  split at h
  · simp at h
  next sh =>
  split at h
  · simp at h
  next raw sh1 inh hi =>
  have h1 := pass_rel hc env hbody sh1 inh raw []
  split at h
  · simp at h
  · simp at h
  next o sh2 inh2 hp =>
  rw [hp] at h1
  have h2 := cacheLoop_rel hc env hbody inh n sh2 o
  split at h
  · simp at h
  · simp at h
  next o2 sh3 inh3 hl =>
  rw [hl] at h2
  split at h
  · simp at h
  · simp only [RRes.ok.injEq] at h
    subst h
    exact ⟨sh, raw, sh1, inh, rfl, hi, hc.trans _ _ _ h1 h2⟩

end Nts
