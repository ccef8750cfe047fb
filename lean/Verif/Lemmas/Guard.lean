import Verif.Lemmas.Inv
/-
As Inv.lean, for relations whose preservation depends on a fact `I` about the state in which an operation is performed
(programs know that fact about every state they read).
-/
set_option autoImplicit false
namespace Nts

/-- What is known of the answer of an operation. -/
def Answer (I : Shared → Prop) : (o : Op) → o.Resp → Prop
  | .get, s => I s.sh
  | _, _ => True

/-- Every operation a program may perform satisfies `P`, when the states it reads satisfy `I`. -/
def OpsG (I : Shared → Prop) (P : Op → Prop) {α : Type} : Prog α → Prop
  | .pure _ => True
  | .throw _ => True
  | .panic _ => True
  | .op o k => P o ∧ ∀ r, Answer I o r → OpsG I P (k r)

theorem OpsG_of {I : Shared → Prop} {P : Op → Prop} {α : Type} {p : Prog α} (h : OpsIn P p) : OpsG I P p := by
  induction p with
  | op o k ih => exact ⟨h.1, fun r _ => ih r (h.2 r)⟩
  | _ => trivial

theorem OpsG_bind' {I : Shared → Prop} {P : Op → Prop} {α β : Type} {p : Prog α} {f : α → Prog β} (hp : OpsG I P p)
    (hf : ∀ a, OpsG I P (f a)) : OpsG I P (p.bind f) := by
  induction p with
  | pure a => exact hf a
  | op o k ih => exact ⟨hp.1, fun r hr => ih r (hp.2 r hr)⟩
  | _ => trivial

theorem OpsG_bind {I : Shared → Prop} {P : Op → Prop} {α β : Type} {p : Prog α} {f : α → Prog β} (hp : OpsG I P p)
    (hf : ∀ a, OpsG I P (f a)) : OpsG I P (p >>= f) := OpsG_bind' hp hf

theorem OpsG_get {I : Shared → Prop} {P : Op → Prop} {β : Type} {f : St → Prog β} (hg : P .get)
    (hf : ∀ s, I s.sh → OpsG I P (f s)) : OpsG I P (getSt >>= f) := ⟨hg, fun r hr => hf r hr⟩

theorem OpsG_perform {I : Shared → Prop} {P : Op → Prop} {o : Op} (h : P o) : OpsG I P (perform o) :=
  ⟨h, fun _ _ => trivial⟩

/-- A preorder on shared states that every allowed operation respects in states satisfying `I`, and that keeps `I`. -/
structure GSteps (I : Shared → Prop) (P : Op → Prop) (Rel : Shared → Shared → Prop) : Prop where
  refl : ∀ sh, Rel sh sh
  trans : ∀ a b c, Rel a b → Rel b c → Rel a c
  keep : ∀ a b, I a → Rel a b → I b
  indir : ∀ (sh : Shared) f, Rel sh { sh with indir := f }
  unmatched : ∀ sh p, Rel sh (handleUnmatched sh p)
  err : ∀ sh line, Rel sh (pushError sh line)
  tick : ∀ (sh : Shared) n, Rel sh { sh with w := { sh.w with tick := n } }
  write : ∀ (sh : Shared) path content mtime, I sh → P (.writeFile path content mtime) →
    Rel sh { sh with w := { sh.w with fs := fun x => if x = path then some ⟨some content, mtime, true⟩ else sh.w.fs x } }
  flags : ∀ (sh : Shared) f, Rel sh { sh with flags := f }
  status : ∀ (sh : Shared) c p, I sh → P (.setStatus c p) →
    Rel sh { sh with statusCode := c, statusParam := p, statusText := statusTextOf c }
  exit : ∀ (sh : Shared) b, I sh → P (.setExit b) → Rel sh { sh with exit := b }
  redirectJs : ∀ (sh : Shared) x, I sh → P (.setRedirectJs x) → Rel sh { sh with redirectJs := x }
  alreadyJs : ∀ (sh : Shared), Rel sh { sh with alreadyJs := true }
  data : ∀ (sh : Shared) name v sc, I sh → P (.setData name v) →
    sh.schema.modIndex c!"data" (fun d => d.setIndex name v) = some sc → Rel sh { sh with schema := sc }
  moveto : ∀ (sh : Shared) h v sc, I sh → P (.setMoveto h v) →
    sh.schema.modIndex c!"__moveto" (fun d => d.setIndex h v) = some sc → Rel sh { sh with schema := sc }
  count : ∀ sh : Shared, sh.count < sh.max → Rel sh { sh with count := sh.count + 1 }

/-- The relation holds across the recursive call. -/
def GRec (I : Shared → Prop) (Rel : Shared → Shared → Prop) (R : Rec) : Prop :=
  ∀ sh inh src bs only, I sh → (R sh inh src bs only).Post (Rel sh)

section
variable {I : Shared → Prop} {P : Op → Prop} {Rel : Shared → Shared → Prop}

theorem parseSrc_g (hc : GSteps I P Rel) {R : Rec} (hR : GRec I Rel R) (sh : Shared) (inh : Inherit) (src only : Str)
    (hI : I sh) : (parseSrc R sh inh src only).Post (Rel sh) := by
  unfold parseSrc
  split
  · exact hc.unmatched _ _
  · exact hR _ _ _ _ _ hI

theorem runChild_g (hc : GSteps I P Rel) {f : Shared → Inherit → PRes}
    (hf : ∀ sh inh, I sh → (f sh inh).Post (Rel sh)) {s s' : St} {scope : Bool} {out : Str} (hI : I s.sh)
    (h : runChild s scope f = .ok out s') : Rel s.sh s'.sh := by
  unfold runChild at h
  dsimp only at h
  cases scope with
  | false =>
    simp only [if_false, Bool.false_eq_true] at h
    have h1 := hf s.sh (childInherit s) hI
    split at h
    · next o sh2 ci2 he =>
      rw [he] at h1
      simp only [ORes.ok.injEq] at h
      obtain ⟨_, rfl⟩ := h
      obtain ⟨g, hg⟩ := dropBlock_sh sh2 ci2
      simp only [hg]
      exact hc.trans _ _ _ h1 (hc.indir _ _)
    · simp at h
    · simp at h
  | true =>
    simp only [if_true] at h
    obtain ⟨g0, hg0⟩ := createBlockSchema_sh s.sh s.inh
    have h1 := hf (createBlockSchema s.sh s.inh).1 (childInherit s)
      (hc.keep _ _ hI (by rw [hg0]; exact hc.indir _ _))
    split at h
    · next o sh2 ci2 he =>
      rw [he] at h1
      simp only [ORes.ok.injEq] at h
      obtain ⟨_, rfl⟩ := h
      obtain ⟨g1, hg1⟩ := updateIndir_sh sh2 ci2.indir (createBlockSchema s.sh s.inh).2.indir
      obtain ⟨g2, hg2⟩ := dropBlock_sh { sh2 with indir := g1 } ci2
      simp only [hg1, hg2]
      rw [hg0] at h1
      exact hc.trans _ _ _ (hc.indir _ g0) (hc.trans _ _ _ h1
        (hc.trans _ _ _ (hc.indir _ g1) (hc.indir _ g2)))
    · simp at h
    · simp at h

theorem step_g (hc : GSteps I P Rel) {R : Rec} (hR : GRec I Rel R) (o : Op) (s : St) (r : o.Resp) (s' : St) (hI : I s.sh)
    (hP : P o) (h : step R o s = .ok r s') : Rel s.sh s'.sh := by
  cases o with
  | get => simp only [step, ORes.ok.injEq] at h; rw [← h.2]; exact hc.refl _
  | modB f => simp only [step, ORes.ok.injEq] at h; rw [← h.2]; exact hc.refl _
  | setInCache b => simp only [step, ORes.ok.injEq] at h; rw [← h.2]; exact hc.refl _
  | setLastCoalesce b => simp only [step, ORes.ok.injEq] at h; rw [← h.2]; exact hc.refl _
  | setCurrentDir d => simp only [step, ORes.ok.injEq] at h; rw [← h.2]; exact hc.refl _
  | pushFile k p => cases k <;> simp only [step, ORes.ok.injEq] at h <;> rw [← h.2] <;> exact hc.refl _
  | setFlags f => simp only [step, ORes.ok.injEq] at h; rw [← h.2]; exact hc.flags _ _
  | setStatus c p => simp only [step, ORes.ok.injEq] at h; rw [← h.2]; exact hc.status _ _ _ hI hP
  | setExit b => simp only [step, ORes.ok.injEq] at h; rw [← h.2]; exact hc.exit _ _ hI hP
  | setRedirectJs x => simp only [step, ORes.ok.injEq] at h; rw [← h.2]; exact hc.redirectJs _ _ hI hP
  | setAlreadyJs => simp only [step, ORes.ok.injEq] at h; rw [← h.2]; exact hc.alreadyJs _
  | setData name v =>
    obtain ⟨sc, hsc, rfl⟩ := Option.map_eq_some_iff.1 (oresOpt_ok h)
    exact hc.data _ _ _ _ hI hP hsc
  | setMoveto name v =>
    obtain ⟨sc, hsc, rfl⟩ := Option.map_eq_some_iff.1 (oresOpt_ok h)
    exact hc.moveto _ _ _ _ hI hP hsc
  | createBlockSchema =>
    simp only [step, ORes.ok.injEq] at h
    rw [← h.2]
    obtain ⟨g, hg⟩ := createBlockSchema_sh s.sh s.inh
    simp only [hg]; exact hc.indir _ _
  | setIndir sec key v =>
    obtain ⟨sc, hsc, rfl⟩ := Option.map_eq_some_iff.1 (oresOpt_ok h)
    obtain ⟨g, rfl⟩ := modIndir_sh hsc
    exact hc.indir _ _
  | mergeIndir sec v =>
    obtain ⟨sc, hsc, rfl⟩ := Option.map_eq_some_iff.1 (oresOpt_ok h)
    obtain ⟨g, rfl⟩ := modIndir_sh hsc
    exact hc.indir _ _
  | tick => simp only [step, ORes.ok.injEq] at h; rw [← h.2]; exact hc.tick _ _
  | writeFile a b c => simp only [step, ORes.ok.injEq] at h; rw [← h.2]; exact hc.write _ _ _ _ hI hP
  | child src scope =>
    simp only [step] at h
    exact runChild_g hc (fun sh inh hI => parseSrc_g hc hR sh inh _ _ hI) hI h
  | childBlocks src blocks scope =>
    simp only [step] at h
    exact runChild_g hc (fun sh inh hI => hR sh inh _ _ _ hI) hI h

theorem step_answer {R : Rec} (o : Op) (s : St) (r : o.Resp) (s' : St) (hI : I s.sh) (h : step R o s = .ok r s') :
    Answer I o r := by
  cases o with
  | get => simp only [step, ORes.ok.injEq] at h; rw [← h.1]; exact hI
  | _ => trivial

theorem run_g (hc : GSteps I P Rel) {R : Rec} (hR : GRec I Rel R) {α : Type} (p : Prog α) :
    OpsG I P p → ∀ s, I s.sh → (run R p s).Post (fun s' => Rel s.sh s'.sh) := by
  induction p with
  | pure a => intro _ s _; exact hc.refl _
  | throw e => intro _ s _; exact hc.refl _
  | panic p => intro _ s _; trivial
  | op o k ih =>
    intro hp s hI
    simp only [run]
    cases hs : step R o s with
    | ok r s' =>
      have h1 := step_g hc hR o s r s' hI hp.1 hs
      have h2 := ih r (hp.2 r (step_answer o s r s' hI hs)) s' (hc.keep _ _ hI h1)
      simp only
      revert h2
      generalize run R (k r) s' = res
      intro h2
      cases res with
      | ok _ s2 => exact hc.trans _ _ _ h1 h2
      | err _ s2 => exact hc.trans _ _ _ h1 h2
      | panic _ => trivial
      | oof => trivial
    | panic p => trivial
    | oof => trivial

theorem bifResult_g (hc : GSteps I P Rel) (env : Env) {sh : Shared} {r : Res Unit} (h : r.Post (fun s => Rel sh s.sh)) :
    (bifResult env r).Post (Rel sh) := by
  unfold bifResult
  cases r with
  | ok _ s => exact h
  | err e s =>
    simp only
    split
    · trivial
    · simp only [bifFinish, PRes.Post]
      exact hc.trans _ _ _ (hc.trans _ _ _ h (hc.tick _ _)) (hc.err _ _)
  | panic p => trivial
  | oof => trivial

theorem runBif_g (hc : GSteps I P Rel) {R : Rec} (env : Env) (hR : GRec I Rel R)
    (hbody : ∀ name, OpsG I P (bifBody env name)) (sh : Shared) (inh : Inherit) (raw only : Str) (hI : I sh) :
    (runBif env R sh inh raw only).Post (Rel sh) := by
  unfold runBif
  split
  · trivial
  · next hlt =>
    have hcount := hc.count sh (by omega)
    have hI1 := hc.keep _ _ hI hcount
    unfold bifParse
    split
    · split
      · exact hcount
      · split
        · trivial
        · exact hc.trans _ _ _ hcount (hc.err _ _)
    · split
      · exact hcount
      · split
        · trivial
        · next b name' _ =>
          have := bifResult_g hc env (run_g hc hR _ (hbody name')
            { sh := { sh with count := sh.count + 1 }, inh := { { inh with bifCount := sh.count + 1 } with inOnly := true },
              b := { b with name := name', alias := name' }, raw := raw, only := only } hI1)
          revert this
          generalize bifResult env _ = res
          intro this
          cases res with
          | ok o sh' inh' => exact hc.trans _ _ _ hcount this
          | panic p => trivial
          | oof => trivial

theorem blocksGo_g (hc : GSteps I P Rel) {R : Rec} (env : Env) (hR : GRec I Rel R)
    (hbody : ∀ name, OpsG I P (bifBody env name)) (src only : Str) (bs : List (Nat × Nat)) :
    ∀ prevEnd out sh inh, I sh → (blocksGo env R src only prevEnd out bs sh inh).Post (Rel sh) := by
  induction bs with
  | nil => intro _ _ sh _ _; exact hc.refl sh
  | cons b r ih =>
    intro prevEnd out sh inh hI
    obtain ⟨s, e⟩ := b
    simp only [blocksGo]
    split
    · exact hc.refl sh
    · split
      · exact ih _ _ _ _ hI
      · have h1 := runBif_g hc env hR hbody sh inh (slice src s e) only hI
        cases hx : runBif env R sh inh (slice src s e) only with
        | ok x sh' inh' =>
          rw [hx] at h1
          have h2 := ih e ((if prevEnd < s then out ++ slice src prevEnd s else out) ++ x) sh' inh' (hc.keep _ _ hI h1)
          simp only
          revert h2
          generalize blocksGo env R src only e _ r sh' inh' = res
          intro h2
          cases res with
          | ok o sh2 inh2 => exact hc.trans _ _ _ h1 h2
          | panic p => trivial
          | oof => trivial
        | panic p => trivial
        | oof => trivial

/-- The relation holds across the evaluation of any block, at any recursion depth. -/
theorem runBlocks_g (hc : GSteps I P Rel) (env : Env) (hbody : ∀ name, OpsG I P (bifBody env name)) (n : Nat) :
    GRec I Rel (runBlocks env n) := by
  induction n with
  | zero => intro sh inh src bs only _; trivial
  | succ n ih => intro sh inh src bs only hI; exact blocksGo_g hc env ih hbody src only bs 0 [] sh inh hI

/-- ... across a pass of the renderer. -/
theorem pass_g (hc : GSteps I P Rel) (env : Env) (hbody : ∀ name, OpsG I P (bifBody env name)) (sh : Shared)
    (inh : Inherit) (text only : Str) (hI : I sh) : (pass env sh inh text only).Post (Rel sh) := by
  unfold pass
  have h := parseSrc_g hc (runBlocks_g hc env hbody (sh.max + 1)) sh
    { inh with blockCount := inh.blockCount + 1 } text only hI
  split
  · next o sh' inh' he =>
    rw [he] at h
    obtain ⟨g, hg⟩ := dropBlock_sh sh' inh'
    rw [hg]
    exact hc.trans _ _ _ h (hc.indir _ _)
  · trivial
  · trivial

/-- ... across the post-processing loop. -/
theorem cacheLoop_g (hc : GSteps I P Rel) (env : Env) (hbody : ∀ name, OpsG I P (bifBody env name)) (inh : Inherit)
    (n : Nat) : ∀ sh out, I sh → (cacheLoop env inh n sh out).Post (Rel sh) := by
  induction n with
  | zero => intro sh out _; simp only [cacheLoop]; split; trivial; exact hc.refl sh
  | succ n ih =>
    intro sh out hI
    simp only [cacheLoop]
    split
    · have h1 := pass_g hc env hbody sh inh out c!"!cache" hI
      split
      · next o sh' inh' he =>
        rw [he] at h1
        have h2 := ih sh' o (hc.keep _ _ hI h1)
        revert h2
        generalize cacheLoop env inh n sh' o = res
        intro h2
        cases res with
        | ok o sh2 inh2 => exact hc.trans _ _ _ h1 h2
        | panic p => trivial
        | oof => trivial
      · trivial
      · trivial
    · exact hc.refl sh

/-- From the state at the beginning of a render to the final one. -/
theorem renderWith_g (hc : GSteps I P Rel) (env : Env) (hbody : ∀ name, OpsG I P (bifBody env name)) {n : Nat}
    {t t' : Tpl} {sc : Value} {sh0 : Option Shared} (h : renderWith env n t sc sh0 = .ok t')
    (hI : ∀ sh raw sh1 inh, sh0 = some sh → initShared env t.filePath t.raw sh = .ok (raw, sh1, inh) → I sh1) :
    ∃ sh raw sh1 inh, sh0 = some sh ∧ initShared env t.filePath t.raw sh = .ok (raw, sh1, inh) ∧ Rel sh1 t'.shared := by
  unfold renderWith at h
  split at h
  · simp at h
  next sh =>
  split at h
  · simp at h
  next raw sh1 inh hi =>
  have hI1 := hI sh raw sh1 inh rfl hi
  have h1 := pass_g hc env hbody sh1 inh raw [] hI1
  split at h
  · simp at h
  · simp at h
  next o sh2 inh2 hp =>
  rw [hp] at h1
  have h2 := cacheLoop_g hc env hbody inh n sh2 o (hc.keep _ _ hI1 h1)
  split at h
  · simp at h
  · simp at h
  next o2 sh3 inh3 hl =>
  rw [hl] at h2
  split at h
  · simp at h
  · simp only [RRes.ok.injEq] at h
    subst h
    exact ⟨sh, raw, sh1, inh, rfl, hi, hc.trans _ _ _ h1 h2⟩

end

end Nts
