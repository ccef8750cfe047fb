import Verif.Props.ErrorText
import Verif.Props.Budget
/-
C87: what the list of errors says, for whole renders.  C88: how long it is.
-/
set_option autoImplicit false
namespace Nts
open Spec

/-! ### specification -/

/-- `line` is `text` written in one line: every line break is a space, every other character is kept. -/
def Spec.OneLine (text line : Str) : Prop :=
  line.length = text.length ∧ ∀ (i : Nat) (c : Char), text[i]? = some c →
    line[i]? = some (if c = '\n' ∨ c = '\r' then ' ' else c)

/-- The text of an error. -/
def Spec.report (time name msg file src : Str) : Str :=
  c!"[" ++ time ++ c!"] Error (" ++ name ++ c!") " ++ msg ++ c!" file~: (" ++ file ++ c!") src: " ++ src

/-- The BIF `raw`, evaluated in the state `sh`, `inh`, records the error `line`: it has no `;`, or its body raises an error; the line
tells the time, the name of the BIF, the message, the current file and the text of the BIF. -/
def Spec.Complains (env : Env) (line : Str) (R : Rec) (raw : Str) (sh : Shared) (inh : Inherit) (only : Str) : Prop :=
  (bifSplit raw = none ∧ only = [] ∧ OneLine (c!"The delimiter was not found: " ++ raw) line) ∨
  ∃ name s s1 e, Started sh inh raw only name s ∧ Moment R (bifBody env name) s (.throw e) s1 ∧ Called name e.name ∧
    OneLine (report (env.localTime s1.sh.w.tick) e.name e.msg inh.currentFile raw) line

/-! ### one line -/

theorem oneLine_iff {text line : Str} : OneLine text line ↔ line = oneLine text := by
  constructor
  · rintro ⟨h1, h2⟩
    refine List.ext_getElem? fun i => ?_
    unfold oneLine
    rw [List.getElem?_map]
    cases h : text[i]? with
    | none =>
      have := List.getElem?_eq_none_iff.1 h
      simpa using List.getElem?_eq_none (by omega)
    | some c =>
      rw [h2 i c h]
      simp
  · rintro rfl
    refine ⟨by simp [oneLine], fun i c h => ?_⟩
    unfold oneLine
    rw [List.getElem?_map, h]
    simp

/-- A line has no line break. -/
theorem oneLine_breaks {text line : Str} (h : OneLine text line) : '\n' ∉ line ∧ '\r' ∉ line := by
  rw [oneLine_iff.1 h]
  unfold oneLine
  constructor <;>
  · intro hm
    obtain ⟨c, _, hc⟩ := List.mem_map.1 hm
    split at hc
    · simp at hc
    · simp_all

/-! ### the errors that are new -/

/-- The errors recorded between the two states are the lines satisfying `C`. -/
def NewErrs (C : Str → Prop) (a b : Shared) : Prop :=
  ∀ l, errorsOf a = .arr l → ∃ more : List Str, errorsOf b = .arr (l ++ more.map .str) ∧ ∀ line, line ∈ more ↔ C line

theorem newErrs_same {C : Str → Prop} {a b : Shared} (h : errorsOf b = errorsOf a) (hC : ∀ line, ¬ C line) : NewErrs C a b := by
  intro l hl
  exact ⟨[], by rw [h, hl]; simp, fun line => by simpa using hC line⟩

theorem newErrs_trans {C D E : Str → Prop} {a b c : Shared} (h1 : NewErrs C a b) (h2 : NewErrs D b c)
    (he : ∀ line, E line ↔ C line ∨ D line) : NewErrs E a c := by
  intro l hl
  obtain ⟨m1, e1, k1⟩ := h1 l hl
  obtain ⟨m2, e2, k2⟩ := h2 _ e1
  refine ⟨m1 ++ m2, by rw [e2, List.map_append, List.append_assoc], fun line => ?_⟩
  rw [List.mem_append, k1, k2, he]

theorem newErrs_congr {C D : Str → Prop} {a b : Shared} (h : NewErrs C a b) (he : ∀ line, D line ↔ C line) : NewErrs D a b := by
  intro l hl
  obtain ⟨m, e, k⟩ := h l hl
  exact ⟨m, e, fun line => (k line).trans (he line).symm⟩

theorem newErrs_of {C : Str → Prop} {a a' b b' : Shared} (h : NewErrs C a b) (ha : errorsOf a' = errorsOf a)
    (hb : errorsOf b' = errorsOf b) : NewErrs C a' b' := by
  intro l hl
  rw [ha] at hl
  obtain ⟨m, e, k⟩ := h l hl
  exact ⟨m, by rw [hb, e], k⟩

theorem newErrs_push {C : Str → Prop} {a : Shared} {line : Str} (h : ∀ x, C x ↔ x = line) : NewErrs C a (pushError a line) := by
  intro l hl
  exact ⟨[line], pushError_errors hl, fun x => by simp [h]⟩

/-- The relation: the same errors. -/
theorem sameErrs_steps : Steps (fun _ => True) (fun a b => errorsOf b = errorsOf a) where
  refl _ := rfl
  trans _ _ _ h1 h2 := h2.trans h1
  indir _ _ := rfl
  unmatched _ _ := rfl
  world _ _ := rfl
  flags _ _ := rfl
  status _ _ _ _ := rfl
  exit _ _ _ := rfl
  redirectJs _ _ := rfl
  alreadyJs _ := rfl
  data _ _ _ _ _ h := index_modIndex_ne h (by decide)
  moveto _ _ _ _ _ h := index_modIndex_ne h (by decide)

/-- An operation that evaluates no child records nothing. -/
theorem step_quiet {R : Rec} {o : Op} {s s' : St} {r : o.Resp} (hc : childOf o = none) (h : step R o s = .ok r s') :
    errorsOf s'.sh = errorsOf s.sh := by
  have he : step R o s = step (fun _ _ _ _ _ => .oof) o s := by
    cases o with
    | child src scope =>
      simp only [childOf] at hc
      simp only [step, parseSrc]
      split at hc
      · simp at hc
      · next e => rw [e]
    | childBlocks src bs scope => simp [childOf] at hc
    | pushFile k p => cases k <;> rfl
    | _ => rfl
  rw [he] at h
  exact step_rel (R := fun _ _ _ _ _ => .oof) sameErrs_steps (fun _ _ _ _ _ => trivial) o s r s' trivial h

theorem createBlockSchema_schema (sh : Shared) (inh : Inherit) : (createBlockSchema sh inh).1.schema = sh.schema := by
  unfold createBlockSchema
  dsimp only
  generalize (if inh.blockCount < 1 then c!"block_1" else blockId inh.blockCount) = bid
  split
  · split <;> rfl
  · rfl

theorem childStart_errors (s : St) (o : Op) : errorsOf (childStart s o) = errorsOf s.sh := by
  unfold childStart errorsOf
  split
  · rw [createBlockSchema_schema]
  · rw [createBlockSchema_schema]
  · rfl

/-- What the evaluation of a child records. -/
abbrev ChildErrs := Shared → Inherit → Str → List (Nat × Nat) → Str → Prop

theorem step_errs {R : Rec} {only : Str} {C : ChildErrs}
    (hR : ∀ sh inh src bs x sh' inh', R sh inh src bs only = .ok x sh' inh' → NewErrs (C sh inh src bs) sh sh')
    {o : Op} {s s' : St} {r : o.Resp} (ho : s.only = only) (h : step R o s = .ok r s') :
    NewErrs (fun line => ∃ csrc cbs, childOf o = some (csrc, cbs) ∧ C (childStart s o) (childInherit s) csrc cbs line) s.sh s'.sh := by
  cases hc : childOf o with
  | none => exact newErrs_same (step_quiet hc h) (fun line => by simp)
  | some p =>
    obtain ⟨csrc, cbs⟩ := p
    obtain ⟨x, sh', inh', f, h1, h2⟩ := step_child hc h
    rw [ho] at h1
    refine newErrs_of (newErrs_congr (hR _ _ _ _ _ _ _ h1) fun line => ?_) (childStart_errors s o).symm (by rw [h2]; rfl)
    constructor
    · rintro ⟨a, b, hab, hC⟩
      simp only [Option.some.injEq, Prod.mk.injEq] at hab
      obtain ⟨rfl, rfl⟩ := hab
      exact hC
    · intro hC
      exact ⟨_, _, rfl, hC⟩

/-- What is recorded while a program runs is what its children record. -/
theorem run_errs {R : Rec} {only : Str} {C : ChildErrs}
    (hR : ∀ sh inh src bs x sh' inh', R sh inh src bs only = .ok x sh' inh' → NewErrs (C sh inh src bs) sh sh')
    {α : Type} (p : Prog α) : ∀ s, s.only = only → (run R p s).Post (fun s' => NewErrs (fun line =>
      ∃ (o : Op) (k : o.Resp → Prog α) (s1 : St), Moment R p s (.op o k) s1 ∧ ∃ csrc cbs, childOf o = some (csrc, cbs) ∧
        C (childStart s1 o) (childInherit s1) csrc cbs line) s.sh s'.sh) := by
  induction p with
  | pure a => exact fun s _ => newErrs_same rfl (fun line => by rintro ⟨o, k, s1, h, _⟩; cases h)
  | throw e => exact fun s _ => newErrs_same rfl (fun line => by rintro ⟨o, k, s1, h, _⟩; cases h)
  | panic q => exact fun _ _ => trivial
  | op o k ih =>
    intro s ho
    simp only [run]
    cases hst : step R o s with
    | panic q => trivial
    | oof => trivial
    | ok r s' =>
      have h1 := step_errs hR ho hst
      have h2 := ih r s' ((step_only hst).trans ho)
      have key : ∀ line, (∃ (o' : Op) (k' : o'.Resp → Prog α) (s1 : St), Moment R (.op o k) s (.op o' k') s1 ∧
          ∃ csrc cbs, childOf o' = some (csrc, cbs) ∧ C (childStart s1 o') (childInherit s1) csrc cbs line) ↔
          (∃ csrc cbs, childOf o = some (csrc, cbs) ∧ C (childStart s o) (childInherit s) csrc cbs line) ∨
          (∃ (o' : Op) (k' : o'.Resp → Prog α) (s1 : St), Moment R (k r) s' (.op o' k') s1 ∧
            ∃ csrc cbs, childOf o' = some (csrc, cbs) ∧ C (childStart s1 o') (childInherit s1) csrc cbs line) := by
        intro line
        constructor
        · rintro ⟨o', k', s1, hm, hc⟩
          cases hm with
          | now => exact .inl hc
          | step hs hm =>
            rw [hst] at hs
            simp only [ORes.ok.injEq] at hs
            obtain ⟨rfl, rfl⟩ := hs
            exact .inr ⟨o', k', s1, hm, hc⟩
        · rintro (hc | ⟨o', k', s1, hm, hc⟩)
          · exact ⟨o, k, s, .now _ _, hc⟩
          · exact ⟨o', k', s1, .step hst hm, hc⟩
      simp only
      revert h2
      generalize run R (k r) s' = res
      intro h2
      cases res with
      | ok a s2 => exact newErrs_trans h1 h2 key
      | err e s2 => exact newErrs_trans h1 h2 key
      | panic q => trivial
      | oof => trivial

theorem run_err {α : Type} {R : Rec} {p : Prog α} {s s1 : St} {e : BifErr} : run R p s = .err e s1 ↔ Moment R p s (.throw e) s1 := by
  constructor
  · intro h
    induction p generalizing s with
    | pure a => simp [run] at h
    | throw e' =>
      simp only [run, Res.err.injEq] at h
      obtain ⟨rfl, rfl⟩ := h
      exact .now _ _
    | panic q => simp [run] at h
    | op o k ih =>
      simp only [run] at h
      cases hst : step R o s with
      | ok r s' => rw [hst] at h; exact .step hst (ih r h)
      | panic q => rw [hst] at h; simp at h
      | oof => rw [hst] at h; simp at h
  · intro h
    rw [run_moment h]
    rfl

theorem moment_raw {α : Type} {R : Rec} {p p' : Prog α} {s s' : St} (h : Moment R p s p' s') : s'.raw = s.raw := by
  induction h with
  | now => rfl
  | step hst _ ih => rw [ih, (step_b hst).1]

theorem moment_file {α : Type} {R : Rec} {p p' : Prog α} {s s' : St} (h : Moment R p s p' s') :
    s'.inh.currentFile = s.inh.currentFile := by
  induction h with
  | now => rfl
  | step hst _ ih => rw [ih, (step_sameInh _ _ _ _ _ hst).currentFile]

/-- The error raised by the body of a BIF names the BIF, the current file and the text of the BIF. -/
theorem raised {env : Env} {R : Rec} {sh : Shared} {inh : Inherit} {raw only name : Str} {s s1 : St} {e : BifErr}
    (hst : Started sh inh raw only name s) (hm : Moment R (bifBody env name) s (.throw e) s1) :
    Called name e.name ∧ e.file = inh.currentFile ∧ e.src = raw := by
  have hr := run_err.2 hm
  have hsay := says_body env name R s (by cases hst; exact .inl rfl)
  rw [hr] at hsay
  obtain ⟨h1, msg, rfl⟩ := hsay
  refine ⟨h1, ?_, ?_⟩
  · exact (moment_file hm).trans (by cases hst; rfl)
  · exact (moment_raw hm).trans (by cases hst; rfl)

theorem started_fun {sh : Shared} {inh : Inherit} {raw only name name' : Str} {s s' : St} (h : Started sh inh raw only name s)
    (h' : Started sh inh raw only name' s') : name' = name ∧ s' = s := by
  cases h with
  | mk h1 h2 h3 h4 =>
    cases h' with
    | mk g1 g2 g3 g4 =>
      rw [h2] at g2
      simp only [Option.some.injEq, Prod.mk.injEq] at g2
      obtain ⟨rfl, rfl⟩ := g2
      rw [h4] at g4
      simp only [Option.some.injEq, Prod.mk.injEq] at g4
      obtain ⟨rfl, rfl⟩ := g4
      exact ⟨rfl, rfl⟩

/-- What a child of the BIF `raw` records. -/
def InnerErr (env : Env) (C : ChildErrs) (R : Rec) (raw : Str) (sh : Shared) (inh : Inherit) (only line : Str) : Prop :=
  ∃ name s, Started sh inh raw only name s ∧ ∃ (o : Op) (k : o.Resp → Prog Unit) (s1 : St),
    Moment R (bifBody env name) s (.op o k) s1 ∧ ∃ csrc cbs, childOf o = some (csrc, cbs) ∧
      C (childStart s1 o) (childInherit s1) csrc cbs line

theorem runBif_errs {env : Env} {R : Rec} {only : Str} {C : ChildErrs}
    (hR : ∀ sh inh src bs x sh' inh', R sh inh src bs only = .ok x sh' inh' → NewErrs (C sh inh src bs) sh sh')
    {sh sh' : Shared} {inh inh' : Inherit} {raw x : Str} (h : runBif env R sh inh raw only = .ok x sh' inh') :
    NewErrs (fun line => Complains env line R raw sh inh only ∨ InnerErr env C R raw sh inh only line) sh sh' := by
  by_cases hc : sh.count < sh.max
  case neg =>
    unfold runBif at h
    rw [if_pos (by omega)] at h
    simp at h
  · by_cases hs : ∃ name s, Started sh inh raw only name s
    · obtain ⟨name, s, hst⟩ := hs
      have ho : s.only = only := by cases hst; rfl
      have hsh : errorsOf sh = errorsOf s.sh := by cases hst; rfl
      rw [runBif_started hst] at h
      have h1 := run_errs hR (bifBody env name) s ho
      have hin : ∀ line, InnerErr env C R raw sh inh only line ↔
          ∃ (o : Op) (k : o.Resp → Prog Unit) (s1 : St), Moment R (bifBody env name) s (.op o k) s1 ∧
            ∃ csrc cbs, childOf o = some (csrc, cbs) ∧ C (childStart s1 o) (childInherit s1) csrc cbs line := by
        intro line
        constructor
        · rintro ⟨name', s', hst', hi⟩
          obtain ⟨rfl, rfl⟩ := started_fun hst hst'
          exact hi
        · intro hi; exact ⟨name, s, hst, hi⟩
      have hsp : bifSplit raw ≠ none := by cases hst with | mk _ h2 _ _ => rw [h2]; simp
      cases hr : run R (bifBody env name) s with
      | ok a s1 =>
        rw [hr] at h h1
        simp only [bifResult, bifFinish, PRes.ok.injEq] at h
        rw [← h.2.1]
        refine newErrs_of (newErrs_congr h1 fun line => ?_) hsh rfl
        rw [hin]
        refine ⟨fun h => h.resolve_left ?_, .inr⟩
        rintro (⟨h, _⟩ | ⟨name', s', s2, e, hst', hm, _⟩)
        · exact hsp h
        · obtain ⟨rfl, rfl⟩ := started_fun hst hst'
          rw [run_err.2 hm] at hr
          simp at hr
      | err e s1 =>
        rw [hr] at h h1
        simp only [bifResult] at h
        split at h
        · simp at h
        · simp only [bifFinish, PRes.ok.injEq] at h
          rw [← h.2.1]
          have hm := run_err.1 hr
          obtain ⟨hcall, hfile, hraw⟩ := raised hst hm
          have h2 : NewErrs (fun line => Complains env line R raw sh inh only) s1.sh
              (pushError { s1.sh with w := { s1.sh.w with tick := s1.sh.w.tick + 1 } } (errorLine (env.localTime s1.sh.w.tick) e)) := by
            refine newErrs_of (a := { s1.sh with w := { s1.sh.w with tick := s1.sh.w.tick + 1 } }) (newErrs_push fun line => ?_) rfl rfl
            have hl : ∀ line, OneLine (report (env.localTime s1.sh.w.tick) e.name e.msg inh.currentFile raw) line ↔
                line = errorLine (env.localTime s1.sh.w.tick) e := by
              intro line
              rw [oneLine_iff]
              unfold report errorLine
              rw [hfile, hraw]
            constructor
            · rintro (⟨h, _⟩ | ⟨name', s', s2, e', hst', hm', _, hl'⟩)
              · exact absurd h hsp
              · obtain ⟨rfl, rfl⟩ := started_fun hst hst'
                have := run_err.2 hm'
                rw [hr] at this
                simp only [Res.err.injEq] at this
                obtain ⟨rfl, rfl⟩ := this
                exact (hl line).1 hl'
            · intro h
              exact .inr ⟨name, s, s1, e, hst, hm, hcall, (hl line).2 h⟩
          refine newErrs_of (newErrs_trans h1 h2 fun line => ?_) hsh rfl
          rw [hin]
          exact or_comm
      | panic q => rw [hr] at h; simp [bifResult] at h
      | oof => rw [hr] at h; simp [bifResult] at h
    · unfold runBif at h
      rw [if_neg (by omega)] at h
      unfold bifParse at h
      have hin : ∀ line, ¬ InnerErr env C R raw sh inh only line := fun line ⟨name, s, hst, _⟩ => hs ⟨name, s, hst⟩
      cases hsp : bifSplit raw with
      | none =>
        rw [hsp] at h
        dsimp only at h
        split at h
        · next ho =>
          simp only [PRes.ok.injEq] at h
          rw [← h.2.1]
          refine newErrs_same rfl fun line hl => ?_
          rcases hl with (⟨_, h, _⟩ | ⟨name, s, _, _, hst, _⟩) | h
          · rw [h] at ho; simp at ho
          · exact hs ⟨name, s, hst⟩
          · exact hin line h
        · next ho =>
          split at h
          · simp at h
          · simp only [PRes.ok.injEq] at h
            rw [← h.2.1]
            refine newErrs_of (a := { sh with count := sh.count + 1 }) (newErrs_push fun line => ?_) rfl rfl
            rw [← oneLine_iff]
            have ho' : only = [] := by cases only <;> simp_all
            constructor
            · rintro ((⟨_, _, h⟩ | ⟨name, s, _, _, hst, _⟩) | h)
              · exact h
              · exact absurd ⟨name, s, hst⟩ hs
              · exact absurd h (hin line)
            · intro h
              exact .inl (.inl ⟨hsp, ho', h⟩)
      | some fs =>
        obtain ⟨full, src⟩ := fs
        have hcomp : ∀ line, ¬ Complains env line R raw sh inh only := by
          rintro line (⟨h, _⟩ | ⟨name, s, _, _, hst, _⟩)
          · rw [hsp] at h; simp at h
          · exact hs ⟨name, s, hst⟩
        rw [hsp] at h
        dsimp only at h
        split at h
        · simp only [PRes.ok.injEq] at h
          rw [← h.2.1]
          exact newErrs_same rfl fun line hl => hl.elim (hcomp line) (hin line)
        · next hsel =>
          split at h
          · simp at h
          · next b name hset =>
            refine absurd ⟨name, _, Started.mk hc hsp ?_ hset⟩ hs
            by_cases h1 : only = []
            · exact .inl h1
            · by_cases h2 : contains only full = true
              · exact .inr (.inl h2)
              · refine .inr (.inr ?_)
                have h3 : only.isEmpty = false := by cases only <;> simp_all
                rw [h3, Bool.eq_false_iff.2 h2] at hsel
                simpa using hsel

/-- Some BIF of the blocks, or nested in them, records `line`. -/
def ErrIn (env : Env) (line only : Str) (n : Nat) (src : Str) (bs : List (Nat × Nat)) (sh : Shared) (inh : Inherit) : Prop :=
  ∃ m raw sh1 inh1, Evaluates env n src only bs sh inh m raw sh1 inh1 ∧ Complains env line (runBlocks env m) raw sh1 inh1 only

/-- What the children of a BIF record when `n` levels are left. -/
def ErrBelow (env : Env) (only : Str) : Nat → ChildErrs
  | 0 => fun _ _ _ _ _ => False
  | n + 1 => fun sh inh src bs line => ErrIn env line only n src bs sh inh

theorem errIn_cons {env : Env} {line only src : Str} {n b e : Nat} {bs : List (Nat × Nat)} {sh : Shared} {inh : Inherit} :
    ErrIn env line only n src ((b, e) :: bs) sh inh ↔ sh.exit = false ∧
      (((startsWith c!"{:*" (slice src b e) || (inh.lastCoalesceOut && inh.alias = c!"coalesce")) = true ∧
          ErrIn env line only n src bs sh inh) ∨
       ((startsWith c!"{:*" (slice src b e) || (inh.lastCoalesceOut && inh.alias = c!"coalesce")) = false ∧
          (Complains env line (runBlocks env n) (slice src b e) sh inh only ∨
            InnerErr env (ErrBelow env only n) (runBlocks env n) (slice src b e) sh inh only line ∨
            ∃ x sh' inh', runBif env (runBlocks env n) sh inh (slice src b e) only = .ok x sh' inh' ∧
              ErrIn env line only n src bs sh' inh'))) := by
  constructor
  · rintro ⟨m, raw, sh1, inh1, h, ho⟩
    cases h with
    | here h1 h2 => exact ⟨h1, .inr ⟨h2, .inl ho⟩⟩
    | skip h1 h2 h3 => exact ⟨h1, .inl ⟨h2, m, raw, sh1, inh1, h3, ho⟩⟩
    | later h1 h2 h3 h4 => exact ⟨h1, .inr ⟨h2, .inr (.inr ⟨_, _, _, h3, m, raw, sh1, inh1, h4, ho⟩)⟩⟩
    | nested h1 h2 h3 h4 h5 h6 =>
      exact ⟨h1, .inr ⟨h2, .inr (.inl ⟨_, _, h3, _, _, _, h4, _, _, h5, m, raw, sh1, inh1, h6, ho⟩)⟩⟩
  · rintro ⟨h1, (⟨h2, m, raw, sh1, inh1, h3, ho⟩ | ⟨h2, ho | ⟨name, s, h3, o, k, s1, h4, csrc, cbs, h5, h6⟩ |
      ⟨x, sh', inh', h3, m, raw, sh1, inh1, h4, ho⟩⟩)⟩
    · exact ⟨m, raw, sh1, inh1, .skip h1 h2 h3, ho⟩
    · exact ⟨n, _, sh, inh, .here h1 h2, ho⟩
    · cases n with
      | zero => exact h6.elim
      | succ n =>
        obtain ⟨m, raw, sh1, inh1, h6, ho⟩ := h6
        exact ⟨m, raw, sh1, inh1, .nested h1 h2 h3 h4 h5 h6, ho⟩
    · exact ⟨m, raw, sh1, inh1, .later h1 h2 h3 h4, ho⟩

theorem blocks_errs {env : Env} {only : Str} {n : Nat}
    (hR : ∀ sh inh src bs x sh' inh', runBlocks env n sh inh src bs only = .ok x sh' inh' →
      NewErrs (ErrBelow env only n sh inh src bs) sh sh') :
    ∀ (bs : List (Nat × Nat)) (src out x : Str) (prevEnd : Nat) (sh sh' : Shared) (inh inh' : Inherit),
    blocksGo env (runBlocks env n) src only prevEnd out bs sh inh = .ok x sh' inh' →
      NewErrs (fun line => ErrIn env line only n src bs sh inh) sh sh' := by
  intro bs
  induction bs with
  | nil =>
    intro src out x prevEnd sh sh' inh inh' h
    simp only [blocksGo, PRes.ok.injEq] at h
    rw [← h.2.1]
    exact newErrs_same rfl fun line ⟨m, raw, sh1, inh1, h, _⟩ => by cases h
  | cons be bs ih =>
    intro src out x prevEnd sh sh' inh inh' h
    obtain ⟨b, e⟩ := be
    unfold blocksGo at h
    cases hx : sh.exit with
    | true =>
      rw [hx, if_pos rfl] at h
      simp only [PRes.ok.injEq] at h
      rw [← h.2.1]
      refine newErrs_same rfl fun line hl => ?_
      rw [errIn_cons, hx] at hl
      simp at hl
    | false =>
      rw [hx, if_neg (by simp)] at h
      dsimp only at h
      cases hk : (startsWith c!"{:*" (slice src b e) || (inh.lastCoalesceOut && inh.alias = c!"coalesce")) with
      | true =>
        rw [hk, if_pos rfl] at h
        refine newErrs_congr (ih _ _ _ _ _ _ _ _ h) fun line => ?_
        rw [errIn_cons, hx, hk]
        simp
      | false =>
        rw [hk, if_neg (by simp)] at h
        cases hr : runBif env (runBlocks env n) sh inh (slice src b e) only with
        | ok y sh1 inh1 =>
          rw [hr] at h
          dsimp only at h
          refine newErrs_trans (runBif_errs hR hr) (ih _ _ _ _ _ _ _ _ h) fun line => ?_
          rw [errIn_cons, hx, hk, hr]
          constructor
          · rintro ⟨_, (⟨h, _⟩ | ⟨_, h | h | ⟨x', sh2, inh2, h1, h2⟩⟩)⟩
            · simp at h
            · exact .inl (.inl h)
            · exact .inl (.inr h)
            · simp only [PRes.ok.injEq] at h1
              obtain ⟨_, rfl, rfl⟩ := h1
              exact .inr h2
          · rintro ((h | h) | h)
            · exact ⟨rfl, .inr ⟨rfl, .inl h⟩⟩
            · exact ⟨rfl, .inr ⟨rfl, .inr (.inl h)⟩⟩
            · exact ⟨rfl, .inr ⟨rfl, .inr (.inr ⟨_, _, _, rfl, h⟩)⟩⟩
        | panic q => rw [hr] at h; simp at h
        | oof => rw [hr] at h; simp at h

theorem runBlocks_errs {env : Env} (only : Str) (n : Nat) :
    ∀ sh inh src bs x sh' inh', runBlocks env n sh inh src bs only = .ok x sh' inh' →
      NewErrs (ErrBelow env only n sh inh src bs) sh sh' := by
  induction n with
  | zero => intro sh inh src bs x sh' inh' h; simp [runBlocks] at h
  | succ n ih => intro sh inh src bs x sh' inh' h; exact blocks_errs ih bs src [] x 0 sh sh' inh inh' h

/-! ### whole renders -/

/-- The evaluation of `text` records `line`. -/
def ErrPass (env : Env) (inh : Inherit) (sh : Shared) (text only line : Str) : Prop :=
  Somewhere (Complains env line) env sh.max sh { inh with blockCount := inh.blockCount + 1 } text only

theorem pass_errs {env : Env} {sh sh' : Shared} {inh inh' : Inherit} {text only x : Str}
    (h : pass env sh inh text only = .ok x sh' inh') : NewErrs (ErrPass env inh sh text only) sh sh' := by
  unfold pass parseSrc at h
  cases hx : extractBlocks text with
  | error p =>
    rw [hx] at h
    simp only [PRes.ok.injEq] at h
    obtain ⟨g, hg⟩ := dropBlock_sh (handleUnmatched sh (byteLen (List.take p text))) { inh with blockCount := inh.blockCount + 1 }
    rw [← h.2.1, hg]
    refine newErrs_same rfl fun line ⟨bs, h, _⟩ => ?_
    rw [hx] at h
    simp at h
  | ok bs =>
    rw [hx] at h
    dsimp only at h
    cases hr : runBlocks env (sh.max + 1) sh { inh with blockCount := inh.blockCount + 1 } text bs only with
    | ok y sh1 inh1 =>
      rw [hr] at h
      simp only [PRes.ok.injEq] at h
      obtain ⟨g, hg⟩ := dropBlock_sh sh1 inh1
      rw [← h.2.1, hg]
      refine newErrs_of (newErrs_congr (runBlocks_errs only _ _ _ _ _ _ _ _ hr) fun line => ?_) rfl rfl
      constructor
      · rintro ⟨bs', h, h2⟩
        rw [hx] at h
        simp only [Except.ok.injEq] at h
        subst h
        exact h2
      · intro h
        exact ⟨bs, hx, h⟩
    | panic q => rw [hr] at h; simp at h
    | oof => rw [hr] at h; simp at h

theorem loop_errs {env : Env} {inh : Inherit} {sh0 : Shared} {raw : Str} (n : Nat) :
    ∀ (j : Nat) (sh sh2 sh3 : Shared) (inh2 inh3 : Inherit) (text only out x : Str), PassOf env inh sh0 raw j sh text only →
    pass env sh inh text only = .ok out sh2 inh2 → cacheLoop env inh n sh2 out = .ok x sh3 inh3 →
    NewErrs (fun line => ∃ k sh1 text1 only1, j < k ∧ k ≤ j + n ∧ PassOf env inh sh0 raw k sh1 text1 only1 ∧
      ErrPass env inh sh1 text1 only1 line) sh2 sh3 := by
  induction n with
  | zero =>
    intro j sh sh2 sh3 inh2 inh3 text only out x hp h hl
    unfold cacheLoop at hl
    split at hl
    · simp at hl
    · simp only [PRes.ok.injEq] at hl
      rw [← hl.2.1]
      exact newErrs_same rfl fun line ⟨k, _, _, _, h1, h2, _⟩ => by omega
  | succ n ih =>
    intro j sh sh2 sh3 inh2 inh3 text only out x hp h hl
    unfold cacheLoop at hl
    have hcont := contains_iff (p := c!"{:!cache;") (s := out) (by decide)
    by_cases hc : contains c!"{:!cache;" out = true
    · rw [if_pos hc] at hl
      have hn := PassOf.next hp h (hcont.1 hc)
      cases hr : pass env sh2 inh out c!"!cache" with
      | ok out' sh' inh' =>
        rw [hr] at hl
        dsimp only at hl
        refine newErrs_trans (pass_errs hr) (ih (j + 1) _ _ _ _ _ _ _ _ _ hn hr hl) fun line => ?_
        constructor
        · rintro ⟨k, s1, t1, o1, h1, h2, h3, h4⟩
          rcases Nat.lt_or_ge (j + 1) k with hk | hk
          · exact .inr ⟨k, s1, t1, o1, hk, by omega, h3, h4⟩
          · have : k = j + 1 := by omega
            subst this
            obtain ⟨rfl, rfl, rfl⟩ := passOf_unique hn h3
            exact .inl h4
        · rintro (h4 | ⟨k, s1, t1, o1, h1, h2, h3, h4⟩)
          · exact ⟨j + 1, _, _, _, by omega, by omega, hn, h4⟩
          · exact ⟨k, s1, t1, o1, by omega, by omega, h3, h4⟩
      | panic q => rw [hr] at hl; simp at hl
      | oof => rw [hr] at hl; simp at hl
    · rw [if_neg hc] at hl
      simp only [PRes.ok.injEq] at hl
      rw [← hl.2.1]
      refine newErrs_same rfl ?_
      rintro line ⟨k, s1, t1, o1, h1, h2, h3, h4⟩
      obtain ⟨out', _, _, h5, h6, _⟩ := passOf_before h3 hp h1
      rw [h] at h5
      simp only [PRes.ok.injEq] at h5
      rw [← h5.1] at h6
      exact absurd (hcont.2 h6) hc

theorem renderWith_errs {env : Env} {n : Nat} {t t' : Tpl} {sc : Value} {sh : Shared}
    (h : renderWith env n t sc (some sh) = .ok t') : ∃ lines : List Str, t'.getError = .arr (lines.map .str) ∧
      ∀ line, line ∈ lines ↔ InSomePass (Complains env line) env n t sh := by
  unfold renderWith at h
  dsimp only at h
  cases hi : initShared env t.filePath t.raw sh with
  | error p => rw [hi] at h; simp at h
  | ok r =>
    obtain ⟨raw, sh0, inh⟩ := r
    rw [hi] at h
    dsimp only at h
    have hf : PassOf env inh sh0 raw 0 sh0 raw [] := .first
    cases hp : pass env sh0 inh raw [] with
    | panic q => rw [hp] at h; simp at h
    | oof => rw [hp] at h; simp at h
    | ok out sh2 inh2 =>
      rw [hp] at h
      dsimp only at h
      cases hl : cacheLoop env inh n sh2 out with
      | panic q => rw [hl] at h; simp at h
      | oof => rw [hl] at h; simp at h
      | ok out2 sh3 inh3 =>
        rw [hl] at h
        dsimp only at h
        split at h
        · simp at h
        · simp only [RRes.ok.injEq] at h
          subst h
          have key := newErrs_trans (E := fun line => InSomePass (Complains env line) env n t sh) (pass_errs hp)
            (loop_errs n 0 sh0 sh2 sh3 inh2 inh3 raw [] out out2 hf hp hl) (by
              intro line
              constructor
              · rintro ⟨raw', sh', inh', h, k, sh1, text, only, h1, h2, h3⟩
                rw [hi] at h
                simp only [Except.ok.injEq, Prod.mk.injEq] at h
                obtain ⟨rfl, rfl, rfl⟩ := h
                cases k with
                | zero =>
                  obtain ⟨rfl, rfl, rfl⟩ := passOf_unique hf h2
                  exact .inl h3
                | succ k => exact .inr ⟨k + 1, sh1, text, only, by omega, by omega, h2, h3⟩
              · rintro (h | ⟨k, sh1, text, only, h1, h2, h3, h4⟩)
                · exact ⟨raw, sh0, inh, hi, 0, _, _, _, by omega, hf, h⟩
                · exact ⟨raw, sh0, inh, hi, k, sh1, text, only, by omega, h3, h4⟩)
          obtain ⟨lines, h1, h2⟩ := key [] (initShared_errors hi)
          exact ⟨lines, h1, h2⟩

/-- **C87.** After a render, the list of errors holds exactly the lines recorded by the BIFs evaluated in it, in any of its passes and at
any depth: for a BIF without `;` a line with its text, and for a BIF whose body raises an error one line with the time, the name of the
BIF, the message, the file and the text of the BIF. -/
theorem C87_errors (env : Env) (n : Nat) (w : World) (t t' : Tpl) (hb : c!"{:" <:+: t.raw) (h : t.render env n w = .ok t') :
    ∃ sh, Shared.new env w t.schema = some sh ∧ ∃ lines : List Str, t'.getError = .arr (lines.map .str) ∧
      ∀ line, line ∈ lines ↔ InSomePass (Complains env line) env n t sh := by
  have hcont := contains_iff (p := c!"{:") (s := t.raw) (by decide)
  unfold Tpl.render at h
  rw [if_neg (by rw [show contains bifOpen t.raw = true from hcont.2 hb]; simp)] at h
  cases hs : Shared.new env w t.schema with
  | none => rw [hs] at h; simp [renderWith] at h
  | some sh =>
    rw [hs] at h
    exact ⟨sh, rfl, renderWith_errs h⟩

/-- ... and for `render_once`. -/
theorem C87_errors_once (env : Env) (n : Nat) (w : World) (t t' : Tpl) (hb : c!"{:" <:+: t.raw) (h : t.renderOnce env n w = .ok t') :
    ∃ sh, Shared.new env w t.schema = some sh ∧ ∃ lines : List Str, t'.getError = .arr (lines.map .str) ∧
      ∀ line, line ∈ lines ↔ InSomePass (Complains env line) env n t sh := by
  have hcont := contains_iff (p := c!"{:") (s := t.raw) (by decide)
  unfold Tpl.renderOnce at h
  rw [renderOnceWith_eq, if_neg (by rw [show contains bifOpen t.raw = true from hcont.2 hb]; simp)] at h
  cases hs : Shared.new env w t.schema with
  | none => rw [hs] at h; simp [renderWith] at h
  | some sh =>
    rw [hs] at h
    exact ⟨sh, rfl, renderWith_errs h⟩

/-- **C87 (one BIF).** What a BIF that fails with a message records: one line, telling all of it. -/
theorem C87_failed (env : Env) (mods name raw msg x : Str) (sh sh' : Shared) (inh inh' : Inherit) (a : List Value)
    (herr : sh.schema.index c!"__error" = .arr a) (h : failed env mods name raw msg sh inh = .ok x sh' inh') :
    ∃ line, sh'.schema.index c!"__error" = .arr (a ++ [.str line]) ∧
      OneLine (report (env.localTime sh.w.tick) name msg inh.currentFile raw) line := by
  unfold failed at h
  split at h
  · simp at h
  · simp only [finish, PRes.ok.injEq] at h
    rw [← h.2.1]
    exact ⟨_, pushError_errors (sh := { sh with w := { sh.w with tick := sh.w.tick + 1 } }) herr, oneLine_iff.2 rfl⟩

/-- **C87 (no `;`).** What a BIF without `;` records. -/
theorem C87_delimiter (env : Env) (R : Rec) (sh sh' : Shared) (inh inh' : Inherit) (body x : Str) (a : List Value)
    (hb : ';' ∉ body) (hmax : sh.count < sh.max) (herr : sh.schema.index c!"__error" = .arr a)
    (h : runBif env R sh inh (c!"{:" ++ body ++ c!":}") [] = .ok x sh' inh') :
    ∃ line, sh'.schema.index c!"__error" = .arr (a ++ [.str line]) ∧
      OneLine (c!"The delimiter was not found: {:" ++ body ++ c!":}") line := by
  rw [C42_malformed_partial env R sh inh body hb hmax] at h
  split at h
  · simp at h
  · simp only [PRes.ok.injEq] at h
    rw [← h.2.1]
    exact ⟨_, pushError_errors (sh := counted sh) herr, oneLine_iff.2 rfl⟩

/-- From the states a render starts with and those it ends with to every template a program can hold. -/
theorem reach_shared {env : Env} {Q : Shared → Prop} (hnew : ∀ w sh, Shared.new env w defaultSchema = some sh → Q sh)
    (hrender : ∀ n t t' sc w, renderWith env n t sc (Shared.new env w t.schema) = .ok t' → Q t'.shared) {t : Tpl}
    (h : Reach env t) : Q t.shared := by
  have hmerge : ∀ {t t' : Tpl} {v : Value}, t.merge v = .ok t' → t'.shared = t.shared := by
    intro t t' v h
    unfold Tpl.merge at h
    split at h
    · simp only [TRes.ok.injEq] at h; subst h; rfl
    · simp at h
  have hfile : ∀ {w : World} {path : Str} {v : Value} {t : Tpl}, Tpl.fromFileValue env w path v = .ok t → Q t.shared := by
    intro w path v t h
    unfold Tpl.fromFileValue at h
    split at h
    · simp at h
    · split at h
      · next hs => simp only [TRes.ok.injEq] at h; subst h; exact hnew _ _ hs
      · simp at h
      · simp at h
  induction h with
  | new h =>
    unfold Tpl.new at h
    split at h
    · simp at h
    · next hs => simp only [TRes.ok.injEq] at h; subst h; exact hnew _ _ hs
  | fromFile h => exact hfile h
  | fromMsgpack h => obtain ⟨v, h⟩ := fromFileMsgpack_ok h; exact hfile h
  | mergeMsgpackPath _ h ih =>
    obtain ⟨v, h⟩ := mergeMsgpackPath_ok h
    rw [hmerge h]; exact ih
  | setSrcPath w path _ ih => unfold Tpl.setSrcPath; split <;> exact ih
  | setSrcStr src _ ih => exact ih
  | mergeStr _ h ih =>
    unfold Tpl.mergeSchemaStr at h
    split at h
    · simp at h
    · rw [hmerge h]; exact ih
  | mergePath _ h ih =>
    unfold Tpl.mergeSchemaPath at h
    split at h
    · simp at h
    · split at h
      · simp at h
      · rw [hmerge h]; exact ih
  | mergeValue _ h ih => rw [hmerge h]; exact ih
  | mergeMsgpack _ h ih =>
    unfold Tpl.mergeSchemaMsgpack at h
    split at h
    · simp at h
    · rw [hmerge h]; exact ih
  | render _ h ih =>
    unfold Tpl.render at h
    split at h
    · simp only [RRes.ok.injEq] at h; subst h; exact ih
    · exact hrender _ _ _ _ _ h
  | renderOnce _ h ih =>
    unfold Tpl.renderOnce at h
    rw [renderOnceWith_eq] at h
    split at h
    · simp only [RRes.ok.injEq] at h; subst h; exact ih
    · exact hrender _ _ _ _ _ h

/-- **C87 (every error).** For every template a program can hold, whatever was called before: `get_error` is a list of texts without line
breaks, each of them telling what happened. -/
theorem C87_every_error (env : Env) (t : Tpl) (h : Reach env t) :
    ∃ lines : List Str, t.getError = .arr (lines.map .str) ∧ ∀ line ∈ lines, '\n' ∉ line ∧ '\r' ∉ line ∧
      ((∃ raw, OneLine (c!"The delimiter was not found: " ++ raw) line) ∨
       (∃ tick name msg file src, OneLine (report (env.localTime tick) name msg file src) line)) := by
  refine reach_shared (Q := fun sh => ∃ lines : List Str, errorsOf sh = .arr (lines.map .str) ∧ ∀ line ∈ lines,
    '\n' ∉ line ∧ '\r' ∉ line ∧ ((∃ raw, OneLine (c!"The delimiter was not found: " ++ raw) line) ∨
       (∃ tick name msg file src, OneLine (report (env.localTime tick) name msg file src) line))) ?_ ?_ h
  · intro w sh hs
    refine ⟨[], ?_, by simp⟩
    unfold errorsOf
    rw [(sharedNew_fields hs).1]
    rfl
  · intro n t t' sc w h
    cases hs : Shared.new env w t.schema with
    | none => rw [hs] at h; simp [renderWith] at h
    | some sh =>
      rw [hs] at h
      obtain ⟨lines, h1, h2⟩ := renderWith_errs h
      refine ⟨lines, h1, fun line hl => ?_⟩
      obtain ⟨_, _, _, _, _, _, _, _, _, _, _, _, _, _, _, _, _, hc⟩ := (h2 line).1 hl
      rcases hc with ⟨_, _, hc⟩ | ⟨_, _, _, _, _, _, _, hc⟩
      · exact ⟨(oneLine_breaks hc).1, (oneLine_breaks hc).2, .inl ⟨_, hc⟩⟩
      · exact ⟨(oneLine_breaks hc).1, (oneLine_breaks hc).2, .inr ⟨_, _, _, _, _, hc⟩⟩

/-! ### C88 -/

/-- At most as many errors are recorded between the two states as BIFs are counted. -/
def FewErrs (a b : Shared) : Prop :=
  ∀ l, errorsOf a = .arr l → ∃ l', errorsOf b = .arr l' ∧ l'.length + a.count ≤ l.length + b.count

theorem fewErrs_same {a b : Shared} (h : errorsOf b = errorsOf a) (hc : a.count ≤ b.count) : FewErrs a b :=
  fun l hl => ⟨l, h.trans hl, by omega⟩

theorem fewErrs_closed : Closed (fun _ => True) FewErrs where
  refl _ := fewErrs_same rfl (Nat.le_refl _)
  trans _ _ _ h1 h2 := by
    intro l hl
    obtain ⟨l1, e1, k1⟩ := h1 l hl
    obtain ⟨l2, e2, k2⟩ := h2 l1 e1
    exact ⟨l2, e2, by omega⟩
  indir _ _ := fewErrs_same rfl (Nat.le_refl _)
  unmatched _ _ := fewErrs_same rfl (Nat.le_refl _)
  world _ _ := fewErrs_same rfl (Nat.le_refl _)
  flags _ _ := fewErrs_same rfl (Nat.le_refl _)
  status _ _ _ _ := fewErrs_same rfl (Nat.le_refl _)
  exit _ _ _ := fewErrs_same rfl (Nat.le_refl _)
  redirectJs _ _ := fewErrs_same rfl (Nat.le_refl _)
  alreadyJs _ := fewErrs_same rfl (Nat.le_refl _)
  data _ _ _ _ _ h := fewErrs_same (index_modIndex_ne h (by decide)) (Nat.le_refl _)
  moveto _ _ _ _ _ h := fewErrs_same (index_modIndex_ne h (by decide)) (Nat.le_refl _)
  count _ _ := fewErrs_same rfl (Nat.le_succ _)
  fail sh s line _ h _ := by
    intro l hl
    obtain ⟨l', e, k⟩ := h l hl
    refine ⟨l' ++ [.str line], pushError_errors e, ?_⟩
    have : (pushError s line).count = s.count := rfl
    simp only at k
    simp only [List.length_append, List.length_singleton]
    omega

/-- **C88 (any evaluation).** The evaluation of any source records at most one error for each BIF it evaluates. -/
theorem C88_evaluation (env : Env) (n : Nat) (sh sh' : Shared) (inh inh' : Inherit) (src only out : Str) (blocks : List (Nat × Nat))
    (a : List Value) (he : errorsOf sh = .arr a) (h : runBlocks env n sh inh src blocks only = .ok out sh' inh') :
    ∃ more, errorsOf sh' = .arr (a ++ more) ∧ more.length ≤ sh'.count - sh.count := by
  obtain ⟨more, hm⟩ := C22_errors_grow env n sh sh' inh inh' src only out blocks a he h
  have := runBlocks_rel fewErrs_closed env (fun _ => OpsIn_true _) n sh inh src blocks only
  rw [h] at this
  obtain ⟨l', e, k⟩ := this a he
  rw [hm] at e
  simp only [Value.arr.injEq] at e
  subst e
  simp only [List.length_append] at k
  exact ⟨more, hm, by omega⟩

theorem renderWith_few {env : Env} {n : Nat} {t t' : Tpl} {sc : Value} {w : World}
    (h : renderWith env n t sc (Shared.new env w t.schema) = .ok t') :
    ∃ l, t'.getError = .arr l ∧ l.length ≤ t'.shared.count := by
  obtain ⟨sh, raw, sh1, inh, h0, h1, h2⟩ := renderWith_rel fewErrs_closed env (fun _ => OpsIn_true _) h
  obtain ⟨l, e, k⟩ := h2 [] (initShared_errors h1)
  obtain ⟨sc1, f, hf⟩ := initShared_frame h1
  have hz := (sharedNew_fields h0).2.2.2.2.2.1
  refine ⟨l, e, ?_⟩
  have : sh1.count = 0 := by rw [hf]; exact hz
  simp only [List.length_nil] at k
  omega

/-- **C88.** A render records at most one error for each BIF it evaluates, hence never more than the limit of the schema. -/
theorem C88_render (env : Env) (n : Nat) (w : World) (t t' : Tpl) (hb : contains bifOpen t.raw = true)
    (h : t.render env n w = .ok t') :
    ∃ l limit, t'.getError = .arr l ∧ l.length ≤ t'.shared.count ∧
      ((t.schema.index c!"config").index c!"infinite_loop_max_bifs").asU64? = some limit ∧ l.length ≤ limit := by
  obtain ⟨limit, h1, h2⟩ := C19_render env n w t t' hb h
  unfold Tpl.render at h
  simp only [hb, Bool.not_true, Bool.false_eq_true, if_false] at h
  obtain ⟨l, h3, h4⟩ := renderWith_few h
  exact ⟨l, limit, h3, h4, h1, by omega⟩

/-! ### examples -/

/-- The errors of a render, as texts. -/
def Sample.errorsIn : RRes → List Str
  | .ok t => match t.getError with
    | .arr l => l.map (fun v => match v with | .str x => x | _ => c!"?")
    | _ => []
  | _ => []

set_option maxRecDepth 10000 in
/-- Errors of several kinds, at any depth and in the second pass; breaks inside a BIF do not break the line. -/
example : Sample.errorsIn (Sample.go [] c!"{:nope;x:}\n{:code; {:sum; /a/\nb :} :}{:zz\n:}{:+;x:}{:snip; {:flg; a :} >> x :}{:cache; /120/ >> {:!cache; {:nope;y:} :} :}") =
    [c!"[2025] Error (unknown) unknown bif file~: () src: {:nope;x:}",
     c!"[2025] Error (sum) invalid argument 1 file~: () src: {:sum; /a/ b :}",
     c!"The delimiter was not found: {:zz :}",
     c!"[2025] Error () modifier not allowed file~: () src: {:+;x:}",
     c!"[2025] Error (snippet) a flag not allowed file~: () src: {:snip; {:flg; a :} >> x :}",
     c!"[2025] Error (unknown) unknown bif file~: () src: {:nope;y:}"] := by
  decide +kernel

example : OneLine c!"a\r\nb" c!"a  b" := oneLine_iff.2 (by decide)

example : ¬ OneLine c!"a\nb" c!"ab" := fun h => by
  have := h.1
  exact absurd this (by decide)

end Nts
