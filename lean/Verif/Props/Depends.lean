import Verif.Props.Errors
/-
C90: what a render depends on: the clock, random numbers, the creation of files and the interpreters matter only through the BIFs that
use them.
-/
set_option autoImplicit false
namespace Nts
open Spec

/-! ### specification -/

/-- What the outside provides, besides files to read. -/
inductive Spec.Facility
  /-- the time -/
  | clock
  /-- random numbers -/
  | random
  /-- creating files and directories -/
  | creating
  /-- Python and PHP -/
  | interpreters
deriving DecidableEq

/-- The BIFs that use it. -/
def Spec.usersOf : Facility → List Str
  | .clock => [c!"date", c!"cache", c!"debug", c!"obj"]
  | .random => [c!"rand", c!"hash"]
  | .creating => [c!"cache", c!"obj"]
  | .interpreters => [c!"obj"]

/-- The two environments are the same, except for the facilities in `other`. -/
structure Spec.SameBut (other : Facility → Prop) (e1 e2 : Env) : Prop where
  pure : e2.f64 = e1.f64 ∧ e2.lower = e1.lower ∧ e2.jsonParse = e1.jsonParse ∧ e2.jsonErr = e1.jsonErr ∧ e2.jsonShow = e1.jsonShow ∧
    e2.jsonPretty = e1.jsonPretty ∧ e2.md5 = e1.md5 ∧ e2.sha256 = e1.sha256 ∧ e2.parent = e1.parent ∧ e2.canon = e1.canon ∧
    e2.readErr = e1.readErr ∧ e2.neutralJs = e1.neutralJs ∧ e2.overflowChecks = e1.overflowChecks ∧ e2.tempDir = e1.tempDir ∧
    e2.workDir = e1.workDir
  clock : other .clock ∨ (e2.now = e1.now ∧ e2.age = e1.age ∧ e2.localTime = e1.localTime ∧ e2.utcFormat = e1.utcFormat)
  random : other .random ∨ (e2.randHash = e1.randHash ∧ e2.randRange = e1.randRange)
  creating : other .creating ∨ (e2.mkdirErr = e1.mkdirErr ∧ e2.createErr = e1.createErr ∧ e2.writeErr = e1.writeErr)
  interpreters : other .interpreters ∨ (e2.execObj = e1.execObj ∧ e2.bridgePath = e1.bridgePath ∧ e2.bridgeScript = e1.bridgeScript)

/-- The BIF `raw` needs one of the facilities: it is one of the BIFs that use it, or it fails and its error tells the time. -/
def Spec.Needs (other : Facility → Prop) (env : Env) (R : Rec) (raw : Str) (sh : Shared) (inh : Inherit) (only : Str) : Prop :=
  ∃ name s, Started sh inh raw only name s ∧
    ((∃ f, other f ∧ name ∈ usersOf f) ∨ (other .clock ∧ ∃ e s1, Moment R (bifBody env name) s (.throw e) s1))

/-! ### the bodies -/

/-- The first environment with the facilities of the second. -/
def patch (e1 e2 : Env) : Env :=
  { e1 with
    randHash := e2.randHash
    randRange := e2.randRange
    now := e2.now
    age := e2.age
    localTime := e2.localTime
    utcFormat := e2.utcFormat
    mkdirErr := e2.mkdirErr
    createErr := e2.createErr
    writeErr := e2.writeErr
    bridgePath := e2.bridgePath
    bridgeScript := e2.bridgeScript
    execObj := e2.execObj }

theorem sameBut_patch {other : Facility → Prop} {e1 e2 : Env} (h : SameBut other e1 e2) : e2 = patch e1 e2 := by
  obtain ⟨h1, h2, h3, h4, h5, h6, h7, h8, h9, h10, h11, h12, h13, h14, h15⟩ := h.pure
  unfold patch
  cases e1
  cases e2
  simp only at h1 h2 h3 h4 h5 h6 h7 h8 h9 h10 h11 h12 h13 h14 h15
  subst h1 h2 h3 h4 h5 h6 h7 h8 h9 h10 h11 h12 h13 h14 h15
  rfl

theorem ite_same {α : Type} {c : Prop} [Decidable c] {p q p' q' : α} (h1 : c → p = p') (h2 : q = q') :
    (if c then p else q) = if c then p' else q' := by
  by_cases h : c
  · rw [if_pos h, if_pos h]; exact h1 h
  · rw [if_neg h, if_neg h]; exact h2

theorem body_same {other : Facility → Prop} {e1 e2 : Env} (h : SameBut other e1 e2) (name : Str)
    (hn : ∀ f, other f → name ∉ usersOf f) : bifBody e2 name = bifBody e1 name := by
  have hp := sameBut_patch h
  have hclock : name ∈ usersOf .clock → e2.now = e1.now ∧ e2.age = e1.age ∧ e2.localTime = e1.localTime ∧ e2.utcFormat = e1.utcFormat :=
    fun hm => h.clock.resolve_left (fun ho => hn _ ho hm)
  have hrandom : name ∈ usersOf .random → e2.randHash = e1.randHash ∧ e2.randRange = e1.randRange :=
    fun hm => h.random.resolve_left (fun ho => hn _ ho hm)
  have hcreating : name ∈ usersOf .creating → e2.mkdirErr = e1.mkdirErr ∧ e2.createErr = e1.createErr ∧ e2.writeErr = e1.writeErr :=
    fun hm => h.creating.resolve_left (fun ho => hn _ ho hm)
  have hint : name ∈ usersOf .interpreters →
      e2.execObj = e1.execObj ∧ e2.bridgePath = e1.bridgePath ∧ e2.bridgeScript = e1.bridgeScript :=
    fun hm => h.interpreters.resolve_left (fun ho => hn _ ho hm)
  rw [hp]
  unfold bifBody
  refine ite_same (fun _ => rfl) ?_
  refine ite_same (fun _ => rfl) ?_
  refine ite_same (fun _ => rfl) ?_
  refine ite_same (fun _ => rfl) ?_
  refine ite_same (fun hx => ?_) ?_
  · obtain ⟨a, b, c, d⟩ := hclock (by rw [hx]; decide)
    obtain ⟨e, f, g⟩ := hcreating (by rw [hx]; decide)
    unfold patch
    rw [a, b, c, d, e, f, g]
    rfl
  refine ite_same (fun _ => rfl) ?_
  refine ite_same (fun _ => rfl) ?_
  refine ite_same (fun _ => rfl) ?_
  refine ite_same (fun _ => rfl) ?_
  refine ite_same (fun _ => rfl) ?_
  refine ite_same (fun hx => ?_) ?_
  · obtain ⟨a, b, c, d⟩ := hclock (by rw [hx]; decide)
    unfold patch
    rw [a, b, c, d]
    rfl
  refine ite_same (fun _ => rfl) ?_
  refine ite_same (fun _ => rfl) ?_
  refine ite_same (fun _ => rfl) ?_
  refine ite_same (fun _ => rfl) ?_
  refine ite_same (fun _ => rfl) ?_
  refine ite_same (fun _ => rfl) ?_
  refine ite_same (fun _ => rfl) ?_
  refine ite_same (fun _ => rfl) ?_
  refine ite_same (fun _ => rfl) ?_
  refine ite_same (fun _ => rfl) ?_
  refine ite_same (fun hx => ?_) ?_
  · obtain ⟨a, b⟩ := hrandom (by rw [hx]; decide)
    unfold patch
    rw [a, b]
    rfl
  refine ite_same (fun _ => rfl) ?_
  refine ite_same (fun _ => rfl) ?_
  refine ite_same (fun _ => rfl) ?_
  refine ite_same (fun _ => rfl) ?_
  refine ite_same (fun _ => rfl) ?_
  refine ite_same (fun _ => rfl) ?_
  refine ite_same (fun _ => rfl) ?_
  refine ite_same (fun hx => ?_) ?_
  · obtain ⟨a, b⟩ := hrandom (by rw [hx]; decide)
    unfold patch
    rw [a, b]
    rfl
  refine ite_same (fun _ => rfl) ?_
  refine ite_same (fun _ => rfl) ?_
  refine ite_same (fun _ => rfl) ?_
  refine ite_same (fun _ => rfl) ?_
  refine ite_same (fun _ => rfl) ?_
  refine ite_same (fun _ => rfl) ?_
  refine ite_same (fun _ => rfl) ?_
  refine ite_same (fun hx => ?_) ?_
  · obtain ⟨e, f, g⟩ := hcreating (by rw [hx]; decide)
    obtain ⟨a, b, c⟩ := hint (by rw [hx]; decide)
    obtain ⟨i, j, k, l⟩ := hclock (by rw [hx]; decide)
    unfold patch
    rw [a, b, c, e, f, g, i, j, k, l]
    rfl
  refine ite_same (fun hx => ?_) rfl
  obtain ⟨a, b, c, d⟩ := hclock (by rw [hx]; decide)
  unfold patch
  rw [a, b, c, d]
  rfl

/-! ### the evaluation -/

theorem step_same {R1 R2 : Rec} {o : Op} {s : St}
    (h : ∀ csrc cbs, childOf o = some (csrc, cbs) →
      R1 (childStart s o) (childInherit s) csrc cbs s.only = R2 (childStart s o) (childInherit s) csrc cbs s.only) :
    step R1 o s = step R2 o s := by
  cases o with
  | child src scope =>
    simp only [step, runChild]
    have : parseSrc R1 (if scope then createBlockSchema s.sh s.inh else (s.sh, s.inh)).1 (childInherit s) src s.only =
        parseSrc R2 (if scope then createBlockSchema s.sh s.inh else (s.sh, s.inh)).1 (childInherit s) src s.only := by
      unfold parseSrc
      cases hx : extractBlocks src with
      | error p => rfl
      | ok bs =>
        have := h src bs (by simp [childOf, hx])
        simp only [childStart] at this
        cases scope <;> simpa using this
    rw [this]
  | childBlocks src bs scope =>
    simp only [step, runChild]
    have := h src bs rfl
    simp only [childStart] at this
    have h2 : R1 (if scope then createBlockSchema s.sh s.inh else (s.sh, s.inh)).1 (childInherit s) src bs s.only =
        R2 (if scope then createBlockSchema s.sh s.inh else (s.sh, s.inh)).1 (childInherit s) src bs s.only := by
      cases scope <;> simpa using this
    rw [h2]
  | pushFile k p => cases k <;> rfl
  | _ => rfl

theorem run_same {R1 R2 : Rec} {α : Type} (p : Prog α) : ∀ (s : St),
    (∀ (o : Op) (k : o.Resp → Prog α) s1, Moment R1 p s (.op o k) s1 → ∀ csrc cbs, childOf o = some (csrc, cbs) →
      R1 (childStart s1 o) (childInherit s1) csrc cbs s.only = R2 (childStart s1 o) (childInherit s1) csrc cbs s.only) →
    run R1 p s = run R2 p s := by
  induction p with
  | pure a => intros; rfl
  | throw e => intros; rfl
  | panic q => intros; rfl
  | op o k ih =>
    intro s h
    simp only [run]
    rw [← step_same (R1 := R1) (R2 := R2) (h o k s (.now _ _))]
    cases hst : step R1 o s with
    | panic q => rfl
    | oof => rfl
    | ok r s' =>
      have ho := step_only hst
      refine ih r s' fun o' k' s1 hm csrc cbs hc => ?_
      rw [ho]
      exact h o' k' s1 (.step hst hm) csrc cbs hc

section
variable {other : Facility → Prop} {e1 e2 : Env}

theorem runBif_same (h : SameBut other e1 e2) {R1 R2 : Rec} {sh : Shared} {inh : Inherit} {raw only : Str}
    (hn : ¬ Needs other e1 R1 raw sh inh only)
    (hR : ∀ name s, Started sh inh raw only name s → ∀ (o : Op) (k : o.Resp → Prog Unit) (s1 : St),
      Moment R1 (bifBody e1 name) s (.op o k) s1 → ∀ csrc cbs, childOf o = some (csrc, cbs) →
        R1 (childStart s1 o) (childInherit s1) csrc cbs only = R2 (childStart s1 o) (childInherit s1) csrc cbs only) :
    runBif e1 R1 sh inh raw only = runBif e2 R2 sh inh raw only := by
  by_cases hs : ∃ name s, Started sh inh raw only name s
  · obtain ⟨name, s, hst⟩ := hs
    rw [runBif_started hst, runBif_started hst]
    have hb := body_same h name (fun f ho hm => hn ⟨name, s, hst, .inl ⟨f, ho, hm⟩⟩)
    have ho : s.only = only := by cases hst; rfl
    have hr := run_same (R1 := R1) (R2 := R2) (bifBody e1 name) s (by rw [ho]; exact hR name s hst)
    rw [hb, ← hr]
    cases hx : run R1 (bifBody e1 name) s with
    | ok a s1 => rfl
    | panic q => rfl
    | oof => rfl
    | err e s1 =>
      rcases h.clock with hc | ⟨_, _, hc, _⟩
      · exact absurd ⟨name, s, hst, .inr ⟨hc, e, s1, run_err.1 hx⟩⟩ hn
      · simp only [bifResult, hc]
  · unfold runBif bifParse
    split
    · rfl
    · next hc =>
      split
      · rfl
      · next full src hsp =>
        split
        · rfl
        · next hsel =>
          split
          · rfl
          · next b name hset =>
            refine absurd ⟨name, _, Started.mk (by omega) hsp ?_ hset⟩ hs
            by_cases h1 : only = []
            · exact .inl h1
            · by_cases h2 : contains only full = true
              · exact .inr (.inl h2)
              · refine .inr (.inr ?_)
                have h3 : only.isEmpty = false := by cases only <;> simp_all
                rw [h3, Bool.eq_false_iff.2 h2] at hsel
                simpa using hsel

/-- No BIF of the blocks, nor nested in them, needs the facilities. -/
def Free (other : Facility → Prop) (env : Env) (only : Str) (n : Nat) (src : Str) (bs : List (Nat × Nat)) (sh : Shared) (inh : Inherit) : Prop :=
  ∀ m raw sh1 inh1, Evaluates env n src only bs sh inh m raw sh1 inh1 → ¬ Needs other env (runBlocks env m) raw sh1 inh1 only

theorem blocks_same (h : SameBut other e1 e2) {only : Str} {n : Nat}
    (hR : ∀ k, n = k + 1 → ∀ sh inh src bs, Free other e1 only k src bs sh inh →
      runBlocks e1 n sh inh src bs only = runBlocks e2 n sh inh src bs only) (src : Str) (bs : List (Nat × Nat)) :
    ∀ (prevEnd : Nat) (out : Str) (sh : Shared) (inh : Inherit), Free other e1 only n src bs sh inh →
      blocksGo e1 (runBlocks e1 n) src only prevEnd out bs sh inh = blocksGo e2 (runBlocks e2 n) src only prevEnd out bs sh inh := by
  induction bs with
  | nil => intros; rfl
  | cons be bs ih =>
    intro prevEnd out sh inh hf
    obtain ⟨b, e⟩ := be
    unfold blocksGo
    cases hx : sh.exit with
    | true => simp only [if_true]
    | false =>
      simp only [Bool.false_eq_true, if_false]
      cases hk : (startsWith c!"{:*" (slice src b e) || (inh.lastCoalesceOut && inh.alias = c!"coalesce")) with
      | true =>
        simp only [if_true]
        exact ih _ _ _ _ fun m raw sh1 inh1 hev => hf m raw sh1 inh1 (.skip hx hk hev)
      | false =>
        simp only [Bool.false_eq_true, if_false]
        rw [← runBif_same (R1 := runBlocks e1 n) (R2 := runBlocks e2 n) h (hf _ _ _ _ (.here hx hk))]
        · cases hr : runBif e1 (runBlocks e1 n) sh inh (slice src b e) only with
          | panic q => rfl
          | oof => rfl
          | ok x sh' inh' =>
            exact ih _ _ _ _ fun m raw sh1 inh1 hev => hf m raw sh1 inh1 (.later hx hk hr hev)
        · intro name s hst o k s1 hm csrc cbs hc
          cases n with
          | zero => rfl
          | succ n =>
            exact hR n rfl _ _ _ _ fun m raw sh1 inh1 hev => hf m raw sh1 inh1 (.nested hx hk hst hm hc hev)

theorem runBlocks_same (h : SameBut other e1 e2) {only : Str} : ∀ (n : Nat) (sh : Shared) (inh : Inherit) (src : Str)
    (bs : List (Nat × Nat)), Free other e1 only n src bs sh inh →
    runBlocks e1 (n + 1) sh inh src bs only = runBlocks e2 (n + 1) sh inh src bs only := by
  intro n
  induction n with
  | zero =>
    intro sh inh src bs hf
    exact blocks_same (n := 0) h (fun k hk => by omega) src bs 0 [] sh inh hf
  | succ n ih =>
    intro sh inh src bs hf
    refine blocks_same (n := n + 1) h (fun k hk sh' inh' src' bs' hf' => ?_) src bs 0 [] sh inh hf
    have : k = n := by omega
    subst this
    exact ih sh' inh' src' bs' hf'

/-! ### whole renders -/

theorem pass_same (h : SameBut other e1 e2) {sh : Shared} {inh : Inherit} {text only : Str}
    (hn : ¬ Somewhere (Needs other e1) e1 sh.max sh { inh with blockCount := inh.blockCount + 1 } text only) :
    pass e1 sh inh text only = pass e2 sh inh text only := by
  unfold pass parseSrc
  cases hx : extractBlocks text with
  | error p => rfl
  | ok bs =>
    dsimp only
    rw [runBlocks_same h sh.max sh { inh with blockCount := inh.blockCount + 1 } text bs
      fun m raw sh1 inh1 hev hneed => hn ⟨bs, hx, m, raw, sh1, inh1, hev, hneed⟩]

theorem loop_same (h : SameBut other e1 e2) {inh : Inherit} {sh0 : Shared} {raw : Str} (n : Nat) :
    ∀ (j : Nat) (sh sh2 : Shared) (inh2 : Inherit) (text only out : Str), PassOf e1 inh sh0 raw j sh text only →
    pass e1 sh inh text only = .ok out sh2 inh2 →
    (∀ k sh1 text1 only1, k ≤ j + n → PassOf e1 inh sh0 raw k sh1 text1 only1 →
      ¬ Somewhere (Needs other e1) e1 sh1.max sh1 { inh with blockCount := inh.blockCount + 1 } text1 only1) →
    cacheLoop e1 inh n sh2 out = cacheLoop e2 inh n sh2 out := by
  induction n with
  | zero => intros; rfl
  | succ n ih =>
    intro j sh sh2 inh2 text only out hp hr hf
    unfold cacheLoop
    by_cases hc : contains c!"{:!cache;" out = true
    · rw [if_pos hc, if_pos hc]
      have hn : PassOf e1 inh sh0 raw (j + 1) sh2 out c!"!cache" :=
        .next hp hr ((contains_iff (p := c!"{:!cache;") (s := out) (by decide)).1 hc)
      rw [← pass_same h (hf (j + 1) _ _ _ (by omega) hn)]
      cases hq : pass e1 sh2 inh out c!"!cache" with
      | panic q => rfl
      | oof => rfl
      | ok out' sh' inh' =>
        exact ih (j + 1) _ _ _ _ _ _ hn hq fun k sh1 text1 only1 hk hpk => hf k sh1 text1 only1 (by omega) hpk
    · rw [if_neg hc, if_neg hc]

theorem sharedNew_same (h : SameBut other e1 e2) (w : World) (v : Value) : Shared.new e1 w v = Shared.new e2 w v := by
  rw [sameBut_patch h]; rfl

theorem init_same (h : SameBut other e1 e2) (f raw : Str) (sh : Shared) : initShared e1 f raw sh = initShared e2 f raw sh := by
  rw [sameBut_patch h]; rfl

theorem renderWith_same (h : SameBut other e1 e2) {n : Nat} {t : Tpl} {sc : Value} {sh : Shared}
    (hn : ¬ InSomePass (Needs other e1) e1 n t sh) : renderWith e1 n t sc (some sh) = renderWith e2 n t sc (some sh) := by
  unfold renderWith
  dsimp only
  rw [← init_same h]
  cases hi : initShared e1 t.filePath t.raw sh with
  | error p => rfl
  | ok r =>
    obtain ⟨raw, sh0, inh⟩ := r
    dsimp only
    have hf : ∀ k sh1 text1 only1, k ≤ n → PassOf e1 inh sh0 raw k sh1 text1 only1 →
        ¬ Somewhere (Needs other e1) e1 sh1.max sh1 { inh with blockCount := inh.blockCount + 1 } text1 only1 :=
      fun k sh1 text1 only1 hk hp hs => hn ⟨raw, sh0, inh, hi, k, sh1, text1, only1, hk, hp, hs⟩
    rw [← pass_same h (hf 0 _ _ _ (by omega) .first)]
    cases hp : pass e1 sh0 inh raw [] with
    | panic q => rfl
    | oof => rfl
    | ok out sh2 inh2 =>
      dsimp only
      rw [← loop_same h n 0 sh0 sh2 inh2 raw [] out .first hp (fun k sh1 text1 only1 hk hpk => hf k sh1 text1 only1 (by omega) hpk)]
end

/-- **C90.** Two environments that differ only in the facilities `other` (the clock, random numbers, creating files, the interpreters)
give the same render - output, status, errors, everything - unless a BIF evaluated in it needs one of these facilities. -/
theorem C90_depends (other : Facility → Prop) (e1 e2 : Env) (h : SameBut other e1 e2) (n : Nat) (w : World) (t : Tpl)
    (hn : ∀ sh, Shared.new e1 w t.schema = some sh → ¬ InSomePass (Needs other e1) e1 n t sh) :
    t.render e1 n w = t.render e2 n w := by
  unfold Tpl.render
  split
  · rfl
  · rw [← sharedNew_same h]
    cases hs : Shared.new e1 w t.schema with
    | none => rfl
    | some sh => exact renderWith_same h (hn sh hs)

/-- ... and for `render_once`. -/
theorem C90_depends_once (other : Facility → Prop) (e1 e2 : Env) (h : SameBut other e1 e2) (n : Nat) (w : World) (t : Tpl)
    (hn : ∀ sh, Shared.new e1 w t.schema = some sh → ¬ InSomePass (Needs other e1) e1 n t sh) :
    t.renderOnce e1 n w = t.renderOnce e2 n w := by
  unfold Tpl.renderOnce
  rw [renderOnceWith_eq]
  split
  · rfl
  · rw [← sharedNew_same h]
    cases hs : Shared.new e1 w t.schema with
    | none => rfl
    | some sh => exact renderWith_same h (hn sh hs)

/-! ### examples -/

/-- Another clock, other random numbers, no interpreters. -/
def Sample.elsewhere : Env :=
  { Sample.env with
    now := fun t => 77 + t
    localTime := fun _ => c!"1999"
    randHash := fun _ => c!"r"
    randRange := fun _ _ b => b }

theorem Sample.elsewhere_same : SameBut (fun f => f = .clock ∨ f = .random) Sample.env Sample.elsewhere :=
  ⟨by refine ⟨?_, ?_, ?_, ?_, ?_, ?_, ?_, ?_, ?_, ?_, ?_, ?_, ?_, ?_, ?_⟩ <;> rfl, .inl (.inl rfl), .inl (.inr rfl),
    .inr ⟨rfl, rfl, rfl⟩, .inr ⟨rfl, rfl, rfl⟩⟩

theorem moment_ops {α : Type} {R : Rec} {P : Op → Prop} {p p' : Prog α} {s s' : St} (hm : Moment R p s p' s') (hp : OpsIn P p) :
    OpsIn P p' := by
  induction hm with
  | now p s => exact hp
  | step _ _ ih => exact ih (hp.2 _)

theorem Sample.lang_started {sh : Shared} {inh : Inherit} {only name : Str} {s : St} (h : Started sh inh c!"{:lang;:}" only name s) :
    name = c!"lang" := by
  generalize hr : c!"{:lang;:}" = raw at h
  cases h with
  | @mk full src name b _ hsp _ hset =>
    subst hr
    have h1 : bifSplit c!"{:lang;:}" = some (c!"lang", []) := by decide +kernel
    rw [h1] at hsp
    have h3 := Option.some.inj hsp
    injection h3 with h3 h4
    subst h3 h4
    have h2 : setModifiers { BifS.new with src := [] } c!"lang" = some ({ BifS.new with src := [] }, c!"lang") := by
      simp [setModifiers]
    rw [h2] at hset
    have h5 := Option.some.inj hset
    injection h5 with _ h6
    exact h6.symm

theorem Sample.lang_only {env : Env} {n m : Nat} {src only raw : Str} {bs : List (Nat × Nat)} {sh sh1 : Shared} {inh inh1 : Inherit}
    (h : Evaluates env n src only bs sh inh m raw sh1 inh1) (hl : ∀ be ∈ bs, slice src be.1 be.2 = c!"{:lang;:}") :
    raw = c!"{:lang;:}" := by
  induction h with
  | here _ _ => exact hl _ (List.mem_cons_self ..)
  | skip _ _ _ ih => exact ih fun be hb => hl be (List.mem_cons_of_mem _ hb)
  | later _ _ _ _ ih => exact ih fun be hb => hl be (List.mem_cons_of_mem _ hb)
  | @nested _ _ _ _ _ _ _ _ _ _ _ _ _ _ _ o _ _ _ _ _ hst hm hc _ _ =>
    have hs := hl _ (List.mem_cons_self ..)
    simp only at hs
    rw [hs] at hst
    have hn := Sample.lang_started hst
    rw [hn] at hm
    have ops : OpsIn (fun o => childOf o = none) (bifBody env c!"lang") := by
      show OpsIn _ bifLang
      refine OpsIn_bind (p := denyMods _) ⟨rfl, fun s => ?_⟩ fun _ => ⟨rfl, fun s => ⟨rfl, fun _ => trivial⟩⟩
      show OpsIn _ (if _ then bifError _ else Prog.pure ())
      split
      · exact ⟨rfl, fun _ => trivial⟩
      · exact trivial
    have : childOf o = none := (moment_ops hm ops).1
    rw [hc] at this
    simp at this

set_option maxRecDepth 10000 in
/-- In the sample template only `{:lang;:}` is evaluated. -/
theorem Sample.lang_pass (P : Rec → Str → Shared → Inherit → Str → Prop) (sh : Shared)
    (h : InSomePass P Sample.env 0 (Sample.tpl (Sample.schema 1000 [] Sample.inherit) c!"a{:lang;:}b{:lang;:}") sh) :
    ∃ R sh2 inh2 only, P R c!"{:lang;:}" sh2 inh2 only := by
  have hblocks : extractBlocks c!"a{:lang;:}b{:lang;:}" = .ok [(1, 10), (11, 20)] := rfl
  obtain ⟨raw, sh0, inh, hi, k, sh1, text, only, hk, hp, bs, hbs, m, r, sh2, inh2, hev, hP⟩ := h
  have hk : k = 0 := by omega
  subst hk
  cases hp
  have hraw : raw = c!"a{:lang;:}b{:lang;:}" := by
    unfold initShared at hi
    have h1 : removeComments c!"a{:lang;:}b{:lang;:}" = some c!"a{:lang;:}b{:lang;:}" := by decide +kernel
    have h2 : (if contains c!"remove" sh.comments then removeComments c!"a{:lang;:}b{:lang;:}" else some c!"a{:lang;:}b{:lang;:}") =
        some c!"a{:lang;:}b{:lang;:}" := by rw [h1]; split <;> rfl
    rw [show (Sample.tpl (Sample.schema 1000 [] Sample.inherit) c!"a{:lang;:}b{:lang;:}").raw = c!"a{:lang;:}b{:lang;:}" from rfl, h2] at hi
    dsimp only at hi
    split at hi
    · simp at hi
    · split at hi
      · simp at hi
      · injection hi with hi
        injection hi with hi _
        exact hi.symm
  subst hraw
  rw [hblocks] at hbs
  injection hbs with hbs
  subst hbs
  have hr := Sample.lang_only hev (by decide +kernel)
  rw [hr] at hP
  exact ⟨_, _, _, _, hP⟩

/-- The hypotheses can be met: `lang` needs neither random numbers nor the interpreters. -/
theorem Sample.lang_free (sh : Shared) :
    ¬ InSomePass (Needs (fun f => f = .random ∨ f = .interpreters) Sample.env) Sample.env 0
      (Sample.tpl (Sample.schema 1000 [] Sample.inherit) c!"a{:lang;:}b{:lang;:}") sh := by
  intro h
  obtain ⟨R, sh2, inh2, only, name, s, hst, hneed⟩ := Sample.lang_pass _ sh h
  have hn := Sample.lang_started hst
  subst hn
  rcases hneed with ⟨f, rfl | rfl, hm⟩ | ⟨h, _⟩
  · revert hm; decide
  · revert hm; decide
  · rcases h with h | h <;> simp at h

set_option maxRecDepth 10000 in
/-- So it renders the same in an environment with other random numbers ... -/
example (e2 : Env) (h : SameBut (fun f => f = .random ∨ f = .interpreters) Sample.env e2) :
    (Sample.tpl (Sample.schema 1000 [] Sample.inherit) c!"a{:lang;:}b{:lang;:}").render Sample.env 0 Sample.world =
    (Sample.tpl (Sample.schema 1000 [] Sample.inherit) c!"a{:lang;:}b{:lang;:}").render e2 0 Sample.world :=
  C90_depends _ _ _ h 0 _ _ fun sh _ => Sample.lang_free sh

set_option maxRecDepth 10000 in
/-- ... while one that needs them renders differently: with `rand`, or with an error. -/
example : (Sample.outOf ((Sample.tpl (Sample.schema 1000 [] Sample.inherit) c!"{:rand; 1..9 :}").render Sample.env 0 Sample.world)).map (·.1) ≠
    (Sample.outOf ((Sample.tpl (Sample.schema 1000 [] Sample.inherit) c!"{:rand; 1..9 :}").render Sample.elsewhere 0 Sample.world)).map (·.1) := by
  decide +kernel

end Nts
