import Verif.Props.Depends
/-
C92: what a render reports (its status, the redirect, the moved texts) was asked for by a BIF evaluated in it.
-/
set_option autoImplicit false
namespace Nts
open Spec

/-! ### specification -/

/-- The status: code, text and parameter. -/
def Spec.statusOf (sh : Shared) : Str × Str × Str := (sh.statusCode, sh.statusText, sh.statusParam)

/-- The status of a text whose braces do not match, at the byte `p`. -/
def Spec.unmatchedStatus (p : Nat) : Str × Str × Str :=
  (c!"500", c!"Internal Server Error", c!"Unmatched block at position " ++ showNat p)

/-- The BIF `raw`, called one of `names`, is evaluated: `P` does not hold before and holds after it. -/
def Spec.Leaves (env : Env) (names : List Str) (P : Shared → Prop) (R : Rec) (raw : Str) (sh : Shared) (inh : Inherit) (only : Str) : Prop :=
  ∃ name s, Started sh inh raw only name s ∧ name ∈ names ∧ ¬ P sh ∧ ∃ x sh' inh', runBif env R sh inh raw only = .ok x sh' inh' ∧ P sh'

/-- The BIF `raw` has a text evaluated whose braces do not match, at the byte `p`. -/
def Spec.MeetsUnmatched (env : Env) (p : Nat) (R : Rec) (raw : Str) (sh : Shared) (inh : Inherit) (only : Str) : Prop :=
  ∃ name s, Started sh inh raw only name s ∧ ∃ (src : Str) (scope : Bool) (k : Str → Prog Unit) (s1 : St),
    Moment R (bifBody env name) s (.op (.child src scope) k) s1 ∧ ∃ q, extractBlocks src = .error q ∧ p = byteLen (src.take q)

/-- In one of the first `n + 1` passes of a render the braces of the text to be evaluated do not match, at the byte `p`. -/
def Spec.PassUnmatched (p : Nat) (env : Env) (n : Nat) (t : Tpl) (sh : Shared) : Prop :=
  ∃ raw sh0 inh, initShared env t.filePath t.raw sh = .ok (raw, sh0, inh) ∧ ∃ k sh1 text only, k ≤ n ∧
    PassOf env inh sh0 raw k sh1 text only ∧ ∃ q, extractBlocks text = .error q ∧ p = byteLen (text.take q)

/-! ### what becomes true during a render becomes true somewhere -/

/-- What the machinery around the BIFs does not change. -/
structure Aloof (P : Shared → Prop) : Prop where
  indir : ∀ (sh : Shared) f, P { sh with indir := f } ↔ P sh
  count : ∀ (sh : Shared) n, P { sh with count := n } ↔ P sh
  tick : ∀ (sh : Shared) n, P { sh with w := { sh.w with tick := n } } ↔ P sh
  error : ∀ (sh : Shared) line, P (pushError sh line) ↔ P sh

/-- An operation of the program makes `P` true. -/
def OwnTurn (P : Shared → Prop) (R : Rec) {α : Type} (p : Prog α) (s : St) : Prop :=
  ∃ (o : Op) (k : o.Resp → Prog α) (s1 : St) (r : o.Resp) (s2 : St), Moment R p s (.op o k) s1 ∧ childOf o = none ∧
    step R o s1 = .ok r s2 ∧ ¬ P s1.sh ∧ P s2.sh

/-- The evaluation of the BIF `raw` makes `P` true, by an operation of its own. -/
def Turn (env : Env) (P : Shared → Prop) (R : Rec) (raw : Str) (sh : Shared) (inh : Inherit) (only : Str) : Prop :=
  ¬ P sh ∧ ∃ x sh' inh', runBif env R sh inh raw only = .ok x sh' inh' ∧ P sh' ∧ ∃ name s, Started sh inh raw only name s ∧
    OwnTurn P R (bifBody env name) s

abbrev ChildTurn := Shared → Inherit → Str → List (Nat × Nat) → Prop

/-- The recursive call makes `P` true only when `C` holds. -/
def TurnsBy (P : Shared → Prop) (R : Rec) (only : Str) (C : ChildTurn) : Prop :=
  ∀ sh inh src bs x sh' inh', R sh inh src bs only = .ok x sh' inh' → ¬ P sh → P sh' → C sh inh src bs

/-- A child of the program makes `P` true. -/
def InnerTurn (C : ChildTurn) (R : Rec) {α : Type} (p : Prog α) (s : St) : Prop :=
  ∃ (o : Op) (k : o.Resp → Prog α) (s1 : St), Moment R p s (.op o k) s1 ∧ ∃ csrc cbs, childOf o = some (csrc, cbs) ∧
    C (childStart s1 o) (childInherit s1) csrc cbs

theorem childStart_aloof {P : Shared → Prop} (hP : Aloof P) (s : St) (o : Op) : P (childStart s o) ↔ P s.sh := by
  have hc : ∀ sh inh, P (createBlockSchema sh inh).1 ↔ P sh := by
    intro sh inh
    unfold createBlockSchema
    dsimp only
    generalize (if inh.blockCount < 1 then c!"block_1" else blockId inh.blockCount) = bid
    split
    · split
      · exact hP.indir _ _
      · exact Iff.rfl
    · exact Iff.rfl
  unfold childStart
  split
  · exact hc _ _
  · exact hc _ _
  · exact Iff.rfl

theorem run_turn {P : Shared → Prop} (hP : Aloof P) {R : Rec} {only : Str} {C : ChildTurn} (hR : TurnsBy P R only C) {α : Type}
    (p : Prog α) : ∀ s, s.only = only → (run R p s).Post (fun s' => ¬ P s.sh → P s'.sh → OwnTurn P R p s ∨ InnerTurn C R p s) := by
  induction p with
  | pure a => exact fun s _ h1 h2 => absurd h2 h1
  | throw e => exact fun s _ h1 h2 => absurd h2 h1
  | panic q => exact fun _ _ => trivial
  | op o k ih =>
    intro s ho
    simp only [run]
    cases hst : step R o s with
    | panic q => trivial
    | oof => trivial
    | ok r s' =>
      have h2 := ih r s' ((step_only hst).trans ho)
      have key : ∀ s2 : St, (¬ P s'.sh → P s2.sh → OwnTurn P R (k r) s' ∨ InnerTurn C R (k r) s') → ¬ P s.sh → P s2.sh →
          OwnTurn P R (.op o k) s ∨ InnerTurn C R (.op o k) s := by
        intro s2 h3 h4 h5
        by_cases h6 : P s'.sh
        · cases hc : childOf o with
          | none => exact .inl ⟨o, k, s, r, s', .now _ _, hc, hst, h4, h6⟩
          | some q =>
            obtain ⟨csrc, cbs⟩ := q
            obtain ⟨x, sh', inh', f, g1, g2⟩ := step_child hc hst
            rw [ho] at g1
            refine .inr ⟨o, k, s, .now _ _, csrc, cbs, hc, hR _ _ _ _ _ _ _ g1 ?_ ?_⟩
            · rwa [childStart_aloof hP]
            · rw [g2] at h6; exact (hP.indir _ _).1 h6
        · rcases h3 h6 h5 with ⟨o', k', s1, r', s3, g1, g2⟩ | ⟨o', k', s1, g1, g2⟩
          · exact .inl ⟨o', k', s1, r', s3, .step hst g1, g2⟩
          · exact .inr ⟨o', k', s1, .step hst g1, g2⟩
      simp only
      revert h2
      generalize run R (k r) s' = res
      intro h2
      cases res with
      | ok a s2 => exact key s2 h2
      | err e s2 => exact key s2 h2
      | panic q => trivial
      | oof => trivial

theorem runBif_turn {env : Env} {P : Shared → Prop} (hP : Aloof P) {R : Rec} {only : Str} {C : ChildTurn} (hR : TurnsBy P R only C)
    {sh sh' : Shared} {inh inh' : Inherit} {raw x : Str} (h : runBif env R sh inh raw only = .ok x sh' inh') (h1 : ¬ P sh) (h2 : P sh') :
    Turn env P R raw sh inh only ∨ ∃ name s, Started sh inh raw only name s ∧ InnerTurn C R (bifBody env name) s := by
  by_cases hc : sh.count < sh.max
  case neg =>
    unfold runBif at h
    rw [if_pos (by omega)] at h
    simp at h
  · by_cases hs : ∃ name s, Started sh inh raw only name s
    · obtain ⟨name, s, hst⟩ := hs
      have ho : s.only = only := by cases hst; rfl
      have hn : ¬ P s.sh := by
        intro hp
        cases hst
        exact h1 ((hP.count _ _).1 hp)
      have h0 := h
      rw [runBif_started hst] at h
      have hr := run_turn hP hR (bifBody env name) s ho
      have key : OwnTurn P R (bifBody env name) s ∨ InnerTurn C R (bifBody env name) s := by
        cases hx : run R (bifBody env name) s with
        | ok a s1 =>
          rw [hx] at h hr
          simp only [bifResult, bifFinish, PRes.ok.injEq] at h
          rw [← h.2.1] at h2
          exact hr hn h2
        | err e s1 =>
          rw [hx] at h hr
          simp only [bifResult] at h
          split at h
          · simp at h
          · simp only [bifFinish, PRes.ok.injEq] at h
            rw [← h.2.1] at h2
            have h3 := (hP.error _ _).1 h2
            exact hr hn ((hP.tick s1.sh _).1 h3)
        | panic q => rw [hx] at h; simp [bifResult] at h
        | oof => rw [hx] at h; simp [bifResult] at h
      rcases key with hk | hk
      · exact .inl ⟨h1, x, sh', inh', h0, h2, name, s, hst, hk⟩
      · exact .inr ⟨name, s, hst, hk⟩
    · exfalso
      unfold runBif at h
      rw [if_neg (by omega)] at h
      unfold bifParse at h
      cases hsp : bifSplit raw with
      | none =>
        rw [hsp] at h
        dsimp only at h
        split at h
        · simp only [PRes.ok.injEq] at h
          rw [← h.2.1] at h2
          exact h1 ((hP.count _ _).1 h2)
        · split at h
          · simp at h
          · simp only [PRes.ok.injEq] at h
            rw [← h.2.1] at h2
            exact h1 ((hP.count _ _).1 ((hP.error _ _).1 h2))
      | some fs =>
        obtain ⟨full, src⟩ := fs
        rw [hsp] at h
        dsimp only at h
        split at h
        · simp only [PRes.ok.injEq] at h
          rw [← h.2.1] at h2
          exact h1 ((hP.count _ _).1 h2)
        · next hsel =>
          split at h
          · simp at h
          · next b name hset =>
            refine absurd ⟨name, _, Started.mk hc hsp ?_ hset⟩ hs
            by_cases h1 : only = []
            · exact .inl h1
            · by_cases h2 : contains only full = true
              · exact .inr (.inl h2)
              · refine .inr (.inr ?_)
                have h3 : only.isEmpty = false := by cases only <;> simp_all
                rw [h3, Bool.eq_false_iff.2 h2] at hsel
                simpa using hsel

/-- Some BIF of the blocks, or nested in them, makes `P` true. -/
def TurnIn (env : Env) (P : Shared → Prop) (only : Str) (n : Nat) (src : Str) (bs : List (Nat × Nat)) (sh : Shared) (inh : Inherit) : Prop :=
  ∃ m raw sh1 inh1, Evaluates env n src only bs sh inh m raw sh1 inh1 ∧ Turn env P (runBlocks env m) raw sh1 inh1 only

/-- ... when `n` levels are left. -/
def TurnBelow (env : Env) (P : Shared → Prop) (only : Str) : Nat → ChildTurn
  | 0 => fun _ _ _ _ => False
  | n + 1 => fun sh inh src bs => TurnIn env P only n src bs sh inh

theorem blocks_turn {env : Env} {P : Shared → Prop} (hP : Aloof P) {only : Str} {n : Nat}
    (hR : TurnsBy P (runBlocks env n) only (TurnBelow env P only n)) :
    ∀ (bs : List (Nat × Nat)) (src out x : Str) (prevEnd : Nat) (sh sh' : Shared) (inh inh' : Inherit),
    blocksGo env (runBlocks env n) src only prevEnd out bs sh inh = .ok x sh' inh' → ¬ P sh → P sh' →
      TurnIn env P only n src bs sh inh := by
  intro bs
  induction bs with
  | nil =>
    intro src out x prevEnd sh sh' inh inh' h h1 h2
    simp only [blocksGo, PRes.ok.injEq] at h
    rw [← h.2.1] at h2
    exact absurd h2 h1
  | cons be bs ih =>
    intro src out x prevEnd sh sh' inh inh' h h1 h2
    obtain ⟨b, e⟩ := be
    unfold blocksGo at h
    cases hx : sh.exit with
    | true =>
      rw [hx, if_pos rfl] at h
      simp only [PRes.ok.injEq] at h
      rw [← h.2.1] at h2
      exact absurd h2 h1
    | false =>
      rw [hx, if_neg (by simp)] at h
      dsimp only at h
      cases hk : (startsWith c!"{:*" (slice src b e) || (inh.lastCoalesceOut && inh.alias = c!"coalesce")) with
      | true =>
        rw [hk, if_pos rfl] at h
        obtain ⟨m, raw, sh1, inh1, g1, g2⟩ := ih _ _ _ _ _ _ _ _ h h1 h2
        exact ⟨m, raw, sh1, inh1, .skip hx hk g1, g2⟩
      | false =>
        rw [hk, if_neg (by simp)] at h
        cases hr : runBif env (runBlocks env n) sh inh (slice src b e) only with
        | ok y sh1 inh1 =>
          rw [hr] at h
          dsimp only at h
          by_cases h3 : P sh1
          · rcases runBif_turn hP hR hr h1 h3 with h4 | ⟨name, s, h4, o, k, s1, h5, csrc, cbs, h6, h7⟩
            · exact ⟨n, _, sh, inh, .here hx hk, h4⟩
            · cases n with
              | zero => exact h7.elim
              | succ n =>
                obtain ⟨m, raw, sh1, inh1, g1, g2⟩ := h7
                exact ⟨m, raw, sh1, inh1, .nested hx hk h4 h5 h6 g1, g2⟩
          · obtain ⟨m, raw, sh2, inh2, g1, g2⟩ := ih _ _ _ _ _ _ _ _ h h3 h2
            exact ⟨m, raw, sh2, inh2, .later hx hk hr g1, g2⟩
        | panic q => rw [hr] at h; simp at h
        | oof => rw [hr] at h; simp at h

theorem runBlocks_turn {env : Env} {P : Shared → Prop} (hP : Aloof P) (only : Str) (n : Nat) :
    TurnsBy P (runBlocks env n) only (TurnBelow env P only n) := by
  induction n with
  | zero => intro sh inh src bs x sh' inh' h; simp [runBlocks] at h
  | succ n ih => intro sh inh src bs x sh' inh' h h1 h2; exact blocks_turn hP ih bs src [] x 0 sh sh' inh inh' h h1 h2

/-- The pass makes `P` true: one of its BIFs does, or its text is unmatched. -/
def TurnPass (env : Env) (P : Shared → Prop) (inh : Inherit) (sh : Shared) (text only : Str) : Prop :=
  Somewhere (Turn env P) env sh.max sh { inh with blockCount := inh.blockCount + 1 } text only ∨
    ∃ p, extractBlocks text = .error p ∧ ¬ P sh ∧ P (handleUnmatched sh (byteLen (text.take p)))

theorem pass_turn {env : Env} {P : Shared → Prop} (hP : Aloof P) {sh sh' : Shared} {inh inh' : Inherit} {text only x : Str}
    (h : pass env sh inh text only = .ok x sh' inh') (h1 : ¬ P sh) (h2 : P sh') : TurnPass env P inh sh text only := by
  unfold pass parseSrc at h
  cases hx : extractBlocks text with
  | error p =>
    rw [hx] at h
    simp only [PRes.ok.injEq] at h
    obtain ⟨g, hg⟩ := dropBlock_sh (handleUnmatched sh (byteLen (List.take p text))) { inh with blockCount := inh.blockCount + 1 }
    rw [← h.2.1, hg] at h2
    exact .inr ⟨p, hx, h1, (hP.indir _ _).1 h2⟩
  | ok bs =>
    rw [hx] at h
    dsimp only at h
    cases hr : runBlocks env (sh.max + 1) sh { inh with blockCount := inh.blockCount + 1 } text bs only with
    | ok y sh1 inh1 =>
      rw [hr] at h
      simp only [PRes.ok.injEq] at h
      obtain ⟨g, hg⟩ := dropBlock_sh sh1 inh1
      rw [← h.2.1, hg] at h2
      exact .inl ⟨bs, hx, runBlocks_turn hP only _ _ _ _ _ _ _ _ hr h1 ((hP.indir _ _).1 h2)⟩
    | panic q => rw [hr] at h; simp at h
    | oof => rw [hr] at h; simp at h

theorem loop_turn {env : Env} {P : Shared → Prop} (hP : Aloof P) {inh : Inherit} {sh0 : Shared} {raw : Str} (n : Nat) :
    ∀ (j : Nat) (sh sh2 sh3 : Shared) (inh2 inh3 : Inherit) (text only out x : Str), PassOf env inh sh0 raw j sh text only →
    pass env sh inh text only = .ok out sh2 inh2 → cacheLoop env inh n sh2 out = .ok x sh3 inh3 → ¬ P sh2 → P sh3 →
    ∃ k sh1 text1 only1, j < k ∧ k ≤ j + n ∧ PassOf env inh sh0 raw k sh1 text1 only1 ∧ TurnPass env P inh sh1 text1 only1 := by
  induction n with
  | zero =>
    intro j sh sh2 sh3 inh2 inh3 text only out x hp h hl h1 h2
    unfold cacheLoop at hl
    split at hl
    · simp at hl
    · simp only [PRes.ok.injEq] at hl
      rw [← hl.2.1] at h2
      exact absurd h2 h1
  | succ n ih =>
    intro j sh sh2 sh3 inh2 inh3 text only out x hp h hl h1 h2
    unfold cacheLoop at hl
    have hcont := contains_iff (p := c!"{:!cache;") (s := out) (by decide)
    by_cases hc : contains c!"{:!cache;" out = true
    · rw [if_pos hc] at hl
      have hn := PassOf.next hp h (hcont.1 hc)
      cases hr : pass env sh2 inh out c!"!cache" with
      | ok out' sh' inh' =>
        rw [hr] at hl
        dsimp only at hl
        by_cases h3 : P sh'
        · exact ⟨j + 1, _, _, _, by omega, by omega, hn, pass_turn hP hr h1 h3⟩
        · obtain ⟨k, s1, t1, o1, g1, g2, g3, g4⟩ := ih (j + 1) _ _ _ _ _ _ _ _ _ hn hr hl h3 h2
          exact ⟨k, s1, t1, o1, by omega, by omega, g3, g4⟩
      | panic q => rw [hr] at hl; simp at hl
      | oof => rw [hr] at hl; simp at hl
    · rw [if_neg hc] at hl
      simp only [PRes.ok.injEq] at hl
      rw [← hl.2.1] at h2
      exact absurd h2 h1

/-- ... in a render. -/
def PassTurn (P : Shared → Prop) (env : Env) (n : Nat) (t : Tpl) (sh : Shared) : Prop :=
  ∃ raw sh0 inh, initShared env t.filePath t.raw sh = .ok (raw, sh0, inh) ∧ ∃ k sh1 text only, k ≤ n ∧
    PassOf env inh sh0 raw k sh1 text only ∧ ∃ p, extractBlocks text = .error p ∧ ¬ P sh1 ∧ P (handleUnmatched sh1 (byteLen (text.take p)))

theorem renderWith_turn {env : Env} {P : Shared → Prop} (hP : Aloof P) {n : Nat} {t t' : Tpl} {sc : Value} {sh : Shared}
    (h : renderWith env n t sc (some sh) = .ok t')
    (h1 : ∀ raw sh0 inh, initShared env t.filePath t.raw sh = .ok (raw, sh0, inh) → ¬ P sh0) (h2 : P t'.shared) :
    InSomePass (Turn env P) env n t sh ∨ PassTurn P env n t sh := by
  unfold renderWith at h
  dsimp only at h
  cases hi : initShared env t.filePath t.raw sh with
  | error p => rw [hi] at h; simp at h
  | ok r =>
    obtain ⟨raw, sh0, inh⟩ := r
    rw [hi] at h
    dsimp only at h
    have hf : PassOf env inh sh0 raw 0 sh0 raw [] := .first
    have hend : ∀ k sh1 text only, k ≤ n → PassOf env inh sh0 raw k sh1 text only → TurnPass env P inh sh1 text only →
        InSomePass (Turn env P) env n t sh ∨ PassTurn P env n t sh := by
      rintro k sh1 text only hk hp (h3 | ⟨p, h3, h4, h5⟩)
      · exact .inl ⟨raw, sh0, inh, hi, k, sh1, text, only, hk, hp, h3⟩
      · exact .inr ⟨raw, sh0, inh, hi, k, sh1, text, only, hk, hp, p, h3, h4, h5⟩
    cases hp : pass env sh0 inh raw [] with
    | panic q => rw [hp] at h; simp at h
    | oof => rw [hp] at h; simp at h
    | ok out sh2 inh2 =>
      rw [hp] at h
      dsimp only at h
      cases hl : cacheLoop env inh n sh2 out with
      | panic q => rw [hl] at h; simp at h
      | oof => rw [hl] at h; simp at h
      | ok out2 sh3 inh3 =>
        rw [hl] at h
        dsimp only at h
        split at h
        · simp at h
        · simp only [RRes.ok.injEq] at h
          subst h
          by_cases h3 : P sh2
          · exact hend 0 _ _ _ (by omega) hf (pass_turn hP hp (h1 _ _ _ hi) h3)
          · obtain ⟨k, s1, t1, o1, g1, g2, g3, g4⟩ := loop_turn hP n 0 sh0 sh2 sh3 inh2 inh3 raw [] out out2 hf hp hl h3 h2
            exact hend k _ _ _ (by omega) g3 g4

/-! ### who -/

/-- What an operation other than the evaluation of a text does to the state. -/
inductive Small : Op → Shared → Shared → Prop
  | frame (o : Op) (sh : Shared) (f : Str → Option Value) (fl : Str) : Small o sh { sh with indir := f, flags := fl }
  | tick (o : Op) (sh : Shared) (n : Nat) : Small o sh { sh with w := { sh.w with tick := n } }
  | status (c p : Str) (sh : Shared) :
      Small (.setStatus c p) sh { sh with statusCode := c, statusParam := p, statusText := statusTextOf c }
  | exit (b : Bool) (sh : Shared) : Small (.setExit b) sh { sh with exit := b }
  | redirectJs (x : Str) (sh : Shared) : Small (.setRedirectJs x) sh { sh with redirectJs := x }
  | alreadyJs (sh : Shared) : Small .setAlreadyJs sh { sh with alreadyJs := true }
  | data (k : Str) (v : Value) (sh : Shared) (sc : Value) : sh.schema.modIndex c!"data" (fun d => d.setIndex k v) = some sc →
      Small (.setData k v) sh { sh with schema := sc }
  | moveto (k : Str) (v : Value) (sh : Shared) (sc : Value) : sh.schema.modIndex c!"__moveto" (fun d => d.setIndex k v) = some sc →
      Small (.setMoveto k v) sh { sh with schema := sc }
  | write (path c : Str) (m : Nat) (sh : Shared) : Small (.writeFile path c m) sh
      { sh with w := { sh.w with fs := fun x => if x = path then some ⟨some c, m, true⟩ else sh.w.fs x } }

theorem step_small {R : Rec} {o : Op} {s s' : St} {r : o.Resp} (hc : childOf o = none) (hn : ∀ src scope, o ≠ .child src scope)
    (h : step R o s = .ok r s') : Small o s.sh s'.sh := by
  cases o with
  | child src scope => exact absurd rfl (hn src scope)
  | childBlocks src bs scope => simp [childOf] at hc
  | setStatus c p => simp only [step, ORes.ok.injEq] at h; rw [← h.2]; exact .status c p _
  | setExit b => simp only [step, ORes.ok.injEq] at h; rw [← h.2]; exact .exit b _
  | setRedirectJs x => simp only [step, ORes.ok.injEq] at h; rw [← h.2]; exact .redirectJs x _
  | setAlreadyJs => simp only [step, ORes.ok.injEq] at h; rw [← h.2]; exact .alreadyJs _
  | setFlags x => simp only [step, ORes.ok.injEq] at h; rw [← h.2]; exact .frame _ s.sh s.sh.indir x
  | setData k v =>
    simp only [step] at h
    cases hm : s.sh.schema.modIndex c!"data" (fun d => d.setIndex k v) with
    | none => rw [hm] at h; simp [oresOpt] at h
    | some sc =>
      rw [hm] at h
      simp only [Option.map_some, oresOpt, ORes.ok.injEq] at h
      rw [← h.2]
      exact .data k v _ sc hm
  | setMoveto k v =>
    simp only [step] at h
    cases hm : s.sh.schema.modIndex c!"__moveto" (fun d => d.setIndex k v) with
    | none => rw [hm] at h; simp [oresOpt] at h
    | some sc =>
      rw [hm] at h
      simp only [Option.map_some, oresOpt, ORes.ok.injEq] at h
      rw [← h.2]
      exact .moveto k v _ sc hm
  | createBlockSchema =>
    simp only [step, ORes.ok.injEq] at h
    rw [← h.2]
    obtain ⟨f, hf⟩ := createBlockSchema_sh s.sh s.inh
    rw [hf]
    exact .frame _ s.sh f s.sh.flags
  | setIndir sec key v =>
    obtain ⟨sc, hsc, rfl⟩ := Option.map_eq_some_iff.1 (oresOpt_ok h)
    obtain ⟨g, rfl⟩ := modIndir_sh hsc
    exact .frame _ s.sh g s.sh.flags
  | mergeIndir sec v =>
    obtain ⟨sc, hsc, rfl⟩ := Option.map_eq_some_iff.1 (oresOpt_ok h)
    obtain ⟨g, rfl⟩ := modIndir_sh hsc
    exact .frame _ s.sh g s.sh.flags
  | tick => simp only [step, ORes.ok.injEq] at h; rw [← h.2]; exact .tick _ s.sh _
  | writeFile p c m => simp only [step, ORes.ok.injEq] at h; rw [← h.2]; exact .write p c m _
  | pushFile k p => cases k <;> (simp only [step, ORes.ok.injEq] at h; rw [← h.2]; exact .frame _ s.sh s.sh.indir s.sh.flags)
  | get => simp only [step, ORes.ok.injEq] at h; rw [← h.2]; exact .frame _ s.sh s.sh.indir s.sh.flags
  | modB f => simp only [step, ORes.ok.injEq] at h; rw [← h.2]; exact .frame _ s.sh s.sh.indir s.sh.flags
  | setInCache b => simp only [step, ORes.ok.injEq] at h; rw [← h.2]; exact .frame _ s.sh s.sh.indir s.sh.flags
  | setLastCoalesce b => simp only [step, ORes.ok.injEq] at h; rw [← h.2]; exact .frame _ s.sh s.sh.indir s.sh.flags
  | setCurrentDir d => simp only [step, ORes.ok.injEq] at h; rw [← h.2]; exact .frame _ s.sh s.sh.indir s.sh.flags

/-- The evaluation of a text whose braces do not match. -/
theorem step_unmatched {P : Shared → Prop} (hP : Aloof P) {R : Rec} {src : Str} {scope : Bool} {s s' : St} {r : Str} {q : Nat}
    (hq : extractBlocks src = .error q) (h : step R (.child src scope) s = .ok r s') :
    P s'.sh ↔ P (handleUnmatched s.sh (byteLen (src.take q))) := by
  have key : ∃ f, s'.sh = { handleUnmatched s.sh (byteLen (src.take q)) with indir := f } := by
    simp only [step, parseSrc, hq] at h
    unfold runChild at h
    dsimp only at h
    cases scope with
    | false =>
      simp only [Bool.false_eq_true, if_false, ORes.ok.injEq] at h
      obtain ⟨g, hg⟩ := dropBlock_sh (handleUnmatched s.sh (byteLen (src.take q))) (childInherit s)
      exact ⟨g, by rw [← h.2]; exact hg⟩
    | true =>
      simp only [if_true, ORes.ok.injEq] at h
      rw [← h.2]
      dsimp only
      obtain ⟨f, hf⟩ := createBlockSchema_sh s.sh s.inh
      rw [hf]
      exact ⟨_, (dropBlock_sh _ _).choose_spec.trans (by
        rw [(updateIndir_sh _ _ _).choose_spec]; rfl)⟩
  obtain ⟨f, hf⟩ := key
  rw [hf]
  exact hP.indir _ _

/-- Which BIFs make `P` true. -/
theorem turn_leaves {env : Env} {P : Shared → Prop} (hP : Aloof P) {names : List Str} {R : Rec} {raw only : Str} {sh : Shared}
    {inh : Inherit} (hown : ∀ (name : Str) (o : Op) (a b : Shared), Effects name o → Small o a b → ¬ P a → P b → name ∈ names)
    (h : Turn env P R raw sh inh only) : Leaves env names P R raw sh inh only ∨
      ∃ sh1 p, ¬ P sh1 ∧ P (handleUnmatched sh1 p) ∧ MeetsUnmatched env p R raw sh inh only := by
  obtain ⟨h1, x, sh', inh', h2, h3, name, s, hst, o, k, s1, r, s2, hm, hc, hs, h4, h5⟩ := h
  by_cases hn : ∃ src scope, o = .child src scope
  case neg =>
    exact .inl ⟨name, s, hst, hown name o _ _ (moment_ops hm (effects env name)).1
      (step_small hc (fun src scope he => hn ⟨src, scope, he⟩) hs) h4 h5, h1, x, sh', inh', h2, h3⟩
  · obtain ⟨src, scope, rfl⟩ := hn
    simp only [childOf] at hc
    split at hc
    · simp at hc
    · next q hq =>
      exact .inr ⟨s1.sh, _, h4, (step_unmatched hP hq hs).1 h5, name, s, hst, src, scope, k, s1, hm, q, hq, rfl⟩

theorem inSomePass_mono {A B : Rec → Str → Shared → Inherit → Str → Prop} {env : Env} {n : Nat} {t : Tpl} {sh : Shared}
    (hAB : ∀ R raw sh1 inh1 only, A R raw sh1 inh1 only → B R raw sh1 inh1 only) (h : InSomePass A env n t sh) : InSomePass B env n t sh := by
  obtain ⟨raw, sh0, inh, h1, k, sh1, text, only, h2, h3, bs, h4, m, raw', sh2, inh2, h5, h6⟩ := h
  exact ⟨raw, sh0, inh, h1, k, sh1, text, only, h2, h3, bs, h4, m, raw', sh2, inh2, h5, hAB _ _ _ _ _ h6⟩

/-- A whole render, or render_once, of a template with BIFs: what holds after it and not before it comes from a BIF called one of
`names`, or from a text whose braces do not match. -/
theorem render_leaves {env : Env} {P : Shared → Prop} (hP : Aloof P) {names : List Str} {n : Nat} {w : World} {t t' : Tpl}
    (hown : ∀ (name : Str) (o : Op) (a b : Shared), Effects name o → Small o a b → ¬ P a → P b → name ∈ names)
    (hb : c!"{:" <:+: t.raw) (h : t.render env n w = .ok t' ∨ t.renderOnce env n w = .ok t') :
    ∃ sh, Shared.new env w t.schema = some sh ∧ ∃ raw sh0 inh, initShared env t.filePath t.raw sh = .ok (raw, sh0, inh) ∧
      (¬ P sh0 → P t'.shared → InSomePass (Leaves env names P) env n t sh ∨ ∃ sh1 p, ¬ P sh1 ∧ P (handleUnmatched sh1 p) ∧
        (InSomePass (MeetsUnmatched env p) env n t sh ∨ PassUnmatched p env n t sh)) := by
  have hcont := contains_iff (p := c!"{:") (s := t.raw) (by decide)
  have hr : ∃ sc, renderWith env n t sc (Shared.new env w t.schema) = .ok t' := by
    rcases h with h | h
    · unfold Tpl.render at h
      rw [if_neg (by rw [show contains bifOpen t.raw = true from hcont.2 hb]; simp)] at h
      exact ⟨_, h⟩
    · unfold Tpl.renderOnce at h
      rw [renderOnceWith_eq, if_neg (by rw [show contains bifOpen t.raw = true from hcont.2 hb]; simp)] at h
      exact ⟨_, h⟩
  obtain ⟨sc, hr⟩ := hr
  cases hs : Shared.new env w t.schema with
  | none => rw [hs] at hr; simp [renderWith] at hr
  | some sh =>
    rw [hs] at hr
    refine ⟨sh, rfl, ?_⟩
    cases hi : initShared env t.filePath t.raw sh with
    | error p => simp only [renderWith, hi] at hr; simp at hr
    | ok q =>
      obtain ⟨raw, sh0, inh⟩ := q
      refine ⟨raw, sh0, inh, rfl, fun h1 h2 => ?_⟩
      have h1' : ∀ raw' sh0' inh', initShared env t.filePath t.raw sh = .ok (raw', sh0', inh') → ¬ P sh0' := by
        intro raw' sh0' inh' hi'
        rw [hi] at hi'
        simp only [Except.ok.injEq, Prod.mk.injEq] at hi'
        obtain ⟨_, rfl, _⟩ := hi'
        exact h1
      rcases renderWith_turn hP hr h1' h2 with h3 | ⟨raw', sh0', inh', g1, k, s1, text, only, g2, g3, q, g4, g5, g6⟩
      · obtain ⟨raw', sh0', inh', g1, k, sh1, text, only, g2, g3, bs, g4, m, raw2, sh2, inh2, g5, g6⟩ := h3
        rcases turn_leaves hP hown g6 with g7 | ⟨sh3, p, g7, g8, g9⟩
        · exact .inl ⟨raw', sh0', inh', g1, k, sh1, text, only, g2, g3, bs, g4, m, raw2, sh2, inh2, g5, g7⟩
        · exact .inr ⟨sh3, p, g7, g8, .inl ⟨raw', sh0', inh', g1, k, sh1, text, only, g2, g3, bs, g4, m, raw2, sh2, inh2, g5, g9⟩⟩
      · exact .inr ⟨s1, _, g5, g6, .inr ⟨raw', sh0', inh', g1, k, s1, text, only, g2, g3, q, g4, rfl⟩⟩

theorem aloof_of {P : Shared → Prop} (h : ∀ (a b : Shared), a.statusCode = b.statusCode → a.statusText = b.statusText →
    a.statusParam = b.statusParam → a.exit = b.exit → a.redirectJs = b.redirectJs → a.w.fs = b.w.fs →
    (∀ k, k ≠ c!"__error" → a.schema.index k = b.schema.index k) → (P a ↔ P b)) : Aloof P where
  indir _ _ := h _ _ rfl rfl rfl rfl rfl rfl (fun _ _ => rfl)
  count _ _ := h _ _ rfl rfl rfl rfl rfl rfl (fun _ _ => rfl)
  tick _ _ := h _ _ rfl rfl rfl rfl rfl rfl (fun _ _ => rfl)
  error _ _ := h _ _ rfl rfl rfl rfl rfl rfl (fun _ hk => pushError_index hk)

/-! ### the property -/

/-- **C92 (the status).** After a render or a render_once the status is 200 OK without parameter, or an `exit` or a `redirect` evaluated in
it left it so, or it is the 500 of a text, evaluated in it, whose braces do not match. -/
theorem C92_status (env : Env) (n : Nat) (w : World) (t t' : Tpl) (hb : c!"{:" <:+: t.raw)
    (h : t.render env n w = .ok t' ∨ t.renderOnce env n w = .ok t') : ∃ sh, Shared.new env w t.schema = some sh ∧
      (statusOf t'.shared = (c!"200", c!"OK", []) ∨
       InSomePass (Leaves env [c!"exit", c!"redirect"] (fun s => statusOf s = statusOf t'.shared)) env n t sh ∨
       ∃ p, statusOf t'.shared = unmatchedStatus p ∧
        (InSomePass (MeetsUnmatched env p) env n t sh ∨ PassUnmatched p env n t sh)) := by
  have hP : Aloof (fun s => statusOf s = statusOf t'.shared) :=
    aloof_of (fun a b h1 h2 h3 _ _ _ _ => by unfold statusOf; rw [h1, h2, h3])
  obtain ⟨sh, h1, raw, sh0, inh, h2, h3⟩ := render_leaves hP (names := [c!"exit", c!"redirect"]) (by
    intro name o a b he hs hn hp
    cases hs with
    | status c p => simpa [Effects] using he
    | _ => exact absurd hp hn) hb h
  refine ⟨sh, h1, ?_⟩
  have h0 : statusOf sh0 = (c!"200", c!"OK", []) := by
    obtain ⟨sc, f, rfl⟩ := initShared_frame h2
    obtain ⟨_, _, g1, g2, g3, _⟩ := sharedNew_fields h1
    unfold statusOf
    dsimp only
    rw [g1, g2, g3]
  by_cases hc : statusOf sh0 = statusOf t'.shared
  · exact .inl (hc.symm.trans h0)
  · rcases h3 hc rfl with h4 | ⟨sh1, p, _, h5, h6⟩
    · exact .inr (.inl h4)
    · exact .inr (.inr ⟨p, h5.symm, h6⟩)

/-- **C92 (stopping).** A render stops before the end of its texts only because of an `exit` or a `redirect` evaluated in it. -/
theorem C92_stopped (env : Env) (n : Nat) (w : World) (t t' : Tpl) (hb : c!"{:" <:+: t.raw)
    (h : t.render env n w = .ok t' ∨ t.renderOnce env n w = .ok t') (hx : t'.shared.exit = true) :
    ∃ sh, Shared.new env w t.schema = some sh ∧
      InSomePass (Leaves env [c!"exit", c!"redirect"] (fun s => s.exit = true)) env n t sh := by
  have hP : Aloof (fun s => s.exit = true) := aloof_of (fun a b _ _ _ h1 _ _ _ => by rw [h1])
  obtain ⟨sh, h1, raw, sh0, inh, h2, h3⟩ := render_leaves hP (names := [c!"exit", c!"redirect"]) (by
    intro name o a b he hs hn hp
    cases hs with
    | exit b => simpa [Effects] using he
    | _ => exact absurd hp hn) hb h
  refine ⟨sh, h1, ?_⟩
  have h0 : ¬ sh0.exit = true := by
    obtain ⟨sc, f, rfl⟩ := initShared_frame h2
    obtain ⟨_, _, _, _, _, _, g, _⟩ := sharedNew_fields h1
    simpa using g
  rcases h3 h0 hx with h4 | ⟨sh1, p, h4, h5, _⟩
  · exact h4
  · exact absurd h5 h4

/-- **C92 (the page of a redirect).** The output of a render is replaced with the page of a redirect by JavaScript only because of a
`redirect` evaluated in it. -/
theorem C92_page (env : Env) (n : Nat) (w : World) (t t' : Tpl) (hb : c!"{:" <:+: t.raw)
    (h : t.render env n w = .ok t' ∨ t.renderOnce env n w = .ok t') (hx : t'.shared.redirectJs ≠ []) :
    ∃ sh, Shared.new env w t.schema = some sh ∧
      InSomePass (Leaves env [c!"redirect"] (fun s => s.redirectJs = t'.shared.redirectJs)) env n t sh := by
  have hP : Aloof (fun s => s.redirectJs = t'.shared.redirectJs) := aloof_of (fun a b _ _ _ _ h1 _ _ => by rw [h1])
  obtain ⟨sh, h1, raw, sh0, inh, h2, h3⟩ := render_leaves hP (names := [c!"redirect"]) (by
    intro name o a b he hs hn hp
    cases hs with
    | redirectJs x => simpa [Effects] using he
    | _ => exact absurd hp hn) hb h
  refine ⟨sh, h1, ?_⟩
  have h0 : ¬ sh0.redirectJs = t'.shared.redirectJs := by
    obtain ⟨sc, f, rfl⟩ := initShared_frame h2
    obtain ⟨_, _, _, _, _, _, _, _, g, _⟩ := sharedNew_fields h1
    intro he
    exact hx (he.symm.trans g)
  rcases h3 h0 rfl with h4 | ⟨sh1, p, h4, h5, _⟩
  · exact h4
  · exact absurd h5 h4

/-- **C92 (moved texts).** A text is pending to be moved at the end of a render only because of a `moveto` evaluated in it. -/
theorem C92_moved (env : Env) (n : Nat) (w : World) (t t' : Tpl) (hb : c!"{:" <:+: t.raw)
    (h : t.render env n w = .ok t' ∨ t.renderOnce env n w = .ok t') (key : Str) (hx : (t'.shared.schema.index c!"__moveto").index key ≠ .null) :
    ∃ sh, Shared.new env w t.schema = some sh ∧
      InSomePass (Leaves env [c!"moveto"] (fun s => (s.schema.index c!"__moveto").index key = (t'.shared.schema.index c!"__moveto").index key))
        env n t sh := by
  have hP : Aloof (fun s => (s.schema.index c!"__moveto").index key = (t'.shared.schema.index c!"__moveto").index key) :=
    aloof_of (fun a b _ _ _ _ _ _ h1 => by rw [h1 _ (by decide)])
  obtain ⟨sh, h1, raw, sh0, inh, h2, h3⟩ := render_leaves hP (names := [c!"moveto"]) (by
    intro name o a b he hs hn hp
    cases hs with
    | moveto k v sc => simpa [Effects] using he
    | data k v _ sc hm =>
      dsimp only at hp
      rw [index_modIndex_ne hm (by decide)] at hp
      exact absurd hp hn
    | _ => exact absurd hp hn) hb h
  refine ⟨sh, h1, ?_⟩
  have h0 : ¬ (sh0.schema.index c!"__moveto").index key = (t'.shared.schema.index c!"__moveto").index key := by
    obtain ⟨s1, s2, g1, g2, g3⟩ := initShared_schema h2
    rw [index_modIndex_ne g3 (by decide), index_setIndex_ne g2 (by decide), index_setIndex_self g1]
    exact fun he => hx he.symm
  rcases h3 h0 rfl with h4 | ⟨sh1, p, h4, h5, _⟩
  · exact h4
  · exact absurd h5 h4

/-- **C92 (data).** After a render the value of a variable of the data of the template is what it was at its beginning, or an `each`, `for`,
`eval` or `count` evaluated in it left it so. -/
theorem C92_data (env : Env) (n : Nat) (w : World) (t t' : Tpl) (hb : c!"{:" <:+: t.raw)
    (h : t.render env n w = .ok t' ∨ t.renderOnce env n w = .ok t') (key : Str) (hkey : key ≠ c!"CONTEXT") :
    ∃ sh, Shared.new env w t.schema = some sh ∧
      ((t'.shared.schema.index c!"data").index key = (t.schema.index c!"data").index key ∨
      InSomePass (Leaves env [c!"each", c!"for", c!"eval", c!"count"]
        (fun s => (s.schema.index c!"data").index key = (t'.shared.schema.index c!"data").index key)) env n t sh) := by
  have hP : Aloof (fun s => (s.schema.index c!"data").index key = (t'.shared.schema.index c!"data").index key) :=
    aloof_of (fun a b _ _ _ _ _ _ h1 => by rw [h1 _ (by decide)])
  obtain ⟨sh, h1, raw, sh0, inh, h2, h3⟩ := render_leaves hP (names := [c!"each", c!"for", c!"eval", c!"count"]) (by
    intro name o a b he hs hn hp
    cases hs with
    | data k v sc => simpa [Effects] using he
    | moveto k v _ sc hm =>
      dsimp only at hp
      rw [index_modIndex_ne hm (by decide)] at hp
      exact absurd hp hn
    | _ => exact absurd hp hn) hb h
  refine ⟨sh, h1, ?_⟩
  have h0 : (sh0.schema.index c!"data").index key = (t.schema.index c!"data").index key := by
    obtain ⟨s1, s2, g1, g2, g3⟩ := initShared_schema h2
    have g4 := index_modIndex_self g3
    rw [index_modIndex_ne g4 (fun he => hkey he.symm), index_setIndex_ne g2 (by decide), index_setIndex_ne g1 (by decide), (sharedNew_fields h1).1]
  by_cases hc : (sh0.schema.index c!"data").index key = (t'.shared.schema.index c!"data").index key
  · exact .inl (hc.symm.trans h0)
  · rcases h3 hc rfl with h4 | ⟨sh1, p, h4, h5, _⟩
    · exact .inr h4
    · exact absurd h5 h4

/-- **C92 (files).** After a render a file is what it was at its beginning, or a `cache` or an `obj` evaluated in it left it so. -/
theorem C92_files (env : Env) (n : Nat) (w : World) (t t' : Tpl) (hb : c!"{:" <:+: t.raw)
    (h : t.render env n w = .ok t' ∨ t.renderOnce env n w = .ok t') (path : Str) :
    ∃ sh, Shared.new env w t.schema = some sh ∧ (t'.shared.w.fs path = w.fs path ∨
      InSomePass (Leaves env [c!"cache", c!"obj"] (fun s => s.w.fs path = t'.shared.w.fs path)) env n t sh) := by
  have hP : Aloof (fun s => s.w.fs path = t'.shared.w.fs path) := aloof_of (fun a b _ _ _ _ _ h1 _ => by rw [h1])
  obtain ⟨sh, h1, raw, sh0, inh, h2, h3⟩ := render_leaves hP (names := [c!"cache", c!"obj"]) (by
    intro name o a b he hs hn hp
    cases hs with
    | write q c m => simpa [Effects] using he
    | _ => exact absurd hp hn) hb h
  refine ⟨sh, h1, ?_⟩
  have h0 : sh0.w.fs path = w.fs path := by
    obtain ⟨sc, f, rfl⟩ := initShared_frame h2
    obtain ⟨_, _, _, _, _, _, _, _, _, g, _⟩ := sharedNew_fields h1
    dsimp only
    rw [g]
  by_cases hc : sh0.w.fs path = t'.shared.w.fs path
  · exact .inl (hc.symm.trans h0)
  · rcases h3 hc rfl with h4 | ⟨sh1, p, h4, h5, _⟩
    · exact .inr h4
    · exact absurd h5 h4

/-- A render with a file whose braces do not match. -/
def Sample.goBroken (src : Str) : RRes :=
  (Sample.tpl (Sample.schema 1000 [(c!"x", .str c!"X")] Sample.inherit) src).render Sample.env 10
    ⟨fun p => if p = c!"u" then some (Sample.file c!"u{:;x:}:}") else none, 0⟩

set_option maxRecDepth 10000 in
/-- The premises are met, and every kind of cause occurs: a render that ends with the status of an exit in the code of another BIF, one
that ends with that of an included file whose braces do not match, one with that of a template whose braces do not match, and one that ends
well. -/
example :
    Sample.outOf (Sample.goBroken c!"a{:code; b{:exit; 299 :}d :}e{:;x:}") = some (c!"abd", c!"299") ∧
    Sample.outOf (Sample.goBroken c!"a{:include; u :}e{:;x:}") = some (c!"500 Internal Server Error", c!"500") ∧
    Sample.outOf (Sample.goBroken c!"a{:;x:}:}") = some (c!"500 Internal Server Error", c!"500") ∧
    Sample.outOf (Sample.goBroken c!"a{:;x:}") = some (c!"aX", c!"200") := by
  decide +kernel

end Nts
