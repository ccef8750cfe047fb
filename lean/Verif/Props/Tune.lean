import Verif.Lemmas.Tune
import Verif.Props.Depends
import Verif.Props.Compose
/-
C112: an option of the configuration matters only to the BIFs that read it.
-/
set_option autoImplicit false
namespace Nts
open Spec

/-! ### specification -/

/-- The BIFs that read an option of `config` (the variable has the empty name). -/
def Spec.readersOf (key : Str) : List Str :=
  if key = c!"filter_all" then [[]]
  else if key = c!"cache_disable" then [[], c!"cache"]
  else if key = c!"cache_prefix" ∨ key = c!"cache_dir" ∨ key = c!"cache_on_post" ∨ key = c!"cache_on_get" ∨ key = c!"cache_on_cookies"
    then [c!"cache"]
  else if key = c!"disable_js" then [c!"fetch"]
  else if key = c!"comments" then [c!"include"]
  else []

/-- The BIF `raw` reads an option that is different in the two configurations, or it is `obj` or `debug`, which have access to the whole
schema. -/
def Spec.Reads (c1 c2 : Value) (_ : Rec) (raw : Str) (sh : Shared) (inh : Inherit) (only : Str) : Prop :=
  ∃ name s, Started sh inh raw only name s ∧
    (name = c!"obj" ∨ name = c!"debug" ∨ ∃ key, c1.get? key ≠ c2.get? key ∧ name ∈ readersOf key)

/-- Is `error.show` a boolean? -/
def Spec.showSet (cfg : Value) : Bool := (((cfg.index c!"error").index c!"show").asBool?).isSome

/-! ### one BIF -/

/-- The other configuration does not take away the setting that errors need. -/
def Tuning.Shows (T : Tuning) : Prop := ∀ v, showSet (T.config v) = showSet v

/-- The schema with one more error. -/
def withError (line : Str) (v : Value) : Value :=
  match v with
  | .obj o => match Obj.get? c!"__error" o with
    | some (.arr a) => .obj (Obj.insert c!"__error" (.arr (a ++ [.str line])) o)
    | _ => .obj o
  | v => v

theorem withConfig_error (g : Value → Value) (line : Str) (v : Value) : withError line (withConfig g v) = withConfig g (withError line v) := by
  cases v with
  | obj o =>
    have h1 := withConfig_get? g (.obj o) (k := c!"__error") (by decide)
    cases hw : withConfig g (.obj o) with
    | obj o' =>
      rw [hw] at h1
      have h1' : Obj.get? c!"__error" o' = Obj.get? c!"__error" o := h1
      unfold withError
      dsimp only
      rw [h1']
      cases hg : Obj.get? c!"__error" o with
      | none => exact hw.symm
      | some v =>
        cases v with
        | arr a =>
          dsimp only
          have := withConfig_insert g o (k := c!"__error") (.arr (a ++ [.str line])) (by decide)
          rw [hw] at this
          exact this.symm
        | _ => exact hw.symm
    | _ =>
      exfalso
      unfold withConfig at hw
      dsimp only at hw
      split at hw <;> cases hw
  | _ => rfl

theorem tune_pushError (T : Tuning) (sh : Shared) (line : Str) : pushError (T.on sh) line = T.on (pushError sh line) := by
  show ({ T.on sh with schema := withError line (withConfig T.config sh.schema), hasError := true } : Shared) = _
  rw [withConfig_error]
  rfl

theorem tune_showErrors {T : Tuning} (h : T.Shows) (sh : Shared) : (showErrors (T.on sh)).isSome = (showErrors sh).isSome := by
  unfold showErrors
  show showSet ((withConfig T.config sh.schema).index c!"config") = showSet (sh.schema.index c!"config")
  unfold withConfig
  cases sh.schema with
  | obj o =>
    dsimp only
    cases hc : Obj.get? c!"config" o with
    | none => rfl
    | some c =>
      dsimp only
      simp only [Value.index, Value.get?, Obj.get?_insert_self, hc, Option.getD_some]
      exact h c
  | _ => rfl

theorem tune_create (T : Tuning) (sh : Shared) (inh : Inherit) :
    createBlockSchema (T.on sh) inh = (T.on (createBlockSchema sh inh).1, (createBlockSchema sh inh).2) := by
  unfold createBlockSchema
  dsimp only
  have h : (T.on sh).indir = sh.indir := rfl
  rw [h]
  generalize (if inh.blockCount < 1 then c!"block_1" else blockId inh.blockCount) = bid
  refine Prod.ext ?_ rfl
  dsimp only
  by_cases hb : inh.indir ≠ bid
  · rw [if_pos hb, if_pos hb]
    cases sh.indir inh.indir <;> rfl
  · rw [if_neg hb, if_neg hb]

theorem tune_update (T : Tuning) (sh : Shared) (a b : Str) : updateIndir (T.on sh) a b = T.on (updateIndir sh a b) := by
  unfold updateIndir
  have h : (T.on sh).indir = sh.indir := rfl
  rw [h]
  split <;> rfl

theorem tune_drop (T : Tuning) (sh : Shared) (inh : Inherit) : dropBlock (T.on sh) inh = T.on (dropBlock sh inh) := by
  unfold dropBlock
  dsimp only
  split <;> rfl

theorem tune_modIndir (T : Tuning) (sh : Shared) (k : Str) (f : Value → Option Value) :
    (T.on sh).modIndir k f = (sh.modIndir k f).map T.on := by
  unfold Shared.modIndir
  show (f ((sh.indir k).getD (.obj []))).map _ = _
  cases f ((sh.indir k).getD (.obj [])) <;> rfl

/-- The evaluations of children agree. -/
def ChildrenAgree (T : Tuning) (R1 R2 : Rec) (s : St) (o : Op) : Prop :=
  ∀ csrc cbs, childOf o = some (csrc, cbs) → ∀ out sh' inh',
    R1 (childStart s o) (childInherit s) csrc cbs s.only = .ok out sh' inh' →
    R2 (T.on (childStart s o)) (childInherit s) csrc cbs s.only = .ok out (T.on sh') inh'

theorem tune_runChild {T : Tuning} {s s' : St} {scope : Bool} {f1 f2 : Shared → Inherit → PRes} {r : Str}
    (hf : ∀ out sh' inh', f1 (if scope then createBlockSchema s.sh s.inh else (s.sh, s.inh)).1 (childInherit s) = .ok out sh' inh' →
      f2 (T.on (if scope then createBlockSchema s.sh s.inh else (s.sh, s.inh)).1) (childInherit s) = .ok out (T.on sh') inh')
    (h : runChild s scope f1 = .ok r s') : runChild (T.st s) scope f2 = .ok r (T.st s') := by
  unfold runChild at h ⊢
  dsimp only at h ⊢
  have e1 : childInherit (T.st s) = childInherit s := rfl
  have e2 : (if scope = true then createBlockSchema (T.st s).sh (T.st s).inh else ((T.st s).sh, (T.st s).inh)) =
      (T.on (if scope then createBlockSchema s.sh s.inh else (s.sh, s.inh)).1, (if scope then createBlockSchema s.sh s.inh else (s.sh, s.inh)).2) := by
    cases scope
    · rfl
    · exact tune_create T s.sh s.inh
  rw [e1, e2]
  generalize (if scope then createBlockSchema s.sh s.inh else (s.sh, s.inh)) = p at h hf ⊢
  cases hx : f1 p.1 (childInherit s) with
  | panic q => rw [hx] at h; cases h
  | oof => rw [hx] at h; cases h
  | ok out sh2 ci2 =>
    rw [hx] at h
    dsimp only at h ⊢
    rw [hf _ _ _ hx]
    dsimp only
    injection h with h1 h2
    subst h1 h2
    congr 1
    cases scope
    · simp only [Bool.false_eq_true, if_false, tune_drop]
      rfl
    · simp only [if_true, tune_update, tune_drop]
      rfl

theorem tune_handle (T : Tuning) (sh : Shared) (p : Nat) : handleUnmatched (T.on sh) p = T.on (handleUnmatched sh p) := rfl

theorem tune_step {T : Tuning} {R1 R2 : Rec} {o : Op} {s s' : St} {r : o.Resp} (ho : o ≠ .get) (hc : ChildrenAgree T R1 R2 s o)
    (h : step R1 o s = .ok r s') : step R2 o (T.st s) = .ok r (T.st s') := by
  cases o with
  | get => exact absurd rfl ho
  | pushFile k p => cases k <;> · cases h; rfl
  | setData name v =>
    simp only [step] at h ⊢
    have e : (T.st s).sh.schema = withConfig T.config s.sh.schema := rfl
    rw [e, withConfig_modIndex _ _ (by decide)]
    cases hm : s.sh.schema.modIndex c!"data" (fun d => d.setIndex name v) with
    | none => rw [hm] at h; cases h
    | some x => rw [hm] at h; cases h; rfl
  | setMoveto name v =>
    simp only [step] at h ⊢
    have e : (T.st s).sh.schema = withConfig T.config s.sh.schema := rfl
    rw [e, withConfig_modIndex _ _ (by decide)]
    cases hm : s.sh.schema.modIndex c!"__moveto" (fun d => d.setIndex name v) with
    | none => rw [hm] at h; cases h
    | some x => rw [hm] at h; cases h; rfl
  | createBlockSchema =>
    simp only [step] at h ⊢
    have e : createBlockSchema (T.st s).sh (T.st s).inh = _ := tune_create T s.sh s.inh
    rw [e]
    cases h
    rfl
  | setIndir sec key v =>
    simp only [step] at h ⊢
    have e := tune_modIndir T s.sh s.inh.indir (fun x => x.modIndex sec (fun y => y.setIndex key v))
    have e' : (T.st s).sh.modIndir (T.st s).inh.indir (fun x => x.modIndex sec (fun y => y.setIndex key v)) = _ := e
    rw [e']
    cases hm : s.sh.modIndir s.inh.indir (fun x => x.modIndex sec (fun y => y.setIndex key v)) with
    | none => rw [hm] at h; cases h
    | some x => rw [hm] at h; cases h; rfl
  | mergeIndir sec v =>
    simp only [step] at h ⊢
    have e := tune_modIndir T s.sh s.inh.indir (fun x => x.modIndex sec (fun y => some (mergeSchemaOwned y v)))
    have e' : (T.st s).sh.modIndir (T.st s).inh.indir (fun x => x.modIndex sec (fun y => some (mergeSchemaOwned y v))) = _ := e
    rw [e']
    cases hm : s.sh.modIndir s.inh.indir (fun x => x.modIndex sec (fun y => some (mergeSchemaOwned y v))) with
    | none => rw [hm] at h; cases h
    | some x => rw [hm] at h; cases h; rfl
  | child src scope =>
    have h' : runChild s scope (fun sh inh => parseSrc R1 sh inh src s.only) = .ok r s' := h
    refine tune_runChild (f2 := fun sh inh => parseSrc R2 sh inh src s.only) (fun out sh' inh' hx => ?_) h'
    unfold parseSrc at hx ⊢
    cases hb : extractBlocks src with
    | error p =>
      rw [hb] at hx
      cases hx
      rfl
    | ok bs =>
      rw [hb] at hx
      dsimp only at hx ⊢
      have := hc src bs (by simp [childOf, hb]) out sh' inh'
      cases scope <;> exact this hx
  | childBlocks src bs scope =>
    have h' : runChild s scope (fun sh inh => R1 sh inh src bs s.only) = .ok r s' := h
    refine tune_runChild (f2 := fun sh inh => R2 sh inh src bs s.only) (fun out sh' inh' hx => ?_) h'
    have := hc src bs rfl out sh' inh'
    cases scope <;> exact this hx
  | _ => cases h; rfl

theorem tune_run {T : Tuning} {R1 R2 : Rec} {α : Type} (p : Prog α) : Deaf T p → ∀ (s : St),
    (∀ (o : Op) (k : o.Resp → Prog α) s1, Moment R1 p s (.op o k) s1 → s1.only = s.only → ChildrenAgree T R1 R2 s1 o) →
    (∀ a s', run R1 p s = .ok a s' → run R2 p (T.st s) = .ok a (T.st s')) ∧
    (∀ e s', run R1 p s = .err e s' → run R2 p (T.st s) = .err e (T.st s')) := by
  induction p with
  | pure a => intro _ s _; exact ⟨fun a s' h => (by cases h; rfl), fun e s' h => (by cases h)⟩
  | throw e => intro _ s _; exact ⟨fun a s' h => (by cases h), fun e s' h => (by cases h; rfl)⟩
  | panic q => intro _ s _; exact ⟨fun a s' h => (by cases h), fun e s' h => (by cases h)⟩
  | op o k ih =>
    intro hd s hc
    by_cases ho : o = .get
    · subst ho
      have := ih s (hd.2 s) s (fun o' k' s1 hm hs => hc o' k' s1 (.step (R := R1) (o := .get) rfl hm) hs)
      have e : run R2 (.op .get k) (T.st s) = run R2 (k s) (T.st s) := by
        show run R2 (k (T.st s)) (T.st s) = _
        rw [hd.1 s]
      rw [e]
      exact this
    · simp only [run]
      cases hst : step R1 o s with
      | panic q => exact ⟨fun a s' h => (by simp at h), fun e s' h => (by simp at h)⟩
      | oof => exact ⟨fun a s' h => (by simp at h), fun e s' h => (by simp at h)⟩
      | ok r s1 =>
        rw [tune_step ho (hc o k s (.now _ _) rfl) hst]
        have hon := step_only hst
        exact ih r ((deaf_op ho).1 hd r) s1 (fun o' k' s2 hm hs => hc o' k' s2 (.step hst hm) (hs.trans hon))

theorem tune_runBif {T : Tuning} (hT : T.Shows) {env : Env} {R1 R2 : Rec} {sh sh' : Shared} {inh inh' : Inherit} {raw only x : Str}
    (hn : ∀ name s, Started sh inh raw only name s → T.Spares name)
    (hR : ∀ name s, Started sh inh raw only name s → ∀ (o : Op) (k : o.Resp → Prog Unit) (s1 : St),
      Moment R1 (bifBody env name) s (.op o k) s1 → s1.only = only → ChildrenAgree T R1 R2 s1 o)
    (h : runBif env R1 sh inh raw only = .ok x sh' inh') : runBif env R2 (T.on sh) inh raw only = .ok x (T.on sh') inh' := by
  unfold runBif at h ⊢
  have hmax : (T.on sh).max = sh.max + T.more := rfl
  have hcount : (T.on sh).count = sh.count := rfl
  by_cases hb : sh.count + 1 > sh.max
  · rw [if_pos hb] at h; cases h
  · rw [if_neg hb] at h
    rw [if_neg (by rw [hmax, hcount]; omega), hcount]
    unfold bifParse at h ⊢
    cases hsp : bifSplit raw with
    | none =>
      rw [hsp] at h
      dsimp only at h ⊢
      by_cases ho : (!only.isEmpty) = true
      · rw [if_pos ho] at h ⊢
        cases h
        rfl
      · rw [if_neg ho] at h ⊢
        have he := tune_showErrors hT { sh with count := sh.count + 1 }
        cases h1 : showErrors { sh with count := sh.count + 1 } with
        | none => rw [h1] at h; cases h
        | some b =>
          rw [h1] at h he
          cases h
          have e2 : ({ T.on sh with count := sh.count + 1 } : Shared) = T.on { sh with count := sh.count + 1 } := rfl
          rw [e2]
          cases h2 : showErrors (T.on { sh with count := sh.count + 1 }) with
          | none => rw [h2] at he; cases he
          | some b' =>
            dsimp only
            rw [tune_pushError]
    | some q =>
      obtain ⟨full, src⟩ := q
      rw [hsp] at h
      dsimp only at h ⊢
      by_cases ho : (!only.isEmpty && !contains only full && !inh.inOnly) = true
      · rw [if_pos ho] at h ⊢
        cases h
        rfl
      · rw [if_neg ho] at h ⊢
        cases hm : setModifiers { BifS.new with src := src } full with
        | none => rw [hm] at h; cases h
        | some r =>
          obtain ⟨b, name⟩ := r
          rw [hm] at h
          dsimp only at h ⊢
          have hsel : only = [] ∨ contains only full = true ∨ inh.inOnly = true := by
            cases only with
            | nil => exact .inl rfl
            | cons a r =>
              right
              cases h1 : contains (a :: r) full with
              | true => exact .inl rfl
              | false =>
                right
                cases h2 : inh.inOnly with
                | true => rfl
                | false => rw [h1, h2] at ho; exact absurd rfl ho
          have hst : Started sh inh raw only name _ := .mk (by omega) hsp hsel hm
          have hrun := tune_run (R1 := R1) (R2 := R2) (bifBody env name) (deaf_body env name (hn _ _ hst))
            { sh := { sh with count := sh.count + 1 }, inh := { { inh with bifCount := sh.count + 1 } with inOnly := true }
              b := { b with name := name, alias := name }, raw := raw, only := only }
            (fun o k s1 hmo hs => hR _ _ hst o k s1 hmo hs)
          obtain ⟨hok, herr⟩ := hrun
          have hok' : ∀ a s', _ = Res.ok a s' → run R2 (bifBody env name)
            { sh := { T.on sh with count := sh.count + 1 }, inh := { { inh with bifCount := sh.count + 1 } with inOnly := true }
              b := { b with name := name, alias := name }, raw := raw, only := only } = Res.ok a (T.st s') := hok
          have herr' : ∀ e s', _ = Res.err e s' → run R2 (bifBody env name)
            { sh := { T.on sh with count := sh.count + 1 }, inh := { { inh with bifCount := sh.count + 1 } with inOnly := true }
              b := { b with name := name, alias := name }, raw := raw, only := only } = Res.err e (T.st s') := herr
          revert h
          cases hx : run R1 (bifBody env name)
            { sh := { sh with count := sh.count + 1 }, inh := { { inh with bifCount := sh.count + 1 } with inOnly := true }
              b := { b with name := name, alias := name }, raw := raw, only := only } with
          | panic q => intro h; cases h
          | oof => intro h; cases h
          | ok a s1 =>
            intro h
            rw [hok' _ _ hx]
            cases h
            rfl
          | err er s1 =>
            intro h
            rw [herr' _ _ hx]
            simp only [bifResult] at h ⊢
            have he := tune_showErrors hT s1.sh
            have e3 : (T.st s1).sh = T.on s1.sh := rfl
            rw [e3]
            cases h1 : showErrors s1.sh with
            | none => rw [h1] at h; cases h
            | some c =>
              rw [h1] at h he
              cases h2 : showErrors (T.on s1.sh) with
              | none => rw [h2] at he; cases he
              | some c' =>
                dsimp only at h ⊢
                cases h
                unfold bifFinish
                dsimp only
                congr 1
                exact tune_pushError T { s1.sh with w := { s1.sh.w with tick := s1.sh.w.tick + 1 } } _

/-! ### blocks -/

/-- Every BIF evaluated in the blocks, or nested in them, is spared. -/
def AllSpared (T : Tuning) (env : Env) (only : Str) (n : Nat) (src : Str) (bs : List (Nat × Nat)) (sh : Shared) (inh : Inherit) : Prop :=
  ∀ m raw sh1 inh1, Evaluates env n src only bs sh inh m raw sh1 inh1 → ∀ name s, Started sh1 inh1 raw only name s → T.Spares name

theorem tune_blocks {T : Tuning} (hT : T.Shows) {env : Env} {only : Str} {n : Nat}
    (hR : ∀ k, n = k + 1 → ∀ sh inh src bs out sh' inh', AllSpared T env only k src bs sh inh →
      runBlocks env n sh inh src bs only = .ok out sh' inh' → runBlocks env n (T.on sh) inh src bs only = .ok out (T.on sh') inh')
    (src : Str) (bs : List (Nat × Nat)) :
    ∀ (prevEnd : Nat) (out : Str) (sh : Shared) (inh : Inherit) (x : Str) (sh' : Shared) (inh' : Inherit),
      AllSpared T env only n src bs sh inh →
      blocksGo env (runBlocks env n) src only prevEnd out bs sh inh = .ok x sh' inh' →
      blocksGo env (runBlocks env n) src only prevEnd out bs (T.on sh) inh = .ok x (T.on sh') inh' := by
  induction bs with
  | nil => intro _ _ _ _ _ _ _ _ h; cases h; rfl
  | cons be bs ih =>
    intro prevEnd out sh inh x sh' inh' hf h
    obtain ⟨b, e⟩ := be
    unfold blocksGo at h ⊢
    have hexit : (T.on sh).exit = sh.exit := rfl
    rw [hexit]
    cases hx : sh.exit with
    | true =>
      rw [hx] at h
      simp only [if_true] at h ⊢
      cases h
      rfl
    | false =>
      rw [hx] at h
      simp only [Bool.false_eq_true, if_false] at h ⊢
      cases hk : (startsWith c!"{:*" (slice src b e) || (inh.lastCoalesceOut && inh.alias = c!"coalesce")) with
      | true =>
        rw [hk] at h
        simp only [if_true] at h ⊢
        exact ih _ _ _ _ _ _ _ (fun m raw sh1 inh1 hev => hf m raw sh1 inh1 (.skip hx hk hev)) h
      | false =>
        rw [hk] at h
        simp only [Bool.false_eq_true, if_false] at h ⊢
        cases hr : runBif env (runBlocks env n) sh inh (slice src b e) only with
        | panic q => rw [hr] at h; cases h
        | oof => rw [hr] at h; cases h
        | ok y sh2 inh2 =>
          rw [hr] at h
          dsimp only at h
          rw [tune_runBif (R1 := runBlocks env n) (R2 := runBlocks env n) hT (hf _ _ _ _ (.here hx hk)) ?_ hr]
          · exact ih _ _ _ _ _ _ _ (fun m raw sh1 inh1 hev => hf m raw sh1 inh1 (.later hx hk hr hev)) h
          · intro name s hst o k s1 hm hs csrc cbs hc out' sh3 inh3 hok
            rw [hs] at hok ⊢
            cases n with
            | zero => cases hok
            | succ n => exact hR n rfl _ _ _ _ _ _ _ (fun m raw sh1 inh1 hev => hf m raw sh1 inh1 (.nested hx hk hst hm hc hev)) hok

theorem tune_runBlocks {T : Tuning} (hT : T.Shows) {env : Env} {only : Str} : ∀ (n : Nat) (sh : Shared) (inh : Inherit) (src : Str)
    (bs : List (Nat × Nat)) (out : Str) (sh' : Shared) (inh' : Inherit), AllSpared T env only n src bs sh inh →
    runBlocks env (n + 1) sh inh src bs only = .ok out sh' inh' →
    runBlocks env (n + 1) (T.on sh) inh src bs only = .ok out (T.on sh') inh' := by
  intro n
  induction n with
  | zero =>
    intro sh inh src bs out sh' inh' hf h
    exact tune_blocks (n := 0) hT (fun k hk => by omega) src bs 0 [] sh inh out sh' inh' hf h
  | succ n ih =>
    intro sh inh src bs out sh' inh' hf h
    refine tune_blocks (n := n + 1) hT (fun k hk sh1 inh1 src1 bs1 out1 sh2 inh2 hf' h' => ?_) src bs 0 [] sh inh out sh' inh' hf h
    have : k = n := by omega
    subst this
    exact ih sh1 inh1 src1 bs1 out1 sh2 inh2 hf' h'

/-! ### whole renders -/

theorem tune_pass {T : Tuning} (hT : T.Shows) {env : Env} {sh sh' : Shared} {inh inh' : Inherit} {text only out : Str}
    (hf : ∀ bs, extractBlocks text = .ok bs → AllSpared T env only sh.max text bs sh { inh with blockCount := inh.blockCount + 1 })
    (h : pass env sh inh text only = .ok out sh' inh') : pass env (T.on sh) inh text only = .ok out (T.on sh') inh' := by
  unfold pass parseSrc at h ⊢
  cases hx : extractBlocks text with
  | error p => rw [hx] at h; cases h; dsimp only; rw [tune_handle, tune_drop]
  | ok bs =>
    rw [hx] at h
    dsimp only at h ⊢
    cases hr : runBlocks env (sh.max + 1) sh { inh with blockCount := inh.blockCount + 1 } text bs only with
    | panic q => rw [hr] at h; cases h
    | oof => rw [hr] at h; cases h
    | ok out1 sh1 inh1 =>
      rw [hr] at h
      have h1 := tune_runBlocks hT sh.max _ _ _ _ _ _ _ (hf bs hx) hr
      have h2 := C19_depth env (sh.max + 1) ((T.on sh).max + 1) (by show sh.max + 1 ≤ sh.max + T.more + 1; omega) (T.on sh)
        { inh with blockCount := inh.blockCount + 1 } text only bs (by rw [h1]; intro h; cases h)
      rw [h2, h1]
      dsimp only at h ⊢
      cases h
      rw [tune_drop]

theorem tune_loop {T : Tuning} (hT : T.Shows) {env : Env} {inh : Inherit} {sh0 : Shared} {raw : Str} (n : Nat) :
    ∀ (j : Nat) (sh sh2 : Shared) (inh2 : Inherit) (text only out x : Str) (sh' : Shared) (inh' : Inherit),
    PassOf env inh sh0 raw j sh text only →
    pass env sh inh text only = .ok out sh2 inh2 →
    (∀ k sh1 text1 only1, k ≤ j + n → PassOf env inh sh0 raw k sh1 text1 only1 → ∀ bs, extractBlocks text1 = .ok bs →
      AllSpared T env only1 sh1.max text1 bs sh1 { inh with blockCount := inh.blockCount + 1 }) →
    cacheLoop env inh n sh2 out = .ok x sh' inh' → cacheLoop env inh n (T.on sh2) out = .ok x (T.on sh') inh' := by
  induction n with
  | zero =>
    intro j sh sh2 inh2 text only out x sh' inh' hp hr hf h
    unfold cacheLoop at h ⊢
    split at h
    · cases h
    · next hc => rw [if_neg hc]; cases h; rfl
  | succ n ih =>
    intro j sh sh2 inh2 text only out x sh' inh' hp hr hf h
    unfold cacheLoop at h ⊢
    by_cases hc : contains c!"{:!cache;" out = true
    · rw [if_pos hc] at h ⊢
      have hn : PassOf env inh sh0 raw (j + 1) sh2 out c!"!cache" :=
        .next hp hr ((contains_iff (p := c!"{:!cache;") (s := out) (by decide)).1 hc)
      cases hq : pass env sh2 inh out c!"!cache" with
      | panic q => rw [hq] at h; cases h
      | oof => rw [hq] at h; cases h
      | ok out' sh3 inh3 =>
        rw [hq] at h
        dsimp only at h
        rw [tune_pass hT (hf (j + 1) _ _ _ (by omega) hn) hq]
        exact ih (j + 1) _ _ _ _ _ _ _ _ _ hn hq (fun k sh1 text1 only1 hk hpk => hf k sh1 text1 only1 (by omega) hpk) h
    · rw [if_neg hc] at h ⊢
      cases h
      rfl

theorem tune_init {T : Tuning} {env : Env} {f raw raw' : Str} {sh sh' : Shared} {inh : Inherit}
    (hc : T.comments = none ∨ removeComments raw = some raw)
    (h : initShared env f raw sh = .ok (raw', sh', inh)) : initShared env f raw (T.on sh) = .ok (raw', T.on sh', inh) := by
  unfold initShared at h ⊢
  have e1 : (if contains c!"remove" (T.on sh).comments = true then removeComments raw else some raw) =
      if contains c!"remove" sh.comments = true then removeComments raw else some raw := by
    rcases hc with hc | hc
    · have : (T.on sh).comments = sh.comments := by show T.comments.getD sh.comments = _; rw [hc]; rfl
      rw [this]
    · rw [hc]; simp
  rw [e1]
  cases hr : (if contains c!"remove" sh.comments = true then removeComments raw else some raw) with
  | none => rw [hr] at h; cases h
  | some r =>
    rw [hr] at h
    dsimp only at h ⊢
    rw [tune_create]
    generalize hp : createBlockSchema sh Inherit.new = p at h ⊢
    have e2 : (T.on p.1).schema = withConfig T.config p.1.schema := rfl
    dsimp only
    rw [e2, withConfig_setIndex _ _ (by decide)]
    cases h1 : p.1.schema.setIndex c!"__moveto" (.obj []) with
    | none => rw [h1] at h; cases h
    | some v1 =>
      rw [h1] at h
      simp only [Option.map_some, Option.bind_some] at h ⊢
      rw [withConfig_setIndex _ _ (by decide)]
      cases h2 : v1.setIndex c!"__error" (.arr []) with
      | none => rw [h2] at h; cases h
      | some v2 =>
        rw [h2] at h
        simp only [Option.map_some] at h ⊢
        have e3 : filterContext (withConfig T.config v2) = (filterContext v2).map (withConfig T.config) :=
          withConfig_modIndex _ _ (by decide) _
        rw [e3, withConfig_index _ _ (by decide)]
        cases h3 : filterContext v2 with
        | none => rw [h3] at h; cases h
        | some v3 =>
          rw [h3] at h
          simp only [Option.map_some] at h ⊢
          cases h
          rfl

theorem tune_ends (T : Tuning) (sh : Shared) (out : Str) : endsRender (T.on sh) out = endsRender sh out := by
  unfold endsRender
  have e : applyMoveto (T.on sh).schema out = applyMoveto sh.schema out := by
    unfold applyMoveto
    have : (T.on sh).schema.index c!"__moveto" = sh.schema.index c!"__moveto" := withConfig_index _ _ (by decide)
    rw [this]
  rw [e]
  rfl

theorem tune_renderWith {T : Tuning} (hT : T.Shows) {env : Env} {n : Nat} {t1 t2 t1' : Tpl} {sc1 sc2 : Value} {sh : Shared}
    (hraw : t2.raw = t1.raw) (hfile : t2.filePath = t1.filePath)
    (hc : T.comments = none ∨ removeComments t1.raw = some t1.raw)
    (hn : ∀ raw sh0 inh, initShared env t1.filePath t1.raw sh = .ok (raw, sh0, inh) → ∀ k sh1 text only, k ≤ n →
      PassOf env inh sh0 raw k sh1 text only → ∀ bs, extractBlocks text = .ok bs →
      AllSpared T env only sh1.max text bs sh1 { inh with blockCount := inh.blockCount + 1 })
    (h : renderWith env n t1 sc1 (some sh) = .ok t1') :
    renderWith env n t2 sc2 (some (T.on sh)) = .ok { t1' with schema := sc2, shared := T.on t1'.shared } := by
  unfold renderWith at h ⊢
  dsimp only at h ⊢
  rw [hraw, hfile]
  cases hi : initShared env t1.filePath t1.raw sh with
  | error p => rw [hi] at h; cases h
  | ok r =>
    obtain ⟨raw, sh0, inh⟩ := r
    rw [hi] at h
    rw [tune_init hc hi]
    dsimp only at h ⊢
    have hf := hn raw sh0 inh hi
    cases hp : pass env sh0 inh raw [] with
    | panic q => rw [hp] at h; cases h
    | oof => rw [hp] at h; cases h
    | ok out sh2 inh2 =>
      rw [hp] at h
      rw [tune_pass hT (hf 0 _ _ _ (by omega) .first) hp]
      dsimp only at h ⊢
      cases hl : cacheLoop env inh n sh2 out with
      | panic q => rw [hl] at h; cases h
      | oof => rw [hl] at h; cases h
      | ok out2 sh3 inh3 =>
        rw [hl] at h
        rw [tune_loop hT n 0 sh0 sh2 inh2 raw [] out out2 sh3 inh3 .first hp (fun k sh1 text1 only1 hk hpk => hf k sh1 text1 only1 (by omega) hpk) hl]
        dsimp only at h ⊢
        rw [tune_ends]
        cases he : endsRender sh3 out2 with
        | none => rw [he] at h; cases h
        | some out3 =>
          rw [he] at h
          cases h
          rfl

/-! ### two configurations -/

open Classical in
/-- The tuning that leads from the first configuration to the second. -/
noncomputable def tuningOf (c1 c2 : Value) (sh1 sh2 : Shared) : Tuning where
  config := fun v => if v = c1 then c2 else v
  more := sh2.max - sh1.max
  comments := if c1.get? c!"comments" = c2.get? c!"comments" then none else some sh2.comments
  filterAll := if c1.get? c!"filter_all" = c2.get? c!"filter_all" then none else some sh2.filterAll
  filterBifs := if c1.get? c!"cache_disable" = c2.get? c!"cache_disable" then none else some sh2.filterBifs
  cachePrefix := if c1.get? c!"cache_prefix" = c2.get? c!"cache_prefix" then none else some sh2.cachePrefix
  cacheDir := if c1.get? c!"cache_dir" = c2.get? c!"cache_dir" then none else some sh2.cacheDir
  cacheOnPost := if c1.get? c!"cache_on_post" = c2.get? c!"cache_on_post" then none else some sh2.cacheOnPost
  cacheOnGet := if c1.get? c!"cache_on_get" = c2.get? c!"cache_on_get" then none else some sh2.cacheOnGet
  cacheOnCookies := if c1.get? c!"cache_on_cookies" = c2.get? c!"cache_on_cookies" then none else some sh2.cacheOnCookies
  cacheDisable := if c1.get? c!"cache_disable" = c2.get? c!"cache_disable" then none else some sh2.cacheDisable
  disableJs := if c1.get? c!"disable_js" = c2.get? c!"disable_js" then none else some sh2.disableJs
  debugExpire := some sh2.debugExpire
  debugFile := some sh2.debugFile

theorem getFromKey_same {F : F64Ops} {c1 c2 : Value} {k : Str} (hk : (!contains c!"->" k && !contains c!"/" k) = true)
    (h : c1.get? k = c2.get? k) : getFromKey F c1 k = getFromKey F c2 k := by
  unfold getFromKey resolvePointer
  rw [if_pos hk, if_pos hk, h]

theorem isBoolKey_same {F : F64Ops} {c1 c2 : Value} {k : Str} (hk : (!contains c!"->" k && !contains c!"/" k) = true)
    (h : c1.get? k = c2.get? k) : isBoolKey F c1 k = isBoolKey F c2 k := by
  unfold isBoolKey resolvePointer
  rw [if_pos hk, if_pos hk, h]

theorem getD_choice {α : Type} {P : Prop} {_ : Decidable P} {a b : α} (h : P → b = a) : (if P then none else some a).getD b = a := by
  by_cases hp : P
  · rw [if_pos hp]; exact h hp
  · rw [if_neg hp]; rfl

theorem shared_eta (a b : Shared) (h1 : a.schema = b.schema) (h2 : a.indir = b.indir) (h3 : a.lang = b.lang) (h4 : a.comments = b.comments)
    (h5 : a.count = b.count) (h6 : a.max = b.max) (h7 : a.flags = b.flags) (h8 : a.exit = b.exit) (h9 : a.hasError = b.hasError)
    (h10 : a.statusCode = b.statusCode) (h11 : a.statusText = b.statusText) (h12 : a.statusParam = b.statusParam)
    (h13 : a.redirectJs = b.redirectJs) (h14 : a.filterAll = b.filterAll) (h15 : a.filterBifs = b.filterBifs)
    (h16 : a.cachePrefix = b.cachePrefix) (h17 : a.cacheDir = b.cacheDir) (h18 : a.cacheOnPost = b.cacheOnPost)
    (h19 : a.cacheOnGet = b.cacheOnGet) (h20 : a.cacheOnCookies = b.cacheOnCookies) (h21 : a.cacheDisable = b.cacheDisable)
    (h22 : a.disableJs = b.disableJs) (h23 : a.alreadyJs = b.alreadyJs) (h24 : a.debugExpire = b.debugExpire) (h25 : a.debugFile = b.debugFile)
    (h26 : a.workingDir = b.workingDir) (h27 : a.w = b.w) : a = b := by
  cases a; cases b
  simp only at *
  subst h1 h2 h3 h4 h5 h6 h7 h8 h9 h10 h11 h12 h13 h14 h15 h16 h17 h18 h19 h20 h21 h22 h23 h24 h25 h26 h27
  rfl

theorem tuningOf_on {env : Env} {w : World} {o : Obj} {c1 c2 : Value} {sh1 sh2 : Shared} (hc : Obj.get? c!"config" o = some c1)
    (h1 : Shared.new env w (.obj o) = some sh1) (h2 : Shared.new env w (.obj (Obj.insert c!"config" c2 o)) = some sh2)
    (hmax : sh1.max ≤ sh2.max) : (tuningOf c1 c2 sh1 sh2).on sh1 = sh2 := by
  have e1 : (Value.obj o).index c!"config" = c1 := by simp only [Value.index, Value.get?, hc, Option.getD_some]
  have e2 : (Value.obj (Obj.insert c!"config" c2 o)).index c!"config" = c2 := by
    simp only [Value.index, Value.get?, Obj.get?_insert_self, Option.getD_some]
  have e3 : (Value.obj (Obj.insert c!"config" c2 o)).index c!"inherit" = (Value.obj o).index c!"inherit" := by
    simp only [Value.index, Value.get?]
    rw [Obj.get?_insert_ne o c2 (by decide)]
  unfold Shared.new at h1 h2
  rw [e1] at h1
  rw [e2, e3] at h2
  dsimp only at h1 h2
  cases a1 : (c1.index c!"infinite_loop_max_bifs").asU64? with
  | none => rw [a1] at h1; cases h1
  | some m1 =>
    cases b1 : (c1.index c!"debug_expire").asU64? with
    | none => rw [a1, b1] at h1; cases h1
    | some d1 =>
      cases a2 : (c2.index c!"infinite_loop_max_bifs").asU64? with
      | none => rw [a2] at h2; cases h2
      | some m2 =>
        cases b2 : (c2.index c!"debug_expire").asU64? with
        | none => rw [a2, b2] at h2; cases h2
        | some d2 =>
          rw [a1, b1] at h1
          rw [a2, b2] at h2
          cases h1
          cases h2
          have hm : m1 ≤ m2 := hmax
          refine shared_eta _ _ ?_ rfl rfl ?_ rfl ?_ rfl rfl rfl rfl rfl rfl rfl ?_ ?_ ?_ ?_ ?_ ?_ ?_ ?_ ?_ rfl rfl rfl rfl rfl
          · simp only [Tuning.on, tuningOf, withConfig, hc, if_true]
          · dsimp only [Tuning.on, tuningOf]
            exact getD_choice (P := c1.get? c!"comments" = c2.get? c!"comments") (fun h => (getFromKey_same (F := env.f64) (k := c!"comments") (by decide) h))
          · show m1 + (m2 - m1) = m2
            omega
          · dsimp only [Tuning.on, tuningOf]
            exact getD_choice (P := c1.get? c!"filter_all" = c2.get? c!"filter_all") (fun h => (isBoolKey_same (F := env.f64) (k := c!"filter_all") (by decide) h))
          · dsimp only [Tuning.on, tuningOf]
            exact getD_choice (P := c1.get? c!"cache_disable" = c2.get? c!"cache_disable") (fun h => congrArg not (isBoolKey_same (F := env.f64) (k := c!"cache_disable") (by decide) h))
          · dsimp only [Tuning.on, tuningOf]
            exact getD_choice (P := c1.get? c!"cache_prefix" = c2.get? c!"cache_prefix") (fun h => (getFromKey_same (F := env.f64) (k := c!"cache_prefix") (by decide) h))
          · dsimp only [Tuning.on, tuningOf]
            exact getD_choice (P := c1.get? c!"cache_dir" = c2.get? c!"cache_dir") (fun h => by rw [getFromKey_same (F := env.f64) (k := c!"cache_dir") (by decide) h])
          · dsimp only [Tuning.on, tuningOf]
            exact getD_choice (P := c1.get? c!"cache_on_post" = c2.get? c!"cache_on_post") (fun h => (isBoolKey_same (F := env.f64) (k := c!"cache_on_post") (by decide) h))
          · dsimp only [Tuning.on, tuningOf]
            exact getD_choice (P := c1.get? c!"cache_on_get" = c2.get? c!"cache_on_get") (fun h => (isBoolKey_same (F := env.f64) (k := c!"cache_on_get") (by decide) h))
          · dsimp only [Tuning.on, tuningOf]
            exact getD_choice (P := c1.get? c!"cache_on_cookies" = c2.get? c!"cache_on_cookies") (fun h => (isBoolKey_same (F := env.f64) (k := c!"cache_on_cookies") (by decide) h))
          · dsimp only [Tuning.on, tuningOf]
            exact getD_choice (P := c1.get? c!"cache_disable" = c2.get? c!"cache_disable") (fun h => (isBoolKey_same (F := env.f64) (k := c!"cache_disable") (by decide) h))
          · dsimp only [Tuning.on, tuningOf]
            exact getD_choice (P := c1.get? c!"disable_js" = c2.get? c!"disable_js") (fun h => (isBoolKey_same (F := env.f64) (k := c!"disable_js") (by decide) h))

theorem tuningOf_spares {c1 c2 : Value} {sh1 sh2 : Shared} {name : Str}
    (h : ¬ (name = c!"obj" ∨ name = c!"debug" ∨ ∃ key, c1.get? key ≠ c2.get? key ∧ name ∈ readersOf key)) :
    (tuningOf c1 c2 sh1 sh2).Spares name := by
  have hk : ∀ key, name ∈ readersOf key → c1.get? key = c2.get? key := by
    intro key hm
    apply Classical.byContradiction
    exact fun hne => h (.inr (.inr ⟨key, hne, hm⟩))
  refine ⟨fun e => ?_, fun e => ?_, fun e => ?_, fun e => ?_, fun e => h (.inl e), fun e => h (.inr (.inl e))⟩ <;> subst e
  · exact ⟨if_pos (hk c!"filter_all" (by decide)), if_pos (hk c!"cache_disable" (by decide))⟩
  · exact if_pos (hk c!"disable_js" (by decide))
  · exact if_pos (hk c!"comments" (by decide))
  · exact ⟨if_pos (hk c!"cache_prefix" (by decide)), if_pos (hk c!"cache_dir" (by decide)), if_pos (hk c!"cache_on_post" (by decide)),
      if_pos (hk c!"cache_on_get" (by decide)), if_pos (hk c!"cache_on_cookies" (by decide)), if_pos (hk c!"cache_disable" (by decide))⟩

theorem tuningOf_shows {c1 c2 : Value} {sh1 sh2 : Shared} (h : showSet c2 = showSet c1) : (tuningOf c1 c2 sh1 sh2).Shows := by
  intro v
  simp only [tuningOf]
  by_cases hv : v = c1
  · rw [if_pos hv, h, hv]
  · rw [if_neg hv]

/-- **C112.** Render a template with two schemas that differ only in their `config`.  If the first render ends, and none of the BIFs
evaluated in it reads an option that is different (`readersOf`) nor is `obj` or `debug`, the second render ends as well and gives the same
output, status, errors, number of BIFs and files - whatever the template, its files and the data.  The limit of BIFs may be raised. -/
theorem C112_options (env : Env) (n : Nat) (w : World) (t t' : Tpl) (o : Obj) (c1 c2 : Value) (sh1 sh2 : Shared)
    (hs : t.schema = .obj o) (hc : Obj.get? c!"config" o = some c1)
    (hnew1 : Shared.new env w (.obj o) = some sh1) (hnew2 : Shared.new env w (.obj (Obj.insert c!"config" c2 o)) = some sh2)
    (hmax : sh1.max ≤ sh2.max) (hshow : showSet c2 = showSet c1)
    (hcomments : c1.get? c!"comments" = c2.get? c!"comments" ∨ removeComments t.raw = some t.raw)
    (hreads : ¬ InSomePass (Reads c1 c2) env n t sh1)
    (hr : t.render env n w = .ok t') :
    ∃ t2, ({ t with schema := .obj (Obj.insert c!"config" c2 o) } : Tpl).render env n w = .ok t2 ∧ t2.out = t'.out ∧
      t2.statusCode = t'.statusCode ∧ t2.statusText = t'.statusText ∧ t2.statusParam = t'.statusParam ∧
      t2.hasError = t'.hasError ∧ t2.getError = t'.getError ∧ t2.shared.count = t'.shared.count ∧ t2.shared.w = t'.shared.w := by
  unfold Tpl.render at hr ⊢
  by_cases hb : contains bifOpen t.raw = true
  · rw [hb] at hr
    dsimp only
    rw [hb]
    simp only [Bool.not_true, Bool.false_eq_true, if_false] at hr ⊢
    rw [hs, hnew1] at hr
    rw [hnew2]
    have hT : (tuningOf c1 c2 sh1 sh2).Shows := tuningOf_shows hshow
    have hon := tuningOf_on hc hnew1 hnew2 hmax
    have hren := tune_renderWith (t2 := { t with schema := .obj (Obj.insert c!"config" c2 o) }) (sc2 := .obj (Obj.insert c!"config" c2 o)) hT
      (sh := sh1) rfl rfl (hcomments.imp (fun h => if_pos h) id) (fun raw sh0 inh hi k sh3 text only hk hp bs hbs m raw' sh4 inh4 hev name s hst =>
        tuningOf_spares (fun hx => hreads ⟨raw, sh0, inh, hi, k, sh3, text, only, hk, hp, bs, hbs, m, raw', sh4, inh4, hev, name, s, hst, hx⟩)) hr
    rw [hon] at hren
    exact ⟨_, hren, rfl, rfl, rfl, rfl, rfl, withConfig_index _ _ (by decide), rfl, rfl⟩
  · have hb' : contains bifOpen t.raw = false := Bool.eq_false_iff.2 hb
    rw [hb'] at hr
    dsimp only
    rw [hb']
    simp only [Bool.not_false, if_true] at hr ⊢
    cases hr
    exact ⟨_, rfl, rfl, rfl, rfl, rfl, rfl, rfl, rfl, rfl⟩

/-- **C112 (the limit).** A page that is rendered within its limit of BIFs is rendered in the same way with any higher limit, unless it
shows the schema with `debug` or calls a script with `obj`. -/
theorem C112_limit (env : Env) (n : Nat) (w : World) (t t' : Tpl) (o c : Obj) (m1 m2 : Nat) (sh1 : Shared)
    (hs : t.schema = .obj o) (hc : Obj.get? c!"config" o = some (.obj c))
    (hm1 : Obj.get? c!"infinite_loop_max_bifs" c = some (.num (.int m1))) (hle : m1 ≤ m2)
    (hnew1 : Shared.new env w (.obj o) = some sh1)
    (hreads : ¬ InSomePass (fun _ raw sh inh only => ∃ name s, Started sh inh raw only name s ∧ (name = c!"obj" ∨ name = c!"debug")) env n t sh1)
    (hr : t.render env n w = .ok t') :
    ∃ t2, ({ t with schema := .obj (Obj.insert c!"config" (.obj (Obj.insert c!"infinite_loop_max_bifs" (.num (.int m2)) c)) o) } : Tpl).render
        env n w = .ok t2 ∧ t2.out = t'.out ∧
      t2.statusCode = t'.statusCode ∧ t2.statusText = t'.statusText ∧ t2.statusParam = t'.statusParam ∧
      t2.hasError = t'.hasError ∧ t2.getError = t'.getError ∧ t2.shared.count = t'.shared.count ∧ t2.shared.w = t'.shared.w := by
  have e1 : (Value.obj o).index c!"config" = .obj c := by simp only [Value.index, Value.get?, hc, Option.getD_some]
  have e2 : (Value.obj (Obj.insert c!"config" (.obj (Obj.insert c!"infinite_loop_max_bifs" (.num (.int m2)) c)) o)).index c!"config" =
      .obj (Obj.insert c!"infinite_loop_max_bifs" (.num (.int m2)) c) := by
    simp only [Value.index, Value.get?, Obj.get?_insert_self, Option.getD_some]
  have eI : (Value.obj c).index c!"infinite_loop_max_bifs" = .num (.int m1) := by simp only [Value.index, Value.get?, hm1, Option.getD_some]
  have eI2 : (Value.obj (Obj.insert c!"infinite_loop_max_bifs" (.num (.int m2)) c)).index c!"infinite_loop_max_bifs" = .num (.int m2) := by
    simp only [Value.index, Value.get?, Obj.get?_insert_self, Option.getD_some]
  have eD : (Value.obj (Obj.insert c!"infinite_loop_max_bifs" (.num (.int m2)) c)).index c!"debug_expire" = (Value.obj c).index c!"debug_expire" := by
    simp only [Value.index, Value.get?]
    rw [Obj.get?_insert_ne c _ (by decide)]
  have u1 : (Value.num (.int m1)).asU64? = some m1 := by simp [Value.asU64?]
  have u2 : (Value.num (.int m2)).asU64? = some m2 := by simp [Value.asU64?]
  have hmax1 : sh1.max = m1 := by
    unfold Shared.new at hnew1
    rw [e1] at hnew1
    dsimp only at hnew1
    rw [eI, u1] at hnew1
    split at hnew1
    · next a b ha hb => cases ha; cases hnew1; rfl
    · cases hnew1
  obtain ⟨sh2, hnew2, hmax2⟩ : ∃ sh2, Shared.new env w (.obj (Obj.insert c!"config" (.obj (Obj.insert c!"infinite_loop_max_bifs" (.num (.int m2)) c)) o)) =
      some sh2 ∧ sh2.max = m2 := by
    unfold Shared.new at hnew1 ⊢
    rw [e1] at hnew1
    rw [e2]
    dsimp only at hnew1 ⊢
    rw [eI, u1] at hnew1
    rw [eI2, u2, eD]
    cases hd : ((Value.obj c).index c!"debug_expire").asU64? with
    | none => rw [hd] at hnew1; cases hnew1
    | some d => exact ⟨_, rfl, rfl⟩
  have hkey : ∀ key, (Value.obj c).get? key ≠ (Value.obj (Obj.insert c!"infinite_loop_max_bifs" (.num (.int m2)) c)).get? key →
      key = c!"infinite_loop_max_bifs" := by
    intro key h
    apply Classical.byContradiction
    intro hk
    refine h ?_
    simp only [Value.get?]
    rw [Obj.get?_insert_ne c _ (fun e => hk e.symm)]
  refine C112_options env n w t t' o (.obj c) _ sh1 sh2 hs hc hnew1 hnew2 (by omega) ?_ ?_ ?_ hr
  · unfold showSet
    have : (Value.obj (Obj.insert c!"infinite_loop_max_bifs" (.num (.int m2)) c)).index c!"error" = (Value.obj c).index c!"error" := by
      simp only [Value.index, Value.get?]
      rw [Obj.get?_insert_ne c _ (by decide)]
    rw [this]
  · left
    simp only [Value.get?]
    rw [Obj.get?_insert_ne c _ (by decide)]
  · rintro ⟨raw, sh0, inh, hi, k, sh3, text, only, hk, hp, bs, hbs, m, raw', sh4, inh4, hev, name, s, hst, hx⟩
    refine hreads ⟨raw, sh0, inh, hi, k, sh3, text, only, hk, hp, bs, hbs, m, raw', sh4, inh4, hev, name, s, hst, ?_⟩
    rcases hx with hx | hx | ⟨key, hne, hm⟩
    · exact .inl hx
    · exact .inr hx
    · rw [hkey key hne] at hm
      have hnil : readersOf c!"infinite_loop_max_bifs" = [] := by decide
      rw [hnil] at hm
      cases hm

/-! ### cases -/

/-- The hypotheses can be met: of a page with only `lang` every option may change. -/
theorem Sample.lang_reads (c1 c2 : Value) (sh : Shared) :
    ¬ InSomePass (Reads c1 c2) Sample.env 0 (Sample.tpl (Sample.schema 1000 [] Sample.inherit) c!"a{:lang;:}b{:lang;:}") sh := by
  intro h
  obtain ⟨R, sh2, inh2, only, name, s, hst, hread⟩ := Sample.lang_pass _ sh h
  have hn := Sample.lang_started hst
  subst hn
  rcases hread with h | h | ⟨key, _, hm⟩
  · revert h; decide
  · revert h; decide
  · unfold readersOf at hm
    split at hm
    · revert hm; decide
    · split at hm
      · revert hm; decide
      · split at hm
        · revert hm; decide
        · split at hm
          · revert hm; decide
          · split at hm
            · revert hm; decide
            · cases hm

/-- The members of the sample schema, and another configuration. -/
def Sample.parts : Obj := match Sample.schema 1000 [] Sample.inherit with | .obj o => o | _ => []
def Sample.otherConfig : Value := .obj [
  (c!"infinite_loop_max_bifs", .num (.int 2000)), (c!"comments", .str c!"keep"), (c!"error", .obj [(c!"show", .bool false)]),
  (c!"cache_disable", .bool true), (c!"filter_all", .bool true), (c!"disable_js", .bool true), (c!"debug_expire", .num (.int 1))]

set_option maxRecDepth 10000 in
/-- That page renders in the same way with every option changed ... -/
example (t' : Tpl) (hr : (Sample.tpl (Sample.schema 1000 [] Sample.inherit) c!"a{:lang;:}b{:lang;:}").render Sample.env 0 Sample.world = .ok t') :
    ∃ t2, (Sample.tpl (.obj (Obj.insert c!"config" Sample.otherConfig Sample.parts)) c!"a{:lang;:}b{:lang;:}").render Sample.env 0 Sample.world =
      .ok t2 ∧ t2.out = t'.out := by
  obtain ⟨t2, h, ho, _⟩ := C112_options Sample.env 0 Sample.world _ t' Sample.parts _ Sample.otherConfig _ _ rfl rfl rfl rfl
    (by decide +kernel) (by decide +kernel) (.inr (by decide +kernel)) (Sample.lang_reads _ _ _) hr
  exact ⟨t2, h, ho⟩

set_option maxRecDepth 10000 in
/-- ... while `filter_all` changes what a variable shows. -/
example :
    (Sample.outOf ((Sample.tpl (Sample.schema 1000 [(c!"x", .str c!"<")] Sample.inherit) c!"{:;x:}").render Sample.env 2 Sample.world)).map (·.1) =
      some c!"<" ∧
    (Sample.outOf ((Sample.tpl (.obj (Obj.insert c!"config" Sample.otherConfig (match Sample.schema 1000 [(c!"x", .str c!"<")] Sample.inherit with
      | .obj o => o | _ => []))) c!"{:;x:}").render Sample.env 2 Sample.world)).map (·.1) = some c!"&lt;" := by
  decide +kernel

end Nts
