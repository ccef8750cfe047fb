import Verif.Lemmas.Inv
import Verif.Lemmas.Value
import Verif.Lemmas.Num
import Verif.Props.Filter
import Verif.Spec.History
import Verif.Spec.Sample
/-
C21, C22, C53: what every execution preserves.
-/
set_option autoImplicit false
namespace Nts
open Spec

/-- Initialisation of a render changes only the schema and the block table. -/
theorem initShared_frame {env : Env} {filePath raw raw' : Str} {sh sh' : Shared} {inh : Inherit}
    (h : initShared env filePath raw sh = .ok (raw', sh', inh)) :
    ∃ sc f, sh' = { sh with schema := sc, indir := f } := by
  unfold initShared at h
  obtain ⟨f, hf⟩ := createBlockSchema_sh sh Inherit.new
  split at h
  · simp at h
  · dsimp only at h
    split at h
    · simp at h
    · split at h
      · simp at h
      · simp only [Except.ok.injEq, Prod.mk.injEq] at h
        obtain ⟨_, rfl, _⟩ := h
        rw [hf]
        exact ⟨_, _, rfl⟩

theorem pushError_index {sh : Shared} {line k : Str} (hk : k ≠ c!"__error") :
    (pushError sh line).schema.index k = sh.schema.index k := by
  unfold pushError
  dsimp only
  split
  · next o ho =>
    rw [ho]
    split
    · simp only [Value.index, Value.get?]
      rw [Obj.get?_insert_ne _ _ (Ne.symm hk)]
    · rfl
  · rfl

theorem pushError_errors {sh : Shared} {line : Str} {a : List Value} (h : errorsOf sh = .arr a) :
    errorsOf (pushError sh line) = .arr (a ++ [.str line]) := by
  unfold pushError errorsOf at *
  dsimp only
  split
  · next o ho =>
    rw [ho] at h
    simp only [Value.index, Value.get?] at h
    split
    · next a' ha =>
      rw [ha] at h
      simp only [Option.getD_some, Value.arr.injEq] at h
      subst h
      simp [Value.index, Value.get?, Obj.get?_insert_self]
    · next hx =>
      cases hg : Obj.get? c!"__error" o with
      | none => rw [hg] at h; simp at h
      | some v =>
        rw [hg] at h
        simp only [Option.getD_some] at h
        subst h
        exact absurd hg (hx a)
  · next v hv =>
    exfalso
    revert h
    cases hs : sh.schema with
    | obj o => exact absurd hs (hv o)
    | _ => simp [Value.index, Value.get?]

theorem fromFileMsgpack_ok {env : Env} {w : World} {path : Str} {e : Bool} {d : Except Str Value} {t : Tpl}
    (h : Tpl.fromFileMsgpack env w path e d = .ok t) : ∃ v, Tpl.fromFileValue env w path v = .ok t := by
  unfold Tpl.fromFileMsgpack at h
  split at h
  · exact ⟨_, h⟩
  · split at h
    · simp at h
    · exact ⟨_, h⟩

theorem mergeMsgpackPath_ok {env : Env} {w : World} {path : Str} {d : Except Str Value} {t t' : Tpl}
    (h : t.mergeSchemaMsgpackPath env w path d = .ok t') : ∃ v, t.merge v = .ok t' := by
  unfold Tpl.mergeSchemaMsgpackPath at h
  split at h
  · simp at h
  · unfold Tpl.mergeSchemaMsgpack at h
    split at h
    · simp at h
    · exact ⟨_, h⟩

/-! ### C21 -/

/-- The settings computed from the schema when rendering starts. -/
structure Spec.Settings where
  lang : Str
  comments : Str
  max : Nat
  filterAll : Bool
  filterBifs : Bool
  cachePrefix : Str
  cacheDir : Str
  cacheOnPost : Bool
  cacheOnGet : Bool
  cacheOnCookies : Bool
  cacheDisable : Bool
  disableJs : Bool
  debugExpire : Nat
  debugFile : Str
  workingDir : Str

/-- The settings a state holds. -/
def Spec.settings (sh : Shared) : Settings where
  lang := sh.lang
  comments := sh.comments
  max := sh.max
  filterAll := sh.filterAll
  filterBifs := sh.filterBifs
  cachePrefix := sh.cachePrefix
  cacheDir := sh.cacheDir
  cacheOnPost := sh.cacheOnPost
  cacheOnGet := sh.cacheOnGet
  cacheOnCookies := sh.cacheOnCookies
  cacheDisable := sh.cacheDisable
  disableJs := sh.disableJs
  debugExpire := sh.debugExpire
  debugFile := sh.debugFile
  workingDir := sh.workingDir

/-- The relation of C21: same settings, same schema outside `data`, `__moveto`, `__error`. -/
def Spec.SameConfig (a b : Shared) : Prop :=
  settings b = settings a ∧
    ∀ k, k ≠ c!"data" → k ≠ c!"__moveto" → k ≠ c!"__error" → b.schema.index k = a.schema.index k

theorem sameConfig_steps : StepsE (fun _ => True) SameConfig where
  refl _ := ⟨rfl, fun _ _ _ _ => rfl⟩
  trans a b c h1 h2 := ⟨h2.1.trans h1.1, fun k x y z => (h2.2 k x y z).trans (h1.2 k x y z)⟩
  indir _ _ := ⟨rfl, fun _ _ _ _ => rfl⟩
  unmatched _ _ := ⟨rfl, fun _ _ _ _ => rfl⟩
  err sh line _ := ⟨rfl, fun k _ _ he => pushError_index he⟩
  world _ _ := ⟨rfl, fun _ _ _ _ => rfl⟩
  flags _ _ := ⟨rfl, fun _ _ _ _ => rfl⟩
  status _ _ _ _ := ⟨rfl, fun _ _ _ _ => rfl⟩
  exit _ _ _ := ⟨rfl, fun _ _ _ _ => rfl⟩
  redirectJs _ _ := ⟨rfl, fun _ _ _ _ => rfl⟩
  alreadyJs _ := ⟨rfl, fun _ _ _ _ => rfl⟩
  data _ _ _ _ _ h := ⟨rfl, fun k hd _ _ => index_modIndex_ne h (Ne.symm hd)⟩
  moveto _ _ _ _ _ h := ⟨rfl, fun k _ hm _ => index_modIndex_ne h (Ne.symm hm)⟩

theorem sameConfig_closed : Closed (fun _ => True) SameConfig :=
  (sameConfig_steps).closed (fun _ _ => ⟨rfl, fun _ _ _ _ => rfl⟩)

/-- **C21 (any evaluation).** Evaluating any source in any state, to any depth, leaves every setting and every
top-level schema key other than `data` and the internal lists as it was. -/
theorem C21_blocks (env : Env) (n : Nat) (sh sh' : Shared) (inh inh' : Inherit) (src only out : Str)
    (blocks : List (Nat × Nat)) (h : runBlocks env n sh inh src blocks only = .ok out sh' inh') :
    SameConfig sh sh' := by
  have := runBlocks_rel sameConfig_closed env (fun _ => OpsIn_true _) n sh inh src blocks only
  rw [h] at this
  exact this

theorem renderWith_config {env : Env} {n : Nat} {t t' : Tpl} {sc : Value} {w : World}
    (h : renderWith env n t sc (Shared.new env w t.schema) = .ok t') :
    (∃ sh, Shared.new env w t.schema = some sh ∧ settings t'.shared = settings sh) ∧
    ∀ k, k ≠ c!"data" → k ≠ c!"__moveto" → k ≠ c!"__error" → t'.shared.schema.index k = t.schema.index k := by
  obtain ⟨sh, raw, sh1, inh, h0, h1, h2⟩ := renderWith_rel sameConfig_closed env (fun _ => OpsIn_true _) h
  have hs : sh.schema = t.schema := by
    unfold Shared.new at h0
    dsimp only at h0
    split at h0
    · simp only [Option.some.injEq] at h0; rw [← h0]
    · simp at h0
  obtain ⟨sc1, f, hf⟩ := initShared_frame h1
  refine ⟨⟨sh, h0, ?_⟩, ?_⟩
  · rw [h2.1, hf]; rfl
  · intro k a b c
    rw [h2.2 k a b c, (C04_outside_unchanged h1).2 k a b c, hs]

/-- **C21.** Whatever the template does, after `render` the configuration flags are those computed from the schema the
render started with, and every top-level key of that schema other than `data`, `__moveto` and `__error` has its
original value (in particular `config` and `inherit`). -/
theorem C21_render (env : Env) (n : Nat) (w : World) (t t' : Tpl) (hb : contains bifOpen t.raw = true)
    (h : t.render env n w = .ok t') :
    (∃ sh, Shared.new env w t.schema = some sh ∧ settings t'.shared = settings sh) ∧
    ∀ k, k ≠ c!"data" → k ≠ c!"__moveto" → k ≠ c!"__error" → t'.shared.schema.index k = t.schema.index k := by
  unfold Tpl.render at h
  simp only [hb, Bool.not_true, Bool.false_eq_true, if_false] at h
  exact renderWith_config h

/-- **C21**, for `render_once`. -/
theorem C21_render_once (env : Env) (n : Nat) (w : World) (t t' : Tpl) (hb : contains bifOpen t.raw = true)
    (h : t.renderOnce env n w = .ok t') :
    (∃ sh, Shared.new env w t.schema = some sh ∧ settings t'.shared = settings sh) ∧
    ∀ k, k ≠ c!"data" → k ≠ c!"__moveto" → k ≠ c!"__error" → t'.shared.schema.index k = t.schema.index k := by
  unfold Tpl.renderOnce at h
  rw [renderOnceWith_eq] at h
  simp only [hb, Bool.not_true, Bool.false_eq_true, if_false] at h
  exact renderWith_config h

/-- A render that tries to overwrite things: it ends, so the theorem applies to it. -/
example : (Sample.outOf (Sample.go [(c!"config", .str c!"x")]
    c!"{:each; config config config >> {:;config:} :}{:for; config 1..2 >> {:;config:} :}")).isSome = true := by
  decide +kernel

/-! ### C22 -/

/-- The relation of C22: the error list only grows, and `has_error` keeps telling whether it is empty. -/
def Spec.ErrorsGrow (a b : Shared) : Prop :=
  ∀ l, errorsOf a = .arr l → ∃ more, errorsOf b = .arr (l ++ more) ∧
    (a.hasError = !l.isEmpty → b.hasError = !(l ++ more).isEmpty)

theorem errorsGrow_same {a b : Shared} (h : errorsOf b = errorsOf a) (he : b.hasError = a.hasError) :
    ErrorsGrow a b := by
  intro l hl
  refine ⟨[], ?_, ?_⟩
  · rw [h, hl, List.append_nil]
  · rw [he, List.append_nil]; exact id

theorem errorsGrow_steps : StepsE (fun _ => True) ErrorsGrow where
  refl _ := errorsGrow_same rfl rfl
  trans a b c h1 h2 := by
    intro l hl
    obtain ⟨m1, e1, k1⟩ := h1 l hl
    obtain ⟨m2, e2, k2⟩ := h2 _ e1
    exact ⟨m1 ++ m2, by rw [← List.append_assoc]; exact e2, fun h => by rw [← List.append_assoc]; exact k2 (k1 h)⟩
  indir _ _ := errorsGrow_same rfl rfl
  unmatched _ _ := errorsGrow_same rfl rfl
  err sh line _ := by
    intro l hl
    exact ⟨[.str line], pushError_errors hl, fun _ => by simp [pushError]⟩
  world _ _ := errorsGrow_same rfl rfl
  flags _ _ := errorsGrow_same rfl rfl
  status _ _ _ _ := errorsGrow_same rfl rfl
  exit _ _ _ := errorsGrow_same rfl rfl
  redirectJs _ _ := errorsGrow_same rfl rfl
  alreadyJs _ := errorsGrow_same rfl rfl
  data _ _ _ _ _ h := errorsGrow_same (index_modIndex_ne h (by decide)) rfl
  moveto _ _ _ _ _ h := errorsGrow_same (index_modIndex_ne h (by decide)) rfl

theorem errorsGrow_closed : Closed (fun _ => True) ErrorsGrow :=
  (errorsGrow_steps).closed (fun _ _ => errorsGrow_same rfl rfl)

/-- **C22 (any evaluation).** During the evaluation of any source the error list is only extended. -/
theorem C22_errors_grow (env : Env) (n : Nat) (sh sh' : Shared) (inh inh' : Inherit) (src only out : Str)
    (blocks : List (Nat × Nat)) (errors : List Value) (he : errorsOf sh = .arr errors)
    (h : runBlocks env n sh inh src blocks only = .ok out sh' inh') :
    ∃ more, errorsOf sh' = .arr (errors ++ more) := by
  have := runBlocks_rel errorsGrow_closed env (fun _ => OpsIn_true _) n sh inh src blocks only
  rw [h] at this
  obtain ⟨m, hm, _⟩ := this errors he
  exact ⟨m, hm⟩

theorem sharedNew_fields {env : Env} {w : World} {sc : Value} {sh : Shared} (h : Shared.new env w sc = some sh) :
    sh.schema = sc ∧ sh.hasError = false ∧ sh.statusCode = c!"200" ∧ sh.statusText = c!"OK" ∧ sh.statusParam = [] ∧
      sh.count = 0 ∧ sh.exit = false ∧ sh.alreadyJs = false ∧ sh.redirectJs = [] ∧ sh.w = w ∧ sh.flags = [] := by
  unfold Shared.new at h
  dsimp only at h
  split at h
  · simp only [Option.some.injEq] at h; subst h; simp
  · simp at h

theorem initShared_errors {env : Env} {filePath raw raw' : Str} {sh sh' : Shared} {inh : Inherit}
    (h : initShared env filePath raw sh = .ok (raw', sh', inh)) : errorsOf sh' = .arr [] := by
  obtain ⟨s1, s2, h1, h2, h3⟩ := initShared_schema h
  unfold errorsOf
  rw [index_modIndex_ne h3 (by decide), index_setIndex_self h2]

theorem renderWith_errors {env : Env} {n : Nat} {t t' : Tpl} {sc : Value} {w : World}
    (h : renderWith env n t sc (Shared.new env w t.schema) = .ok t') :
    ∃ l, errorsOf t'.shared = .arr l ∧ t'.shared.hasError = !l.isEmpty := by
  obtain ⟨sh, raw, sh1, inh, h0, h1, h2⟩ := renderWith_rel errorsGrow_closed env (fun _ => OpsIn_true _) h
  obtain ⟨m, hm, hk⟩ := h2 [] (initShared_errors h1)
  obtain ⟨sc1, f, hf⟩ := initShared_frame h1
  refine ⟨m, hm, hk ?_⟩
  rw [hf]
  exact (sharedNew_fields h0).2.1

/-- **C22.** For every template a program can hold, whatever was called before: `get_error` is a list and
`has_error()` is true exactly when it is not empty. -/
theorem C22_has_error (env : Env) (t : Tpl) (h : Reach env t) :
    ∃ l, t.getError = .arr l ∧ (t.hasError = true ↔ l ≠ []) := by
  suffices h' : ∃ l, errorsOf t.shared = .arr l ∧ t.shared.hasError = !l.isEmpty by
    obtain ⟨l, h1, h2⟩ := h'
    refine ⟨l, h1, ?_⟩
    unfold Tpl.hasError
    rw [h2]
    cases l <;> simp
  have hnew : ∀ {w : World} {sh : Shared}, Shared.new env w defaultSchema = some sh →
      ∃ l, errorsOf sh = .arr l ∧ sh.hasError = !l.isEmpty := by
    intro w sh hs
    refine ⟨[], ?_, ?_⟩
    · unfold errorsOf; rw [(sharedNew_fields hs).1]; rfl
    · rw [(sharedNew_fields hs).2.1]; rfl
  have hmerge : ∀ {t t' : Tpl} {v : Value}, t.merge v = .ok t' → t'.shared = t.shared := by
    intro t t' v h
    unfold Tpl.merge at h
    split at h
    · simp only [TRes.ok.injEq] at h; subst h; rfl
    · simp at h
  induction h with
  | new h =>
    unfold Tpl.new at h
    split at h
    · simp at h
    · next hs => simp only [TRes.ok.injEq] at h; subst h; exact hnew hs
  | fromFile h =>
    unfold Tpl.fromFileValue at h
    split at h
    · simp at h
    · split at h
      · next hs => simp only [TRes.ok.injEq] at h; subst h; exact hnew hs
      · simp at h
      · simp at h
  | fromMsgpack h =>
    obtain ⟨v, h⟩ := fromFileMsgpack_ok h
    unfold Tpl.fromFileValue at h
    split at h
    · simp at h
    · split at h
      · next hs => simp only [TRes.ok.injEq] at h; subst h; exact hnew hs
      · simp at h
      · simp at h
  | mergeMsgpackPath _ h ih =>
    obtain ⟨v, h⟩ := mergeMsgpackPath_ok h
    rw [hmerge h]; exact ih
  | setSrcPath w path _ ih => unfold Tpl.setSrcPath; split <;> exact ih
  | setSrcStr src _ ih => exact ih
  | mergeStr _ h ih =>
    unfold Tpl.mergeSchemaStr at h
    split at h
    · simp at h
    · rw [hmerge h]; exact ih
  | mergePath _ h ih =>
    unfold Tpl.mergeSchemaPath at h
    split at h
    · simp at h
    · split at h
      · simp at h
      · rw [hmerge h]; exact ih
  | mergeValue _ h ih => rw [hmerge h]; exact ih
  | mergeMsgpack _ h ih =>
    unfold Tpl.mergeSchemaMsgpack at h
    split at h
    · simp at h
    · rw [hmerge h]; exact ih
  | render _ h ih =>
    unfold Tpl.render at h
    split at h
    · simp only [RRes.ok.injEq] at h; subst h; exact ih
    · exact renderWith_errors h
  | renderOnce _ h ih =>
    unfold Tpl.renderOnce at h
    rw [renderOnceWith_eq] at h
    split at h
    · simp only [RRes.ok.injEq] at h; subst h; exact ih
    · exact renderWith_errors h

/-- A render with errors, for the examples. -/
def Sample.errorCount : RRes → Option (Bool × Nat)
  | .ok t => match t.getError with
    | .arr l => some (t.hasError, l.length)
    | _ => none
  | _ => none

example : Sample.errorCount (Sample.go [] c!"{:nope;x:}{:sum; /a/b :}{:;x:}") = some (true, 2) := by decide +kernel
example : Sample.errorCount (Sample.go [] c!"{:;x:}") = some (false, 0) := by decide +kernel

/-! ### C53 -/

theorem lookup_showNat (l : List (Nat × Str)) (code : Str) (hnd : (l.map (·.1)).Nodup) :
    (∃ n, code = showNat n ∧ (n, ((l.map (fun p => (showNat p.1, p.2))).lookup code).getD []) ∈ l) ∨
    ((∀ n t, (n, t) ∈ l → code ≠ showNat n) ∧ ((l.map (fun p => (showNat p.1, p.2))).lookup code).getD [] = []) := by
  induction l with
  | nil => right; simp
  | cons p l ih =>
    obtain ⟨n, t⟩ := p
    simp only [List.map_cons, List.nodup_cons] at hnd
    simp only [List.map_cons, List.lookup_cons]
    by_cases hc : code = showNat n
    · left
      subst hc
      exact ⟨n, rfl, by simp⟩
    · have : (code == showNat n) = false := by simpa using hc
      simp only [this]
      rcases ih hnd.2 with ⟨m, h1, h2⟩ | ⟨h1, h2⟩
      · left; exact ⟨m, h1, List.mem_cons_of_mem _ h2⟩
      · right
        refine ⟨?_, h2⟩
        intro m t' hm
        rcases List.mem_cons.1 hm with h | h
        · simp only [Prod.mk.injEq] at h; rw [h.1]; exact hc
        · exact h1 m t' h

theorem statusCodes_eq : statusCodes = reasonPhrases.map (fun p => (showNat p.1, p.2)) := by decide +kernel

theorem statusTextOf_standard (code : Str) : IsStandardText code (statusTextOf code) := by
  unfold statusTextOf IsStandardText
  rw [statusCodes_eq]
  exact lookup_showNat reasonPhrases code (by decide +kernel)

/-- The relation of C53. -/
def Spec.TextKept (a b : Shared) : Prop :=
  IsStandardText a.statusCode a.statusText → IsStandardText b.statusCode b.statusText

theorem textKept_steps : StepsE (fun _ => True) TextKept where
  refl _ := id
  trans _ _ _ h1 h2 h := h2 (h1 h)
  indir _ _ := id
  unmatched _ _ := fun _ => statusTextOf_standard _
  err _ _ _ := id
  world _ _ := id
  flags _ _ := id
  status _ _ _ _ := fun _ => statusTextOf_standard _
  exit _ _ _ := id
  redirectJs _ _ := id
  alreadyJs _ := id
  data _ _ _ _ _ _ := id
  moveto _ _ _ _ _ _ := id

theorem textKept_closed : Closed (fun _ => True) TextKept :=
  (textKept_steps).closed (fun _ _ => id)

/-- **C53 (any evaluation).** -/
theorem C53_during (env : Env) (n : Nat) (sh sh' : Shared) (inh inh' : Inherit) (src only out : Str)
    (blocks : List (Nat × Nat)) (h0 : IsStandardText sh.statusCode sh.statusText)
    (h : runBlocks env n sh inh src blocks only = .ok out sh' inh') :
    IsStandardText sh'.statusCode sh'.statusText := by
  have := runBlocks_rel textKept_closed env (fun _ => OpsIn_true _) n sh inh src blocks only
  rw [h] at this
  exact this h0

theorem standard_200 : IsStandardText c!"200" c!"OK" := statusTextOf_standard c!"200"

theorem renderWith_text {env : Env} {n : Nat} {t t' : Tpl} {sc : Value} {w : World}
    (h : renderWith env n t sc (Shared.new env w t.schema) = .ok t') :
    IsStandardText t'.shared.statusCode t'.shared.statusText := by
  obtain ⟨sh, raw, sh1, inh, h0, h1, h2⟩ := renderWith_rel textKept_closed env (fun _ => OpsIn_true _) h
  obtain ⟨sc1, f, hf⟩ := initShared_frame h1
  apply h2
  rw [hf]
  have := sharedNew_fields h0
  simp only [this.2.2.1, this.2.2.2.1]
  exact standard_200

/-- **C53.** For every template a program can hold, whatever was called before, the status text is the standard text
of the status code (empty when the code is not a known one). -/
theorem C53_status_text (env : Env) (t : Tpl) (h : Reach env t) : IsStandardText t.statusCode t.statusText := by
  unfold Tpl.statusCode Tpl.statusText
  have hnew : ∀ {w : World} {sh : Shared}, Shared.new env w defaultSchema = some sh →
      IsStandardText sh.statusCode sh.statusText := by
    intro w sh hs
    have := sharedNew_fields hs
    rw [this.2.2.1, this.2.2.2.1]; exact standard_200
  have hmerge : ∀ {t t' : Tpl} {v : Value}, t.merge v = .ok t' → t'.shared = t.shared := by
    intro t t' v h
    unfold Tpl.merge at h
    split at h
    · simp only [TRes.ok.injEq] at h; subst h; rfl
    · simp at h
  induction h with
  | new h =>
    unfold Tpl.new at h
    split at h
    · simp at h
    · next hs => simp only [TRes.ok.injEq] at h; subst h; exact hnew hs
  | fromFile h =>
    unfold Tpl.fromFileValue at h
    split at h
    · simp at h
    · split at h
      · next hs => simp only [TRes.ok.injEq] at h; subst h; exact hnew hs
      · simp at h
      · simp at h
  | fromMsgpack h =>
    obtain ⟨v, h⟩ := fromFileMsgpack_ok h
    unfold Tpl.fromFileValue at h
    split at h
    · simp at h
    · split at h
      · next hs => simp only [TRes.ok.injEq] at h; subst h; exact hnew hs
      · simp at h
      · simp at h
  | mergeMsgpackPath _ h ih =>
    obtain ⟨v, h⟩ := mergeMsgpackPath_ok h
    rw [hmerge h]; exact ih
  | setSrcPath w path _ ih => unfold Tpl.setSrcPath; split <;> exact ih
  | setSrcStr src _ ih => exact ih
  | mergeStr _ h ih =>
    unfold Tpl.mergeSchemaStr at h
    split at h
    · simp at h
    · rw [hmerge h]; exact ih
  | mergePath _ h ih =>
    unfold Tpl.mergeSchemaPath at h
    split at h
    · simp at h
    · split at h
      · simp at h
      · rw [hmerge h]; exact ih
  | mergeValue _ h ih => rw [hmerge h]; exact ih
  | mergeMsgpack _ h ih =>
    unfold Tpl.mergeSchemaMsgpack at h
    split at h
    · simp at h
    · rw [hmerge h]; exact ih
  | render _ h ih =>
    unfold Tpl.render at h
    split at h
    · simp only [RRes.ok.injEq] at h; subst h; exact ih
    · exact renderWith_text h
  | renderOnce _ h ih =>
    unfold Tpl.renderOnce at h
    rw [renderOnceWith_eq] at h
    split at h
    · simp only [RRes.ok.injEq] at h; subst h; exact ih
    · exact renderWith_text h

/-- The premise is met: the template of `Template::new()` exists, and a render that sets a status ends. -/
example : ∃ t, Tpl.new Sample.env Sample.world = .ok t ∧ Reach Sample.env t :=
  ⟨_, rfl, .new (w := Sample.world) rfl⟩
example : Sample.outOf (Sample.go [] c!"{:exit;404:}") = some (c!"404 Not Found", c!"404") := by decide +kernel

end Nts
