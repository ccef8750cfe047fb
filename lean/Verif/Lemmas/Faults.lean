import Verif.Lemmas.RunBif
import Verif.Lemmas.Ops
import Verif.Lemmas.Value
import Verif.Lemmas.Tune
/-
The same state with another list of errors: what the bodies of the BIFs do not read.
-/
set_option autoImplicit false
namespace Nts.Flt

/-- Another list of errors, another flag and another position in the clock. -/
structure Faults where
  errs : List Value
  has : Bool
  tick : Nat

/-- The members of the schema with another list of errors. -/
def errsIn (E : List Value) (o : Obj) : Obj :=
  match Obj.get? c!"__error" o with
  | some (.arr _) => Obj.insert c!"__error" (.arr E) o
  | _ => o

/-- The schema with another list of errors. -/
def withErrs (E : List Value) : Value → Value
  | .obj o => .obj (errsIn E o)
  | v => v

/-- The shared state with other errors. -/
def Faults.on (T : Faults) (sh : Shared) : Shared :=
  { sh with schema := withErrs T.errs sh.schema, hasError := T.has, w := { sh.w with tick := T.tick } }

/-- The state with other errors. -/
def Faults.st (T : Faults) (s : St) : St := { s with sh := T.on s.sh }

/-! ### the schema -/

theorem errsIn_get? (E : List Value) (o : Obj) {k : Str} (hk : k ≠ c!"__error") : Obj.get? k (errsIn E o) = Obj.get? k o := by
  unfold errsIn
  cases Obj.get? c!"__error" o with
  | none => rfl
  | some v =>
    cases v with
    | arr a => exact Obj.get?_insert_ne o _ (fun h => hk h.symm)
    | _ => rfl

theorem errsIn_insert (E : List Value) (o : Obj) {k : Str} (v : Value) (hk : k ≠ c!"__error") :
    errsIn E (Obj.insert k v o) = Obj.insert k v (errsIn E o) := by
  unfold errsIn
  rw [Obj.get?_insert_ne o v hk]
  cases h : Obj.get? c!"__error" o with
  | none => rfl
  | some c =>
    cases c with
    | arr a => exact insert_comm v _ hk o h
    | _ => rfl

theorem withErrs_get? (E : List Value) (v : Value) {k : Str} (hk : k ≠ c!"__error") : (withErrs E v).get? k = v.get? k := by
  cases v with
  | obj o => exact errsIn_get? E o hk
  | _ => rfl

theorem withErrs_index (E : List Value) (v : Value) {k : Str} (hk : k ≠ c!"__error") : (withErrs E v).index k = v.index k := by
  unfold Value.index
  rw [withErrs_get? E v hk]

theorem withErrs_modIndex (E : List Value) (v : Value) {k : Str} (hk : k ≠ c!"__error") (f : Value → Option Value) :
    (withErrs E v).modIndex k f = (v.modIndex k f).map (withErrs E) := by
  cases v with
  | obj o =>
    simp only [withErrs, Value.modIndex, errsIn_get? E o hk]
    cases f ((Obj.get? k o).getD .null) with
    | none => rfl
    | some x => simp only [Option.map_some, withErrs, errsIn_insert E o x hk]
  | null =>
    simp only [withErrs, Value.modIndex]
    cases f .null with
    | none => rfl
    | some x => simp [withErrs, errsIn, Obj.get?, hk]
  | _ => rfl

theorem withErrs_setIndex (E : List Value) (v : Value) {k : Str} (hk : k ≠ c!"__error") (x : Value) :
    (withErrs E v).setIndex k x = (v.setIndex k x).map (withErrs E) := by
  have h := withErrs_modIndex E v hk (fun _ => some x)
  cases v with
  | obj o => exact h
  | null => exact h
  | _ => rfl

/-! ### the state -/

section
variable (T : Faults) (s : St)
theorem st_b : (T.st s).b = s.b := rfl
theorem st_inh : (T.st s).inh = s.inh := rfl
theorem st_raw : (T.st s).raw = s.raw := rfl
theorem st_only : (T.st s).only = s.only := rfl
theorem st_fs : (T.st s).sh.w.fs = s.sh.w.fs := rfl
theorem st_lang : (T.st s).sh.lang = s.sh.lang := rfl
theorem st_flags : (T.st s).sh.flags = s.sh.flags := rfl
theorem st_count : (T.st s).sh.count = s.sh.count := rfl
theorem st_indir : (T.st s).sh.indir = s.sh.indir := rfl
theorem st_getIndir (x : Str) : (T.st s).sh.getIndir x = s.sh.getIndir x := rfl
theorem st_exit : (T.st s).sh.exit = s.sh.exit := rfl
theorem st_alreadyJs : (T.st s).sh.alreadyJs = s.sh.alreadyJs := rfl
theorem st_dataOf : dataOf (T.st s) = dataOf s := withErrs_index _ _ (by decide)
theorem st_localDataOf : localDataOf (T.st s) = localDataOf s := rfl
theorem st_getData (env : Env) (name : Str) : getData env (T.st s) name = getData env s name := by
  unfold getData; rw [st_dataOf, st_localDataOf]
theorem st_storageOf (name : Str) : storageOf (T.st s) name = storageOf s name := by
  unfold storageOf; rw [st_dataOf, st_localDataOf]
theorem st_getTrans (env : Env) (t : Str) : getTrans env (T.st s) t = getTrans env s t := rfl
theorem st_fileExists (p : Str) : fileExists (T.st s) p = fileExists s p := rfl
theorem st_readFile (p : Str) : readFile (T.st s) p = readFile s p := rfl
theorem st_hashPath (p : Str) : hashPath (T.st s) p = hashPath s p := rfl
theorem st_cacheId (env : Env) (a b c : Bool) (args : List Str) (e : Str) : cacheId env (T.st s) a b c args e = cacheId env s a b c args e := by
  unfold cacheId; simp only [st_dataOf, st_getData, st_lang, st_b]
theorem st_comments : (T.st s).sh.comments = s.sh.comments := rfl
theorem st_filterAll : (T.st s).sh.filterAll = s.sh.filterAll := rfl
theorem st_filterBifs : (T.st s).sh.filterBifs = s.sh.filterBifs := rfl
theorem st_disableJs : (T.st s).sh.disableJs = s.sh.disableJs := rfl
end

/-! ### programs that do not see the difference -/

/-- The program reads neither the errors nor the clock: what it does after reading the state is the same with other errors. -/
def Deaf {α : Type} : Prog α → Prop
  | .pure _ => True
  | .throw _ => True
  | .panic _ => True
  | .op .get k => (∀ (T : Faults) s, k (T.st s) = k s) ∧ ∀ s, Deaf (k s)
  | .op .tick _ => False
  | .op _ k => ∀ r, Deaf (k r)

theorem deaf_op {α : Type} {o : Op} {k : o.Resp → Prog α} (h : o ≠ .get) (h2 : o ≠ .tick) : Deaf (.op o k) ↔ ∀ r, Deaf (k r) := by
  cases o with
  | get => exact absurd rfl h
  | tick => exact absurd rfl h2
  | _ => exact Iff.rfl

theorem deaf_bind {α β : Type} {p : Prog α} {f : α → Prog β} (h : Deaf p) (hf : ∀ a, Deaf (f a)) : Deaf (p >>= f) := by
  show Deaf (Prog.bind p f)
  induction p with
  | pure a => exact hf a
  | throw e => trivial
  | panic q => trivial
  | op o k ih =>
    by_cases ho : o = .get
    · subst ho
      exact ⟨fun T s => congrArg (fun p => Prog.bind p f) (h.1 T s), fun s => ih s (h.2 s)⟩
    · by_cases h2 : o = .tick
      · subst h2
        exact h.elim
      · exact (deaf_op ho h2).2 fun r => ih r ((deaf_op ho h2).1 h r)

theorem deaf_bind' {α β : Type} {p : Prog α} {f : α → Prog β} (h : Deaf p) (hf : ∀ a, Deaf (f a)) : Deaf (Prog.bind p f) :=
  deaf_bind h hf

theorem deaf_pure {α : Type} (a : α) : Deaf (.pure a) := trivial
theorem deaf_return {α : Type} (a : α) : Deaf (pure a) := trivial
theorem deaf_panic {α : Type} (p : Panic) : Deaf (.panic p : Prog α) := trivial
theorem deaf_error {α : Type} (msg : Str) : Deaf (bifError msg : Prog α) := ⟨fun _ _ => rfl, fun _ => trivial⟩
theorem deaf_get {β : Type} {k : St → Prog β} (hk : ∀ (T : Faults) s, k (T.st s) = k s) (h : ∀ s, Deaf (k s)) : Deaf (getSt >>= k) := ⟨hk, h⟩
theorem deaf_perform (o : Op) (h : o ≠ .get) (h2 : o ≠ .tick) : Deaf (perform o) := (deaf_op h h2).2 fun _ => trivial
theorem deaf_modB (g : BifS → BifS) : Deaf (modB g) := fun _ => trivial
theorem deaf_child (x : Str) (b : Bool) : Deaf (childParse x b) := fun _ => trivial
theorem deaf_setData (k v : Str) : Deaf (setData k v) := fun _ => trivial
theorem deaf_ite {α : Type} {c : Prop} [Decidable c] {p q : Prog α} (h1 : Deaf p) (h2 : Deaf q) : Deaf (if c then p else q) := by
  split
  · exact h1
  · exact h2

macro "deaf_see" : tactic => `(tactic| (intro T s; simp only [st_b, st_inh, st_raw, st_only, st_fs, st_comments, st_filterAll, st_filterBifs, st_disableJs, st_lang, st_flags, st_count, st_getIndir, st_alreadyJs,
  st_dataOf, st_localDataOf, st_getData, st_storageOf, st_getTrans, st_fileExists, st_readFile, st_hashPath, st_cacheId]; (try rw [st_dataOf]); first | done | rfl))

/-- Decompose a program. -/
macro "deaf_step" : tactic => `(tactic| first
  | with_reducible exact deaf_pure _
  | with_reducible exact deaf_return _
  | with_reducible exact deaf_panic _
  | with_reducible exact deaf_error _
  | with_reducible exact deaf_child _ _
  | with_reducible exact deaf_setData _ _
  | with_reducible exact deaf_modB _
  | ((with_reducible refine deaf_perform _ ?_ ?_) <;> focus (intro h; cases h; done))
  | ((with_reducible refine deaf_get ?_ (fun s => ?_)); focus deaf_see)
  | with_reducible refine deaf_bind ?_ (fun _ => ?_)
  | with_reducible refine deaf_bind' ?_ (fun _ => ?_)
  | with_reducible refine deaf_ite ?_ ?_
  | split
  | dsimp only)

theorem deaf_denyMods (f : BifS → Bool) : Deaf (denyMods f) := by
  unfold denyMods
  refine deaf_get ?_ (fun s => ?_)
  · deaf_see
  repeat' deaf_step
theorem deaf_denyFlags : Deaf denyFlags := by unfold denyFlags; repeat' deaf_step
theorem deaf_denyFlgParams : Deaf denyFlgParams := by unfold denyFlgParams; repeat' deaf_step
theorem deaf_checkFlags (l : List Str) : Deaf (checkFlags l) := by unfold checkFlags; repeat' deaf_step
theorem deaf_setCode (x : Str) : Deaf (setCode x) := deaf_modB _
theorem deaf_parseCode (b : Bool) : Deaf (parseCode b) := by
  unfold parseCode; repeat' (first | with_reducible exact deaf_setCode _ | deaf_step)
theorem deaf_setParams (x : Str) : Deaf (setParams x) := deaf_modB _
theorem deaf_setOut (x : Str) : Deaf (setOut x) := deaf_modB _
theorem deaf_setSrc (x : Str) : Deaf (setSrc x) := deaf_modB _
theorem deaf_setAlias (x : Str) : Deaf (setAlias x) := deaf_modB _
theorem deaf_setFilePath (x : Str) : Deaf (setFilePath x) := deaf_modB _
theorem deaf_setDir (x : Str) : Deaf (setDir x) := deaf_modB _
theorem deaf_outCode : Deaf outCode := deaf_modB _
theorem deaf_extract (b : Bool) : Deaf (extractParamsCode b) := by
  unfold extractParamsCode
  repeat' (first | with_reducible exact deaf_setParams _ | deaf_step)
theorem deaf_argLoop (l : List Str) : Deaf (argLoop l) := by
  induction l with
  | nil => exact deaf_pure _
  | cons a r ih =>
    unfold argLoop
    repeat' (first | with_reducible exact ih | deaf_step)
theorem deaf_extractArgs : Deaf extractArgs := by
  unfold extractArgs
  repeat' (first | with_reducible exact deaf_argLoop _ | deaf_step)
theorem deaf_argReq (l : List Str) (i : Nat) (m : Str) : Deaf (argReq l i m) := by
  unfold argReq; repeat' deaf_step
theorem deaf_requireAllow (a b : Str) : Deaf (requireAllow a b) := by
  unfold requireAllow; repeat' deaf_step
theorem deaf_canon (env : Env) (p : Str) : Deaf (canonUnwrap env p) := by
  unfold canonUnwrap; repeat' deaf_step
theorem deaf_forList {β : Type} (l : List β) (f : β → Prog Unit) (h : ∀ x, Deaf (f x)) : Deaf (forList l f) := by
  induction l with
  | nil => exact deaf_pure _
  | cons a r ih => exact deaf_bind' (h a) (fun _ => ih)

macro "deaf_mid" : tactic => `(tactic| first
  | with_reducible exact deaf_denyMods _
  | with_reducible exact deaf_denyFlags
  | with_reducible exact deaf_denyFlgParams
  | with_reducible exact deaf_checkFlags _
  | with_reducible exact deaf_extract _
  | with_reducible exact deaf_parseCode _
  | with_reducible exact deaf_extractArgs
  | with_reducible exact deaf_argReq _ _ _
  | with_reducible exact deaf_requireAllow _ _
  | with_reducible exact deaf_canon _ _
  | with_reducible exact deaf_setCode _
  | with_reducible exact deaf_setParams _
  | with_reducible exact deaf_setOut _
  | with_reducible exact deaf_setSrc _
  | with_reducible exact deaf_setAlias _
  | with_reducible exact deaf_setFilePath _
  | with_reducible exact deaf_setDir _
  | with_reducible exact deaf_outCode
  | with_reducible refine deaf_forList _ _ (fun _ => ?_)
  | deaf_step)

theorem deaf_resolve : Deaf resolveFilePath := by
  unfold resolveFilePath
  repeat' deaf_mid
theorem deaf_cond (t : Value → Str → Bool) : Deaf (condBif t) := by unfold condBif; repeat' deaf_mid
theorem deaf_cmp (t : Str → Str → Bool) : Deaf (cmpBif t) := by unfold cmpBif; repeat' deaf_mid
theorem deaf_allow (env : Env) : Deaf (bifAllow env) := by unfold bifAllow; repeat' deaf_mid
theorem deaf_coalesce : Deaf bifCoalesce := by unfold bifCoalesce; repeat' deaf_mid
theorem deaf_code : Deaf bifCode := by unfold bifCode; repeat' deaf_mid
theorem deaf_count (env : Env) : Deaf (bifCount env) := by unfold bifCount; repeat' deaf_mid
theorem deaf_mergeJson (env : Env) (sec : Str) (p : Value → Value) (t : Str) : Deaf (mergeJson env sec p t) := by
  unfold mergeJson; repeat' deaf_mid
theorem deaf_data (env : Env) : Deaf (bifData env) := by
  unfold bifData; repeat' (first | with_reducible exact deaf_resolve | with_reducible exact deaf_mergeJson _ _ _ _ | deaf_mid)
theorem deaf_locale (env : Env) : Deaf (bifLocale env) := by
  unfold bifLocale; repeat' (first | with_reducible exact deaf_resolve | with_reducible exact deaf_mergeJson _ _ _ _ | deaf_mid)
theorem deaf_declare : Deaf bifDeclare := by unfold bifDeclare; repeat' deaf_mid
theorem deaf_eachIter (k v x : Str) (y : Value) (bs : List (Nat × Nat)) : Deaf (eachIter k v x y bs) := by
  unfold eachIter; repeat' deaf_mid
theorem deaf_each : Deaf bifEach := by
  unfold bifEach; repeat' (first | with_reducible exact deaf_eachIter _ _ _ _ _ | deaf_mid)
theorem deaf_else : Deaf bifElse := by unfold bifElse; repeat' deaf_mid
theorem deaf_eval (env : Env) : Deaf (bifEval env) := by unfold bifEval; repeat' deaf_mid
theorem deaf_outUncached : Deaf outUncached := by unfold outUncached; repeat' deaf_mid
theorem deaf_exit : Deaf bifExit := by unfold bifExit; repeat' (first | with_reducible exact deaf_outUncached | deaf_mid)
theorem deaf_flg : Deaf bifFlg := by unfold bifFlg; repeat' deaf_mid
theorem deaf_forIter (v x : Str) (bs : List (Nat × Nat)) : Deaf (forIter v x bs) := by
  unfold forIter; repeat' deaf_mid
theorem deaf_for (env : Env) : Deaf (bifFor env) := by
  unfold bifFor; repeat' (first | with_reducible exact deaf_forIter _ _ _ | deaf_mid)
theorem deaf_join (env : Env) : Deaf (bifJoin env) := by unfold bifJoin; repeat' deaf_mid
theorem deaf_lang : Deaf bifLang := by unfold bifLang; repeat' deaf_mid
theorem deaf_param (env : Env) : Deaf (bifParam env) := by unfold bifParam; repeat' deaf_mid
theorem deaf_replace : Deaf bifReplace := by unfold bifReplace; repeat' deaf_mid
theorem deaf_snippet (env : Env) : Deaf (bifSnippet env) := by unfold bifSnippet; repeat' deaf_mid
theorem deaf_sum (env : Env) : Deaf (bifSum env) := by unfold bifSum; repeat' deaf_mid
theorem deaf_trans (env : Env) : Deaf (bifTrans env) := by unfold bifTrans; repeat' deaf_mid
theorem deaf_unknown : Deaf bifUnknown := by unfold bifUnknown; repeat' deaf_mid

theorem deaf_neutral : Deaf bifNeutral := by unfold bifNeutral; repeat' deaf_mid
theorem deaf_moveto (env : Env) : Deaf (bifMoveto env) := by unfold bifMoveto; repeat' (first | with_reducible exact deaf_outUncached | deaf_mid)
theorem deaf_redirect : Deaf bifRedirect := by
  unfold bifRedirect; repeat' (first | with_reducible exact deaf_outUncached | deaf_mid)

theorem deaf_var (env : Env) : Deaf (bifVar env) := by unfold bifVar; repeat' deaf_mid
theorem deaf_fetch (env : Env) : Deaf (bifFetch env) := by unfold bifFetch; repeat' deaf_mid
theorem deaf_include (env : Env) : Deaf (bifInclude env) := by
  unfold bifInclude; repeat' (first | with_reducible exact deaf_resolve | deaf_mid)

/-- The BIFs that read the clock, the random numbers or the whole schema. -/
def Sees (name : Str) : Prop :=
  name = c!"date" ∨ name = c!"cache" ∨ name = c!"hash" ∨ name = c!"rand" ∨ name = c!"obj" ∨ name = c!"debug"

theorem deaf_dite {α : Type} {c : Prop} [Decidable c] {p q : Prog α} (h1 : c → Deaf p) (h2 : Deaf q) : Deaf (if c then p else q) := by
  split
  · next h => exact h1 h
  · exact h2

theorem deaf_body (env : Env) (name : Str) (h : ¬ Sees name) : Deaf (bifBody env name) := by
  unfold Sees at h
  unfold bifBody
  refine deaf_dite (fun hx => deaf_var env) ?_
  refine deaf_dite (fun _ => deaf_allow env) ?_
  refine deaf_dite (fun _ => deaf_cond _) ?_
  refine deaf_dite (fun _ => deaf_cond _) ?_
  refine deaf_dite (fun hx => absurd (by simp [hx]) h) ?_
  refine deaf_dite (fun _ => deaf_coalesce) ?_
  refine deaf_dite (fun _ => deaf_code) ?_
  refine deaf_dite (fun _ => deaf_cmp _) ?_
  refine deaf_dite (fun _ => deaf_count env) ?_
  refine deaf_dite (fun _ => deaf_data env) ?_
  refine deaf_dite (fun hx => absurd (by simp [hx]) h) ?_
  refine deaf_dite (fun _ => deaf_declare) ?_
  refine deaf_dite (fun _ => deaf_cond _) ?_
  refine deaf_dite (fun _ => deaf_each) ?_
  refine deaf_dite (fun _ => deaf_else) ?_
  refine deaf_dite (fun _ => deaf_eval env) ?_
  refine deaf_dite (fun _ => deaf_exit) ?_
  refine deaf_dite (fun _ => deaf_fetch env) ?_
  refine deaf_dite (fun _ => deaf_cond _) ?_
  refine deaf_dite (fun _ => deaf_flg) ?_
  refine deaf_dite (fun _ => deaf_for env) ?_
  refine deaf_dite (fun hx => absurd (by simp [hx]) h) ?_
  refine deaf_dite (fun _ => deaf_include env) ?_
  refine deaf_dite (fun _ => deaf_join env) ?_
  refine deaf_dite (fun _ => deaf_lang) ?_
  refine deaf_dite (fun _ => deaf_locale env) ?_
  refine deaf_dite (fun _ => deaf_moveto env) ?_
  refine deaf_dite (fun _ => deaf_neutral) ?_
  refine deaf_dite (fun _ => deaf_param env) ?_
  refine deaf_dite (fun hx => absurd (by simp [hx]) h) ?_
  refine deaf_dite (fun _ => deaf_redirect) ?_
  refine deaf_dite (fun _ => deaf_replace) ?_
  refine deaf_dite (fun _ => deaf_cmp _) ?_
  refine deaf_dite (fun _ => deaf_snippet env) ?_
  refine deaf_dite (fun _ => deaf_snippet env) ?_
  refine deaf_dite (fun _ => deaf_sum env) ?_
  refine deaf_dite (fun _ => deaf_trans env) ?_
  refine deaf_dite (fun hx => absurd (by simp [hx]) h) ?_
  exact deaf_dite (fun hx => absurd (by simp [hx]) h) deaf_unknown

end Nts.Flt
