import Verif.Lemmas.RunBif
import Verif.Lemmas.Ops
import Verif.Lemmas.Value
/-
The same state with other options: what the bodies of the BIFs do not read.
-/
set_option autoImplicit false
namespace Nts

/-- Another configuration; `none` keeps an option. -/
structure Tuning where
  /-- the new value of `config` in the schema -/
  config : Value → Value
  /-- how many more BIFs are allowed -/
  more : Nat := 0
  comments : Option Str := none
  filterAll : Option Bool := none
  filterBifs : Option Bool := none
  cachePrefix : Option Str := none
  cacheDir : Option Str := none
  cacheOnPost : Option Bool := none
  cacheOnGet : Option Bool := none
  cacheOnCookies : Option Bool := none
  cacheDisable : Option Bool := none
  disableJs : Option Bool := none
  debugExpire : Option Nat := none
  debugFile : Option Str := none

/-- The schema with another `config`. -/
def withConfig (g : Value → Value) : Value → Value
  | .obj o => match Obj.get? c!"config" o with
    | some c => .obj (Obj.insert c!"config" (g c) o)
    | none => .obj o
  | v => v

/-- The shared state with other options. -/
def Tuning.on (T : Tuning) (sh : Shared) : Shared :=
  { sh with
    schema := withConfig T.config sh.schema
    max := sh.max + T.more
    comments := T.comments.getD sh.comments
    filterAll := T.filterAll.getD sh.filterAll
    filterBifs := T.filterBifs.getD sh.filterBifs
    cachePrefix := T.cachePrefix.getD sh.cachePrefix
    cacheDir := T.cacheDir.getD sh.cacheDir
    cacheOnPost := T.cacheOnPost.getD sh.cacheOnPost
    cacheOnGet := T.cacheOnGet.getD sh.cacheOnGet
    cacheOnCookies := T.cacheOnCookies.getD sh.cacheOnCookies
    cacheDisable := T.cacheDisable.getD sh.cacheDisable
    disableJs := T.disableJs.getD sh.disableJs
    debugExpire := T.debugExpire.getD sh.debugExpire
    debugFile := T.debugFile.getD sh.debugFile }

/-- The state with other options. -/
def Tuning.st (T : Tuning) (s : St) : St := { s with sh := T.on s.sh }

/-! ### the schema -/

theorem withConfig_get? (g : Value → Value) (v : Value) {k : Str} (hk : k ≠ c!"config") : (withConfig g v).get? k = v.get? k := by
  unfold withConfig
  cases v with
  | obj o =>
    dsimp only
    cases Obj.get? c!"config" o with
    | none => rfl
    | some c => exact Obj.get?_insert_ne o _ (fun h => hk h.symm)
  | _ => rfl

theorem withConfig_index (g : Value → Value) (v : Value) {k : Str} (hk : k ≠ c!"config") : (withConfig g v).index k = v.index k := by
  unfold Value.index
  rw [withConfig_get? g v hk]

theorem insert_comm {j k : Str} (v w : Value) (hk : k ≠ j) : ∀ (o : Obj) {c : Value}, Obj.get? j o = some c →
    Obj.insert j w (Obj.insert k v o) = Obj.insert k v (Obj.insert j w o)
  | [], c, h => by cases h
  | (i, x) :: r, c, h => by
    by_cases hi : i = j
    · subst hi
      simp [Obj.insert, Ne.symm hk]
    · by_cases hi2 : i = k
      · subst hi2
        simp [Obj.insert, hi]
      · have : Obj.get? j r = some c := by simpa [Obj.get?, hi] using h
        simp only [Obj.insert, hi, hi2, if_false, insert_comm v w hk r this]

theorem withConfig_insert (g : Value → Value) (o : Obj) {k : Str} (v : Value) (hk : k ≠ c!"config") :
    withConfig g (.obj (Obj.insert k v o)) =
      .obj (Obj.insert k v (match withConfig g (.obj o) with | .obj o' => o' | _ => [])) := by
  unfold withConfig
  dsimp only
  rw [Obj.get?_insert_ne o v hk]
  cases h : Obj.get? c!"config" o with
  | none => rfl
  | some c => exact congrArg Value.obj (insert_comm v _ hk o h)

theorem withConfig_modIndex (g : Value → Value) (v : Value) {k : Str} (hk : k ≠ c!"config") (f : Value → Option Value) :
    (withConfig g v).modIndex k f = (v.modIndex k f).map (withConfig g) := by
  cases v with
  | obj o =>
    have h1 := withConfig_get? g (.obj o) hk
    have h2 := fun x => withConfig_insert g o x hk
    cases hw : withConfig g (.obj o) with
    | obj o' =>
      rw [hw] at h1 h2
      have h1' : Obj.get? k o' = Obj.get? k o := h1
      simp only [Value.modIndex, h1']
      cases f ((Obj.get? k o).getD .null) with
      | none => rfl
      | some x => simp only [Option.map_some, h2 x]
    | _ =>
      exfalso
      unfold withConfig at hw
      dsimp only at hw
      split at hw <;> cases hw
  | null =>
    simp only [withConfig, Value.modIndex]
    cases f .null with
    | none => rfl
    | some x => simp [withConfig, Obj.get?, hk]
  | _ => rfl

theorem withConfig_setIndex (g : Value → Value) (v : Value) {k : Str} (hk : k ≠ c!"config") (x : Value) :
    (withConfig g v).setIndex k x = (v.setIndex k x).map (withConfig g) := by
  have h := withConfig_modIndex g v hk (fun _ => some x)
  cases v with
  | obj o =>
    unfold withConfig at h ⊢
    dsimp only at h ⊢
    cases hc : Obj.get? c!"config" o with
    | none => rw [hc] at h; exact h
    | some c => rw [hc] at h; exact h
  | null => exact h
  | _ => rfl

/-! ### the state -/

section
variable (T : Tuning) (s : St)
theorem st_b : (T.st s).b = s.b := rfl
theorem st_inh : (T.st s).inh = s.inh := rfl
theorem st_raw : (T.st s).raw = s.raw := rfl
theorem st_only : (T.st s).only = s.only := rfl
theorem st_w : (T.st s).sh.w = s.sh.w := rfl
theorem st_lang : (T.st s).sh.lang = s.sh.lang := rfl
theorem st_flags : (T.st s).sh.flags = s.sh.flags := rfl
theorem st_count : (T.st s).sh.count = s.sh.count := rfl
theorem st_indir : (T.st s).sh.indir = s.sh.indir := rfl
theorem st_getIndir (x : Str) : (T.st s).sh.getIndir x = s.sh.getIndir x := rfl
theorem st_exit : (T.st s).sh.exit = s.sh.exit := rfl
theorem st_alreadyJs : (T.st s).sh.alreadyJs = s.sh.alreadyJs := rfl
theorem st_dataOf : dataOf (T.st s) = dataOf s := withConfig_index _ _ (by decide)
theorem st_localDataOf : localDataOf (T.st s) = localDataOf s := rfl
theorem st_getData (env : Env) (name : Str) : getData env (T.st s) name = getData env s name := by
  unfold getData; rw [st_dataOf, st_localDataOf]
theorem st_storageOf (name : Str) : storageOf (T.st s) name = storageOf s name := by
  unfold storageOf; rw [st_dataOf, st_localDataOf]
theorem st_getTrans (env : Env) (t : Str) : getTrans env (T.st s) t = getTrans env s t := rfl
theorem st_fileExists (p : Str) : fileExists (T.st s) p = fileExists s p := rfl
theorem st_readFile (p : Str) : readFile (T.st s) p = readFile s p := rfl
theorem st_hashPath (p : Str) : hashPath (T.st s) p = hashPath s p := rfl
theorem st_cacheId (env : Env) (a b c : Bool) (args : List Str) (e : Str) : cacheId env (T.st s) a b c args e = cacheId env s a b c args e := by
  unfold cacheId; simp only [st_dataOf, st_getData, st_lang, st_b]
theorem st_comments : (T.st s).sh.comments = T.comments.getD s.sh.comments := rfl
theorem st_filterAll : (T.st s).sh.filterAll = T.filterAll.getD s.sh.filterAll := rfl
theorem st_filterBifs : (T.st s).sh.filterBifs = T.filterBifs.getD s.sh.filterBifs := rfl
theorem st_disableJs : (T.st s).sh.disableJs = T.disableJs.getD s.sh.disableJs := rfl
end

/-! ### programs that do not see the difference -/

/-- The program does not see the options: what it does after reading the state is the same with the other options. -/
def Deaf (T : Tuning) {α : Type} : Prog α → Prop
  | .pure _ => True
  | .throw _ => True
  | .panic _ => True
  | .op .get k => (∀ s, k (T.st s) = k s) ∧ ∀ s, Deaf T (k s)
  | .op _ k => ∀ r, Deaf T (k r)

section
variable {T : Tuning}

theorem deaf_op {α : Type} {o : Op} {k : o.Resp → Prog α} (h : o ≠ .get) : Deaf T (.op o k) ↔ ∀ r, Deaf T (k r) := by
  cases o with
  | get => exact absurd rfl h
  | _ => exact Iff.rfl

theorem deaf_bind {α β : Type} {p : Prog α} {f : α → Prog β} (h : Deaf T p) (hf : ∀ a, Deaf T (f a)) : Deaf T (p >>= f) := by
  show Deaf T (Prog.bind p f)
  induction p with
  | pure a => exact hf a
  | throw e => trivial
  | panic q => trivial
  | op o k ih =>
    by_cases ho : o = .get
    · subst ho
      exact ⟨fun s => congrArg (fun p => Prog.bind p f) (h.1 s), fun s => ih s (h.2 s)⟩
    · exact (deaf_op ho).2 fun r => ih r ((deaf_op ho).1 h r)

theorem deaf_bind' {α β : Type} {p : Prog α} {f : α → Prog β} (h : Deaf T p) (hf : ∀ a, Deaf T (f a)) : Deaf T (Prog.bind p f) :=
  deaf_bind h hf

theorem deaf_pure {α : Type} (a : α) : Deaf T (.pure a) := trivial
theorem deaf_return {α : Type} (a : α) : Deaf T (pure a) := trivial
theorem deaf_panic {α : Type} (p : Panic) : Deaf T (.panic p : Prog α) := trivial
theorem deaf_error {α : Type} (msg : Str) : Deaf T (bifError msg : Prog α) := ⟨fun _ => rfl, fun _ => trivial⟩
theorem deaf_get {β : Type} {k : St → Prog β} (hk : ∀ s, k (T.st s) = k s) (h : ∀ s, Deaf T (k s)) : Deaf T (getSt >>= k) := ⟨hk, h⟩
theorem deaf_perform (o : Op) (h : o ≠ .get) : Deaf T (perform o) := (deaf_op h).2 fun _ => trivial
theorem deaf_modB (g : BifS → BifS) : Deaf T (modB g) := fun _ => trivial
theorem deaf_tick : Deaf T tick := fun _ => trivial
theorem deaf_child (x : Str) (b : Bool) : Deaf T (childParse x b) := fun _ => trivial
theorem deaf_setData (k v : Str) : Deaf T (setData k v) := fun _ => trivial
theorem deaf_ite {α : Type} {c : Prop} [Decidable c] {p q : Prog α} (h1 : Deaf T p) (h2 : Deaf T q) : Deaf T (if c then p else q) := by
  split
  · exact h1
  · exact h2

macro "deaf_see" : tactic => `(tactic| (intro s; simp only [st_b, st_inh, st_raw, st_only, st_w, st_lang, st_flags, st_count, st_getIndir, st_alreadyJs,
  st_dataOf, st_localDataOf, st_getData, st_storageOf, st_getTrans, st_fileExists, st_readFile, st_hashPath, st_cacheId]; (try rw [st_dataOf]); first | done | rfl))

/-- Decompose a program. -/
macro "deaf_step" : tactic => `(tactic| first
  | with_reducible exact deaf_pure _
  | with_reducible exact deaf_return _
  | with_reducible exact deaf_panic _
  | with_reducible exact deaf_error _
  | with_reducible exact deaf_tick
  | with_reducible exact deaf_child _ _
  | with_reducible exact deaf_setData _ _
  | with_reducible exact deaf_modB _
  | ((with_reducible refine deaf_perform _ ?_); focus (intros; intro h; cases h; done))
  | ((with_reducible refine deaf_get ?_ (fun s => ?_)); focus deaf_see)
  | with_reducible refine deaf_bind ?_ (fun _ => ?_)
  | with_reducible refine deaf_bind' ?_ (fun _ => ?_)
  | with_reducible refine deaf_ite ?_ ?_
  | split
  | dsimp only)

theorem deaf_denyMods (f : BifS → Bool) : Deaf T (denyMods f) := by
  unfold denyMods
  refine deaf_get ?_ (fun s => ?_)
  · deaf_see
  repeat' deaf_step
theorem deaf_denyFlags : Deaf T denyFlags := by unfold denyFlags; repeat' deaf_step
theorem deaf_denyFlgParams : Deaf T denyFlgParams := by unfold denyFlgParams; repeat' deaf_step
theorem deaf_checkFlags (l : List Str) : Deaf T (checkFlags l) := by unfold checkFlags; repeat' deaf_step
theorem deaf_setCode (x : Str) : Deaf T (setCode x) := deaf_modB _
theorem deaf_parseCode (b : Bool) : Deaf T (parseCode b) := by
  unfold parseCode; repeat' (first | with_reducible exact deaf_setCode _ | deaf_step)
theorem deaf_setParams (x : Str) : Deaf T (setParams x) := deaf_modB _
theorem deaf_setOut (x : Str) : Deaf T (setOut x) := deaf_modB _
theorem deaf_setSrc (x : Str) : Deaf T (setSrc x) := deaf_modB _
theorem deaf_setAlias (x : Str) : Deaf T (setAlias x) := deaf_modB _
theorem deaf_setFilePath (x : Str) : Deaf T (setFilePath x) := deaf_modB _
theorem deaf_setDir (x : Str) : Deaf T (setDir x) := deaf_modB _
theorem deaf_outCode : Deaf T outCode := deaf_modB _
theorem deaf_extract (b : Bool) : Deaf T (extractParamsCode b) := by
  unfold extractParamsCode
  repeat' (first | with_reducible exact deaf_setParams _ | deaf_step)
theorem deaf_argLoop (l : List Str) : Deaf T (argLoop l) := by
  induction l with
  | nil => exact deaf_pure _
  | cons a r ih =>
    unfold argLoop
    repeat' (first | with_reducible exact ih | deaf_step)
theorem deaf_extractArgs : Deaf T extractArgs := by
  unfold extractArgs
  repeat' (first | with_reducible exact deaf_argLoop _ | deaf_step)
theorem deaf_argReq (l : List Str) (i : Nat) (m : Str) : Deaf T (argReq l i m) := by
  unfold argReq; repeat' deaf_step
theorem deaf_requireAllow (a b : Str) : Deaf T (requireAllow a b) := by
  unfold requireAllow; repeat' deaf_step
theorem deaf_canon (env : Env) (p : Str) : Deaf T (canonUnwrap env p) := by
  unfold canonUnwrap; repeat' deaf_step
theorem deaf_forList {β : Type} (l : List β) (f : β → Prog Unit) (h : ∀ x, Deaf T (f x)) : Deaf T (forList l f) := by
  induction l with
  | nil => exact deaf_pure _
  | cons a r ih => exact deaf_bind' (h a) (fun _ => ih)

macro "deaf_mid" : tactic => `(tactic| first
  | with_reducible exact deaf_denyMods _
  | with_reducible exact deaf_denyFlags
  | with_reducible exact deaf_denyFlgParams
  | with_reducible exact deaf_checkFlags _
  | with_reducible exact deaf_extract _
  | with_reducible exact deaf_parseCode _
  | with_reducible exact deaf_extractArgs
  | with_reducible exact deaf_argReq _ _ _
  | with_reducible exact deaf_requireAllow _ _
  | with_reducible exact deaf_canon _ _
  | with_reducible exact deaf_setCode _
  | with_reducible exact deaf_setParams _
  | with_reducible exact deaf_setOut _
  | with_reducible exact deaf_setSrc _
  | with_reducible exact deaf_setAlias _
  | with_reducible exact deaf_setFilePath _
  | with_reducible exact deaf_setDir _
  | with_reducible exact deaf_outCode
  | with_reducible refine deaf_forList _ _ (fun _ => ?_)
  | deaf_step)

theorem deaf_resolve : Deaf T resolveFilePath := by
  unfold resolveFilePath
  repeat' deaf_mid
theorem deaf_cond (t : Value → Str → Bool) : Deaf T (condBif t) := by unfold condBif; repeat' deaf_mid
theorem deaf_cmp (t : Str → Str → Bool) : Deaf T (cmpBif t) := by unfold cmpBif; repeat' deaf_mid
theorem deaf_allow (env : Env) : Deaf T (bifAllow env) := by unfold bifAllow; repeat' deaf_mid
theorem deaf_coalesce : Deaf T bifCoalesce := by unfold bifCoalesce; repeat' deaf_mid
theorem deaf_code : Deaf T bifCode := by unfold bifCode; repeat' deaf_mid
theorem deaf_count (env : Env) : Deaf T (bifCount env) := by unfold bifCount; repeat' deaf_mid
theorem deaf_mergeJson (env : Env) (sec : Str) (p : Value → Value) (t : Str) : Deaf T (mergeJson env sec p t) := by
  unfold mergeJson; repeat' deaf_mid
theorem deaf_data (env : Env) : Deaf T (bifData env) := by
  unfold bifData; repeat' (first | with_reducible exact deaf_resolve | with_reducible exact deaf_mergeJson _ _ _ _ | deaf_mid)
theorem deaf_locale (env : Env) : Deaf T (bifLocale env) := by
  unfold bifLocale; repeat' (first | with_reducible exact deaf_resolve | with_reducible exact deaf_mergeJson _ _ _ _ | deaf_mid)
theorem deaf_date (env : Env) : Deaf T (bifDate env) := by unfold bifDate; repeat' deaf_mid
theorem deaf_declare : Deaf T bifDeclare := by unfold bifDeclare; repeat' deaf_mid
theorem deaf_eachIter (k v x : Str) (y : Value) (bs : List (Nat × Nat)) : Deaf T (eachIter k v x y bs) := by
  unfold eachIter; repeat' deaf_mid
theorem deaf_each : Deaf T bifEach := by
  unfold bifEach; repeat' (first | with_reducible exact deaf_eachIter _ _ _ _ _ | deaf_mid)
theorem deaf_else : Deaf T bifElse := by unfold bifElse; repeat' deaf_mid
theorem deaf_eval (env : Env) : Deaf T (bifEval env) := by unfold bifEval; repeat' deaf_mid
theorem deaf_outUncached : Deaf T outUncached := by unfold outUncached; repeat' deaf_mid
theorem deaf_exit : Deaf T bifExit := by unfold bifExit; repeat' (first | with_reducible exact deaf_outUncached | deaf_mid)
theorem deaf_flg : Deaf T bifFlg := by unfold bifFlg; repeat' deaf_mid
theorem deaf_forIter (v x : Str) (bs : List (Nat × Nat)) : Deaf T (forIter v x bs) := by
  unfold forIter; repeat' deaf_mid
theorem deaf_for (env : Env) : Deaf T (bifFor env) := by
  unfold bifFor; repeat' (first | with_reducible exact deaf_forIter _ _ _ | deaf_mid)
theorem deaf_hash (env : Env) : Deaf T (bifHash env) := by unfold bifHash; repeat' deaf_mid
theorem deaf_join (env : Env) : Deaf T (bifJoin env) := by unfold bifJoin; repeat' deaf_mid
theorem deaf_lang : Deaf T bifLang := by unfold bifLang; repeat' deaf_mid
theorem deaf_param (env : Env) : Deaf T (bifParam env) := by unfold bifParam; repeat' deaf_mid
theorem deaf_rand (env : Env) : Deaf T (bifRand env) := by unfold bifRand; repeat' deaf_mid
theorem deaf_replace : Deaf T bifReplace := by unfold bifReplace; repeat' deaf_mid
theorem deaf_snippet (env : Env) : Deaf T (bifSnippet env) := by unfold bifSnippet; repeat' deaf_mid
theorem deaf_sum (env : Env) : Deaf T (bifSum env) := by unfold bifSum; repeat' deaf_mid
theorem deaf_trans (env : Env) : Deaf T (bifTrans env) := by unfold bifTrans; repeat' deaf_mid
theorem deaf_unknown : Deaf T bifUnknown := by unfold bifUnknown; repeat' deaf_mid

theorem deaf_neutral : Deaf T bifNeutral := by unfold bifNeutral; repeat' deaf_mid
theorem deaf_moveto (env : Env) : Deaf T (bifMoveto env) := by unfold bifMoveto; repeat' (first | with_reducible exact deaf_outUncached | deaf_mid)
theorem deaf_redirect : Deaf T bifRedirect := by
  unfold bifRedirect; repeat' (first | with_reducible exact deaf_outUncached | deaf_mid)

theorem deaf_var (env : Env) (h1 : T.filterAll = none) (h2 : T.filterBifs = none) : Deaf T (bifVar env) := by
  have e1 : ∀ s, (T.st s).sh.filterAll = s.sh.filterAll := fun s => by rw [st_filterAll, h1]; rfl
  have e2 : ∀ s, (T.st s).sh.filterBifs = s.sh.filterBifs := fun s => by rw [st_filterBifs, h2]; rfl
  unfold bifVar
  repeat' (first
    | ((with_reducible refine deaf_get ?_ (fun s => ?_)); focus (intro s; simp only [st_b, st_inh, st_getData, e1, e2]; done))
    | deaf_mid)

theorem deaf_fetch (env : Env) (h : T.disableJs = none) : Deaf T (bifFetch env) := by
  have e1 : ∀ s, (T.st s).sh.disableJs = s.sh.disableJs := fun s => by rw [st_disableJs, h]; rfl
  unfold bifFetch
  repeat' (first
    | ((with_reducible refine deaf_get ?_ (fun s => ?_)); focus (intro s; simp only [st_b, st_inh, st_alreadyJs, e1]; done))
    | deaf_mid)

theorem deaf_include (env : Env) (h : T.comments = none) : Deaf T (bifInclude env) := by
  have e1 : ∀ s, (T.st s).sh.comments = s.sh.comments := fun s => by rw [st_comments, h]; rfl
  unfold bifInclude
  repeat' (first
    | with_reducible exact deaf_resolve
    | ((with_reducible refine deaf_get ?_ (fun s => ?_)); focus (intro s; dsimp only; rw [e1 s]; simp only [st_b, st_inh, st_readFile, st_fileExists]; first | done | rfl))
    | deaf_mid)

theorem deaf_cacheParse (b : Bool) (f : Str → Prog Unit) (h : ∀ x, Deaf T (f x)) : Deaf T (cacheParse b f) := by
  unfold cacheParse; repeat' (first | with_reducible exact h _ | deaf_mid)
theorem deaf_cacheStore (env : Env) (b : Bool) (d f : Str) : Deaf T (cacheStore env b d f) := by
  unfold cacheStore; repeat' (first | with_reducible exact deaf_cacheParse _ _ (fun _ => deaf_setCode _) | deaf_mid)
theorem deaf_cacheLookup (env : Env) (b : Bool) (d f e : Str) : Deaf T (cacheLookup env b d f e) := by
  unfold cacheLookup
  repeat' (first | with_reducible exact deaf_cacheStore _ _ _ _ | with_reducible exact deaf_cacheParse _ _ (fun _ => deaf_setOut _) | deaf_mid)

theorem deaf_cache (env : Env) (h1 : T.cachePrefix = none) (h2 : T.cacheDir = none) (h3 : T.cacheOnPost = none) (h4 : T.cacheOnGet = none)
    (h5 : T.cacheOnCookies = none) (h6 : T.cacheDisable = none) : Deaf T (bifCache env) := by
  have e1 : ∀ s h, cacheDirOf (T.st s).sh h = cacheDirOf s.sh h := fun s h => by
    simp only [cacheDirOf, Tuning.st, Tuning.on, h1, h2, Option.getD_none]
  have e2 : ∀ s a b, cacheFile env (T.st s).sh a b = cacheFile env s.sh a b := fun s a b => by simp only [cacheFile, e1]
  have e3 : ∀ s a b c, cacheOff (T.st s).sh a b c = cacheOff s.sh a b c := fun s a b c => by
    simp only [cacheOff, Tuning.st, Tuning.on, h3, h4, h5, h6, Option.getD_none]
  unfold bifCache
  repeat' (first
    | with_reducible exact deaf_cacheLookup _ _ _ _ _
    | ((with_reducible refine deaf_get ?_ (fun s => ?_)); focus (intro s; simp only [st_b, st_cacheId, e1, e2]; done))
    | ((with_reducible refine deaf_get ?_ (fun s => ?_)); focus (intro s; dsimp only; rw [st_dataOf, e3 s]; simp only [st_b, st_inh, st_raw, st_cacheId, e1, e2]; first | done | rfl))
    | deaf_mid)

/-- The bodies that read an option. -/
structure Tuning.Spares (T : Tuning) (name : Str) : Prop where
  var : name = [] → T.filterAll = none ∧ T.filterBifs = none
  fetch : name = c!"fetch" → T.disableJs = none
  incl : name = c!"include" → T.comments = none
  cache : name = c!"cache" → T.cachePrefix = none ∧ T.cacheDir = none ∧ T.cacheOnPost = none ∧ T.cacheOnGet = none ∧
    T.cacheOnCookies = none ∧ T.cacheDisable = none
  obj : name ≠ c!"obj"
  debug : name ≠ c!"debug"

theorem deaf_dite {α : Type} {c : Prop} [Decidable c] {p q : Prog α} (h1 : c → Deaf T p) (h2 : Deaf T q) : Deaf T (if c then p else q) := by
  split
  · next h => exact h1 h
  · exact h2

theorem deaf_body (env : Env) (name : Str) (h : T.Spares name) : Deaf T (bifBody env name) := by
  unfold bifBody
  refine deaf_dite (fun hx => deaf_var env (h.var hx).1 (h.var hx).2) ?_
  refine deaf_dite (fun _ => deaf_allow env) ?_
  refine deaf_dite (fun _ => deaf_cond _) ?_
  refine deaf_dite (fun _ => deaf_cond _) ?_
  refine deaf_dite (fun hx => ?_) ?_
  · obtain ⟨h1, h2, h3, h4, h5, h6⟩ := h.cache hx
    exact deaf_cache env h1 h2 h3 h4 h5 h6
  refine deaf_dite (fun _ => deaf_coalesce) ?_
  refine deaf_dite (fun _ => deaf_code) ?_
  refine deaf_dite (fun _ => deaf_cmp _) ?_
  refine deaf_dite (fun _ => deaf_count env) ?_
  refine deaf_dite (fun _ => deaf_data env) ?_
  refine deaf_dite (fun _ => deaf_date env) ?_
  refine deaf_dite (fun _ => deaf_declare) ?_
  refine deaf_dite (fun _ => deaf_cond _) ?_
  refine deaf_dite (fun _ => deaf_each) ?_
  refine deaf_dite (fun _ => deaf_else) ?_
  refine deaf_dite (fun _ => deaf_eval env) ?_
  refine deaf_dite (fun _ => deaf_exit) ?_
  refine deaf_dite (fun hx => deaf_fetch env (h.fetch hx)) ?_
  refine deaf_dite (fun _ => deaf_cond _) ?_
  refine deaf_dite (fun _ => deaf_flg) ?_
  refine deaf_dite (fun _ => deaf_for env) ?_
  refine deaf_dite (fun _ => deaf_hash env) ?_
  refine deaf_dite (fun hx => deaf_include env (h.incl hx)) ?_
  refine deaf_dite (fun _ => deaf_join env) ?_
  refine deaf_dite (fun _ => deaf_lang) ?_
  refine deaf_dite (fun _ => deaf_locale env) ?_
  refine deaf_dite (fun _ => deaf_moveto env) ?_
  refine deaf_dite (fun _ => deaf_neutral) ?_
  refine deaf_dite (fun _ => deaf_param env) ?_
  refine deaf_dite (fun _ => deaf_rand env) ?_
  refine deaf_dite (fun _ => deaf_redirect) ?_
  refine deaf_dite (fun _ => deaf_replace) ?_
  refine deaf_dite (fun _ => deaf_cmp _) ?_
  refine deaf_dite (fun _ => deaf_snippet env) ?_
  refine deaf_dite (fun _ => deaf_snippet env) ?_
  refine deaf_dite (fun _ => deaf_sum env) ?_
  refine deaf_dite (fun _ => deaf_trans env) ?_
  refine deaf_dite (fun hx => absurd hx h.obj) ?_
  exact deaf_dite (fun hx => absurd hx h.debug) deaf_unknown

end

end Nts
