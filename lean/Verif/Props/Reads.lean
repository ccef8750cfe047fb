import Verif.Props.Depends
import Verif.Props.Include
/-
C91: which files a render depends on.
-/
set_option autoImplicit false
namespace Nts
open Spec

/-! ### specification -/

/-- The BIF called `name` may look at the file `path` when it is in the state `s`: `include`, `locale` and `data` look at the file they
name, `debug` at the file of the configuration, `cache` at files of the cache directory, and `obj` at any file. -/
def Spec.LooksAt (env : Env) (name : Str) (s : St) (path : Str) : Prop :=
  ((name = c!"include" ∨ name = c!"locale" ∨ name = c!"data") ∧ path = s.b.filePath) ∨
  (name = c!"debug" ∧ path = s.sh.debugFile) ∨
  (name = c!"cache" ∧ ∃ id expires, path = cacheFile env s.sh id expires) ∨
  name = c!"obj"

/-- At some moment of its evaluation, the BIF `raw` may look at a file in `X`. -/
def Spec.Touches (X : Str → Prop) (env : Env) (R : Rec) (raw : Str) (sh : Shared) (inh : Inherit) (only : Str) : Prop :=
  ∃ name s, Started sh inh raw only name s ∧ ∃ k s1, Moment R (bifBody env name) s (.op .get k) s1 ∧
    ∃ path, X path ∧ LooksAt env name s1 path

/-- The state with other files. -/
def Spec.withFiles (g : Str → Option FileEntry) (sh : Shared) : Shared := { sh with w := { sh.w with fs := g } }

/-- The two states are the same, except for the files in `X`. -/
def Spec.SameOff (X : Str → Prop) (sh sh' : Shared) : Prop :=
  ∃ g, sh' = withFiles g sh ∧ ∀ p, ¬ X p → g p = sh.w.fs p

/-- The two results of a render are the same, except for the files in `X`: all of the template afterwards, the output included, is
the same, and so are the other files. -/
def Spec.SameResult (X : Str → Prop) : RRes → RRes → Prop
  | .ok t, .ok t' => ∃ sh', SameOff X t.shared sh' ∧ t' = { t with shared := sh' }
  | .panic p, .panic p' => p' = p
  | .oof, .oof => True
  | _, _ => False

/-! ### what a program sees -/

/-- The state of a BIF with other files. -/
abbrev filesS (g : Str → Option FileEntry) (s : St) : St := { s with sh := { s.sh with w := { s.sh.w with fs := g } } }

/-- The answer, when it is a state, has the settings `S`. -/
def KeepsS (S : Settings) : (o : Op) → o.Resp → Prop
  | .get, s => settings s.sh = S
  | _, _ => True

/-- The program does not see the change of the files to `g` in the state `s` if `C s g`, with the settings `S`. -/
def Sees (S : Settings) (C : St → (Str → Option FileEntry) → Prop) {α : Type} : Prog α → Prop
  | .pure _ => True
  | .throw _ => True
  | .panic _ => True
  | .op o k => (∀ r, KeepsS S o r → Sees S C (k r)) ∧ (match o, k with
    | .get, k => ∀ s g, settings s.sh = S → C s g → k (filesS g s) = k s
    | _, _ => True)

section
variable {S : Settings} {C : St → (Str → Option FileEntry) → Prop}

theorem se_bind' {α β : Type} {p : Prog α} {f : α → Prog β} (hp : Sees S C p) (hf : ∀ a, Sees S C (f a)) : Sees S C (p.bind f) := by
  induction p with
  | pure a => exact hf a
  | throw e => trivial
  | panic q => trivial
  | op o k ih =>
    refine ⟨fun r hr => ih r (hp.1 r hr), ?_⟩
    cases o with
    | get => intro s g hs h; show (k _).bind f = (k _).bind f; rw [hp.2 s g hs h]
    | _ => trivial
theorem se_bind {α β : Type} {p : Prog α} {f : α → Prog β} (hp : Sees S C p) (hf : ∀ a, Sees S C (f a)) : Sees S C (p >>= f) :=
  se_bind' hp hf
theorem se_get {α : Type} {f : St → Prog α} (h : ∀ s g, settings s.sh = S → C s g → f (filesS g s) = f s)
    (hf : ∀ s, settings s.sh = S → Sees S C (f s)) : Sees S C (getSt >>= f) := ⟨hf, h⟩
theorem se_op (o : Op) (h : o ≠ .get) : Sees S C (perform o) := by
  refine ⟨fun _ _ => trivial, ?_⟩
  cases o with
  | get => exact absurd rfl h
  | _ => trivial
theorem se_pure {α : Type} (a : α) : Sees S C (Prog.pure a) := trivial
theorem se_pure' {α : Type} (a : α) : Sees S C (pure a : Prog α) := trivial
theorem se_panic {α : Type} (p : Panic) : Sees S C (.panic p : Prog α) := trivial
theorem se_error {α : Type} (msg : Str) : Sees S C (bifError msg : Prog α) := ⟨fun _ _ => trivial, fun _ _ _ _ => rfl⟩
theorem se_child (x : Str) (b : Bool) : Sees S C (childParse x b) := se_op (.child x b) (by simp)
theorem se_setCode (x : Str) : Sees S C (setCode x) := se_op _ (by simp)
theorem se_setParams (x : Str) : Sees S C (setParams x) := se_op _ (by simp)
theorem se_setOut (x : Str) : Sees S C (setOut x) := se_op _ (by simp)
theorem se_setSrc (x : Str) : Sees S C (setSrc x) := se_op _ (by simp)
theorem se_setAlias (x : Str) : Sees S C (setAlias x) := se_op _ (by simp)
theorem se_setFilePath (x : Str) : Sees S C (setFilePath x) := se_op _ (by simp)
theorem se_setDir (x : Str) : Sees S C (setDir x) := se_op _ (by simp)
theorem se_setData (a b : Str) : Sees S C (setData a b) := se_op _ (by simp)
theorem se_modB (f : BifS → BifS) : Sees S C (modB f) := se_op _ (by simp)
theorem se_outCode : Sees S C outCode := se_op _ (by simp)
theorem se_tick : Sees S C tick := se_op _ (by simp)

macro "se_step" : tactic => `(tactic| first
  | ((with_reducible refine se_get ?_ (fun _ _ => ?_)); focus exact fun _ _ _ _ => rfl)
  | with_reducible refine se_bind ?_ (fun _ => ?_)
  | with_reducible refine se_bind' ?_ (fun _ => ?_)
  | with_reducible exact se_modB _
  | with_reducible exact se_pure _
  | with_reducible exact se_pure' _
  | with_reducible exact se_panic _
  | with_reducible exact se_error _
  | with_reducible exact se_child _ _
  | with_reducible exact se_setCode _
  | with_reducible exact se_setParams _
  | with_reducible exact se_setOut _
  | with_reducible exact se_setSrc _
  | with_reducible exact se_setAlias _
  | with_reducible exact se_setFilePath _
  | with_reducible exact se_setDir _
  | with_reducible exact se_setData _ _
  | with_reducible exact se_outCode
  | with_reducible exact se_tick
  | ((with_reducible refine se_op _ ?_); simp; done)
  | split
  | dsimp only)

theorem se_denyMods (f : BifS → Bool) : Sees S C (denyMods f) := by unfold denyMods; repeat' se_step
theorem se_denyFlags : Sees S C denyFlags := by unfold denyFlags; repeat' se_step
theorem se_denyFlgParams : Sees S C denyFlgParams := by unfold denyFlgParams; repeat' se_step
theorem se_checkFlags (l : List Str) : Sees S C (checkFlags l) := by unfold checkFlags; repeat' se_step
theorem se_extract (b : Bool) : Sees S C (extractParamsCode b) := by unfold extractParamsCode; repeat' se_step
theorem se_parseCode (b : Bool) : Sees S C (parseCode b) := by unfold parseCode; repeat' se_step
theorem se_argLoop (l : List Str) : Sees S C (argLoop l) := by
  induction l with
  | nil => exact se_pure _
  | cons a r ih => unfold argLoop; repeat' (first | exact ih | se_step)
theorem se_extractArgs : Sees S C extractArgs := by
  unfold extractArgs; repeat' (first | exact se_argLoop _ | se_step)
theorem se_argReq (l : List Str) (i : Nat) (m : Str) : Sees S C (argReq l i m) := by unfold argReq; repeat' se_step
theorem se_outUncached : Sees S C outUncached := by unfold outUncached; repeat' se_step
theorem se_canon (env : Env) (p : Str) : Sees S C (canonUnwrap env p) := by
  unfold canonUnwrap; repeat' se_step
theorem se_forList {β : Type} (l : List β) (f : β → Prog Unit) (h : ∀ x, Sees S C (f x)) : Sees S C (forList l f) := by
  induction l with
  | nil => exact se_pure _
  | cons a r ih => exact se_bind' (h a) (fun _ => ih)

macro "se_mid" : tactic => `(tactic| first
  | with_reducible exact se_denyMods _
  | with_reducible exact se_denyFlags
  | with_reducible exact se_denyFlgParams
  | with_reducible exact se_checkFlags _
  | with_reducible exact se_extract _
  | with_reducible exact se_parseCode _
  | with_reducible exact se_extractArgs
  | with_reducible exact se_argReq _ _ _
  | with_reducible exact se_outUncached
  | with_reducible exact se_canon _ _
  | with_reducible refine se_forList _ _ (fun _ => ?_)
  | se_step)

theorem se_cond (t : Value → Str → Bool) : Sees S C (condBif t) := by unfold condBif; repeat' se_mid
theorem se_cmp (t : Str → Str → Bool) : Sees S C (cmpBif t) := by unfold cmpBif; repeat' se_mid
theorem se_mergeJson (env : Env) (sec : Str) (part : Value → Value) (text : Str) :
    Sees S C (mergeJson env sec part text) := by
  unfold mergeJson; repeat' se_mid
theorem se_allow (env : Env) : Sees S C (bifAllow env) := by unfold bifAllow; repeat' se_mid
theorem se_coalesce : Sees S C bifCoalesce := by unfold bifCoalesce; repeat' se_mid
theorem se_code : Sees S C bifCode := by unfold bifCode; repeat' se_mid
theorem se_count (env : Env) : Sees S C (bifCount env) := by unfold bifCount; repeat' se_mid
theorem se_date (env : Env) : Sees S C (bifDate env) := by unfold bifDate; repeat' se_mid
theorem se_declare : Sees S C bifDeclare := by unfold bifDeclare; repeat' se_mid
theorem se_each : Sees S C bifEach := by unfold bifEach eachIter; repeat' se_mid
theorem se_else : Sees S C bifElse := by unfold bifElse; repeat' se_mid
theorem se_eval (env : Env) : Sees S C (bifEval env) := by unfold bifEval; repeat' se_mid
theorem se_exit : Sees S C bifExit := by unfold bifExit; repeat' se_mid
theorem se_fetch (env : Env) : Sees S C (bifFetch env) := by unfold bifFetch; repeat' se_mid
theorem se_flg : Sees S C bifFlg := by unfold bifFlg; repeat' se_mid
theorem se_for (env : Env) : Sees S C (bifFor env) := by unfold bifFor forIter; repeat' se_mid
theorem se_hash (env : Env) : Sees S C (bifHash env) := by unfold bifHash; repeat' se_mid
theorem se_join (env : Env) : Sees S C (bifJoin env) := by unfold bifJoin; repeat' se_mid
theorem se_lang : Sees S C bifLang := by unfold bifLang; repeat' se_mid
theorem se_moveto (env : Env) : Sees S C (bifMoveto env) := by unfold bifMoveto; repeat' se_mid
theorem se_neutral : Sees S C bifNeutral := by unfold bifNeutral; repeat' se_mid
theorem se_param (env : Env) : Sees S C (bifParam env) := by unfold bifParam; repeat' se_mid
theorem se_rand (env : Env) : Sees S C (bifRand env) := by unfold bifRand; repeat' se_mid
theorem se_redirect : Sees S C bifRedirect := by unfold bifRedirect; repeat' se_mid
theorem se_replace : Sees S C bifReplace := by unfold bifReplace; repeat' se_mid
theorem se_snippet (env : Env) : Sees S C (bifSnippet env) := by unfold bifSnippet; repeat' se_mid
theorem se_sum (env : Env) : Sees S C (bifSum env) := by unfold bifSum; repeat' se_mid
theorem se_trans (env : Env) : Sees S C (bifTrans env) := by unfold bifTrans; repeat' se_mid
theorem se_unknown : Sees S C bifUnknown := by unfold bifUnknown; repeat' se_mid
theorem se_requireAllow (a b : Str) : Sees S C (requireAllow a b) := by unfold requireAllow; repeat' se_step
theorem se_resolve : Sees S C resolveFilePath := by
  unfold resolveFilePath; repeat' (first | with_reducible exact se_requireAllow _ _ | se_step)
theorem se_var (env : Env) : Sees S C (bifVar env) := by
  unfold bifVar; repeat' (first | with_reducible exact se_requireAllow _ _ | se_mid)

/-- With the very same files there is nothing to see. -/
theorem se_any (hC : ∀ s g, C s g → g = s.sh.w.fs) {α : Type} (p : Prog α) : Sees S C p := by
  induction p with
  | pure a => trivial
  | throw e => trivial
  | panic q => trivial
  | op o k ih =>
    refine ⟨fun r _ => ih r, ?_⟩
    cases o with
    | get => intro s g _ h; show k _ = k _; rw [hC s g h]
    | _ => trivial

theorem exists_files {s : St} {g : Str → Option FileEntry} (h : g s.b.filePath = s.sh.w.fs s.b.filePath) :
    fileExists (filesS g s) (filesS g s).b.filePath = fileExists s s.b.filePath := congrArg Option.isSome h
theorem read_files {s : St} {g : Str → Option FileEntry} (h : g s.b.filePath = s.sh.w.fs s.b.filePath) :
    readFile (filesS g s) (filesS g s).b.filePath = readFile s s.b.filePath := congrArg (fun x : Option FileEntry => x.bind (fun e => e.content)) h

theorem se_include (hC : ∀ s g, C s g → g s.b.filePath = s.sh.w.fs s.b.filePath) (env : Env) : Sees S C (bifInclude env) := by
  unfold bifInclude
  refine se_bind (se_denyMods _) fun _ => se_bind (se_extract _) fun _ => se_bind (se_checkFlags _) fun _ => se_bind se_resolve fun _ => ?_
  refine se_get (fun s g _ h => ?_) (fun _ _ => ?_)
  · have e1 := exists_files (hC s g h)
    have e2 := read_files (hC s g h)
    rw [e1, e2]
  · repeat' se_mid
theorem se_data (hC : ∀ s g, C s g → g s.b.filePath = s.sh.w.fs s.b.filePath) (env : Env) : Sees S C (bifData env) := by
  unfold bifData
  refine se_bind (se_denyMods _) fun _ => se_bind (se_extract _) fun _ => ?_
  repeat' (first
    | with_reducible exact se_resolve
    | with_reducible exact se_mergeJson _ _ _ _
    | ((with_reducible refine se_get ?_ (fun _ _ => ?_))
       focus (intro s g _ h; have e1 := exists_files (hC s g h); have e2 := read_files (hC s g h); rw [e1, e2]; done))
    | se_mid)
theorem se_locale (hC : ∀ s g, C s g → g s.b.filePath = s.sh.w.fs s.b.filePath) (env : Env) : Sees S C (bifLocale env) := by
  unfold bifLocale
  refine se_bind (se_denyMods _) fun _ => se_bind (se_extract _) fun _ => ?_
  repeat' (first
    | with_reducible exact se_resolve
    | with_reducible exact se_mergeJson _ _ _ _
    | ((with_reducible refine se_get ?_ (fun _ _ => ?_))
       focus (intro s g _ h; have e1 := exists_files (hC s g h); have e2 := read_files (hC s g h); rw [e1, e2]; done))
    | se_mid)
theorem se_debug (hC : ∀ s g, C s g → g s.sh.debugFile = s.sh.w.fs s.sh.debugFile) (env : Env) : Sees S C (bifDebug env) := by
  have h1 : Sees S C (debugEnable env) := by
    unfold debugEnable
    refine se_get (fun s g _ h => ?_) (fun _ _ => ?_)
    · have := hC s g h
      dsimp only
      rw [this]
    · repeat' se_mid
  unfold bifDebug
  repeat' (first | with_reducible exact h1 | se_mid)
theorem se_cacheParse (b : Bool) (f : Str → Prog Unit) (h : ∀ x, Sees S C (f x)) : Sees S C (cacheParse b f) := by
  unfold cacheParse; repeat' (first | exact h _ | se_mid)
theorem se_cacheStore (env : Env) (b : Bool) (d f : Str) : Sees S C (cacheStore env b d f) := by
  unfold cacheStore; repeat' (first | with_reducible exact se_cacheParse _ _ (fun _ => se_setCode _) | se_mid)
theorem se_cacheLookup (env : Env) (b : Bool) (d f e : Str) (hC : ∀ s g, settings s.sh = S → C s g → g f = s.sh.w.fs f) :
    Sees S C (cacheLookup env b d f e) := by
  unfold cacheLookup
  refine se_get (fun s g hs h => ?_) (fun _ _ => ?_)
  · have := hC s g hs h
    dsimp only
    rw [this]
  · repeat' (first
      | with_reducible exact se_cacheStore _ _ _ _
      | with_reducible exact se_cacheParse _ _ (fun _ => se_setOut _)
      | se_mid)
theorem cacheFile_settings (env : Env) {sh sh' : Shared} (h : settings sh = settings sh') (id expires : Str) :
    cacheFile env sh id expires = cacheFile env sh' id expires := by
  have h1 : sh.cacheDir = sh'.cacheDir := congrArg Settings.cacheDir h
  have h2 : sh.cachePrefix = sh'.cachePrefix := congrArg Settings.cachePrefix h
  unfold cacheFile cacheDirOf
  rw [h1, h2]
theorem se_cache (env : Env) (hC : ∀ s g, C s g → ∀ id expires, g (cacheFile env s.sh id expires) = s.sh.w.fs (cacheFile env s.sh id expires)) :
    Sees S C (bifCache env) := by
  unfold bifCache
  repeat' (first
    | ((with_reducible refine se_cacheLookup _ _ _ _ _ ?_)
       intro s g hs h
       rw [cacheFile_settings env (sh' := s.sh) (by rw [hs]; assumption)]
       exact hC s g h _ _)
    | se_mid)
end

theorem se_ite {S : Settings} {C : St → (Str → Option FileEntry) → Prop} {α : Type} {c : Prop} [Decidable c] {p q : Prog α}
    (h1 : c → Sees S C p) (h2 : Sees S C q) : Sees S C (if c then p else q) := by
  by_cases h : c
  · rw [if_pos h]; exact h1 h
  · rw [if_neg h]; exact h2

/-- The files agree where the BIF looks. -/
def Agrees (env : Env) (name : Str) (s : St) (g : Str → Option FileEntry) : Prop := ∀ p, LooksAt env name s p → g p = s.sh.w.fs p

/-- The table `LooksAt` is right for every BIF. -/
theorem body_sees (env : Env) (name : Str) (S : Settings) : Sees S (Agrees env name) (bifBody env name) := by
  unfold bifBody
  refine se_ite (fun _ => se_var env) ?_
  refine se_ite (fun _ => se_allow env) ?_
  refine se_ite (fun _ => se_cond _) ?_
  refine se_ite (fun _ => se_cond _) ?_
  refine se_ite (fun hx => se_cache env fun s g h id expires => h _ (.inr (.inr (.inl ⟨hx, id, expires, rfl⟩)))) ?_
  refine se_ite (fun _ => se_coalesce) ?_
  refine se_ite (fun _ => se_code) ?_
  refine se_ite (fun _ => se_cmp _) ?_
  refine se_ite (fun _ => se_count env) ?_
  refine se_ite (fun hx => se_data (fun s g h => h _ (.inl ⟨.inr (.inr hx), rfl⟩)) env) ?_
  refine se_ite (fun _ => se_date env) ?_
  refine se_ite (fun _ => se_declare) ?_
  refine se_ite (fun _ => se_cond _) ?_
  refine se_ite (fun _ => se_each) ?_
  refine se_ite (fun _ => se_else) ?_
  refine se_ite (fun _ => se_eval env) ?_
  refine se_ite (fun _ => se_exit) ?_
  refine se_ite (fun _ => se_fetch env) ?_
  refine se_ite (fun _ => se_cond _) ?_
  refine se_ite (fun _ => se_flg) ?_
  refine se_ite (fun _ => se_for env) ?_
  refine se_ite (fun _ => se_hash env) ?_
  refine se_ite (fun hx => se_include (fun s g h => h _ (.inl ⟨.inl hx, rfl⟩)) env) ?_
  refine se_ite (fun _ => se_join env) ?_
  refine se_ite (fun _ => se_lang) ?_
  refine se_ite (fun hx => se_locale (fun s g h => h _ (.inl ⟨.inr (.inl hx), rfl⟩)) env) ?_
  refine se_ite (fun _ => se_moveto env) ?_
  refine se_ite (fun _ => se_neutral) ?_
  refine se_ite (fun _ => se_param env) ?_
  refine se_ite (fun _ => se_rand env) ?_
  refine se_ite (fun _ => se_redirect) ?_
  refine se_ite (fun _ => se_replace) ?_
  refine se_ite (fun _ => se_cmp _) ?_
  refine se_ite (fun _ => se_snippet env) ?_
  refine se_ite (fun _ => se_snippet env) ?_
  refine se_ite (fun _ => se_sum env) ?_
  refine se_ite (fun _ => se_trans env) ?_
  refine se_ite (fun hx => se_any (fun s g h => funext fun p => h p (.inr (.inr (.inr hx)))) _) ?_
  refine se_ite (fun hx => se_debug (fun s g h => h _ (.inr (.inl ⟨hx, rfl⟩))) env) ?_
  exact se_unknown

/-! ### two runs -/

/-- The two results are the same, except for the files in `X`. -/
def POff (X : Str → Prop) : PRes → PRes → Prop
  | .ok x sh inh, .ok x' sh' inh' => x' = x ∧ inh' = inh ∧ SameOff X sh sh'
  | .panic p, .panic p' => p' = p
  | .oof, .oof => True
  | _, _ => False

def OOff (X : Str → Prop) (c : Prop) {α : Type} : ORes α → ORes α → Prop
  | .ok r s, .ok r' s' => (c → r' = r) ∧ ∃ g, s' = filesS g s ∧ ∀ p, ¬ X p → g p = s.sh.w.fs p
  | .panic p, .panic p' => p' = p
  | .oof, .oof => True
  | _, _ => False

def ROff (X : Str → Prop) {α : Type} : Res α → Res α → Prop
  | .ok a s, .ok a' s' => a' = a ∧ ∃ g, s' = filesS g s ∧ ∀ p, ¬ X p → g p = s.sh.w.fs p
  | .err e s, .err e' s' => e' = e ∧ ∃ g, s' = filesS g s ∧ ∀ p, ¬ X p → g p = s.sh.w.fs p
  | .panic p, .panic p' => p' = p
  | .oof, .oof => True
  | _, _ => False

section
variable {X : Str → Prop} {g : Str → Option FileEntry}

theorem create_files (sh : Shared) (inh : Inherit) :
    createBlockSchema (withFiles g sh) inh = (withFiles g (createBlockSchema sh inh).1, (createBlockSchema sh inh).2) := by
  unfold createBlockSchema
  dsimp only
  generalize (if inh.blockCount < 1 then c!"block_1" else blockId inh.blockCount) = bid
  split
  · have : (withFiles g sh).indir = sh.indir := rfl
    rw [this]
    cases sh.indir inh.indir <;> rfl
  · rfl
theorem create_world (sh : Shared) (inh : Inherit) : (createBlockSchema sh inh).1.w = sh.w := by
  unfold createBlockSchema
  dsimp only
  generalize (if inh.blockCount < 1 then c!"block_1" else blockId inh.blockCount) = bid
  split
  · split <;> rfl
  · rfl
theorem update_files (sh : Shared) (a b : Str) : updateIndir (withFiles g sh) a b = withFiles g (updateIndir sh a b) := by
  unfold updateIndir
  have : (withFiles g sh).indir = sh.indir := rfl
  rw [this]
  cases sh.indir a <;> rfl
theorem update_world (sh : Shared) (a b : Str) : (updateIndir sh a b).w = sh.w := by
  unfold updateIndir
  split <;> rfl
theorem drop_files (sh : Shared) (inh : Inherit) : dropBlock (withFiles g sh) inh = withFiles g (dropBlock sh inh) := by
  unfold dropBlock
  dsimp only
  split <;> rfl
theorem drop_world (sh : Shared) (inh : Inherit) : (dropBlock sh inh).w = sh.w := by
  unfold dropBlock
  dsimp only
  split <;> rfl

theorem off_runChild {s : St} {scope : Bool} {c : Prop} {f f' : Shared → Inherit → PRes}
    (h : POff X (f (if scope then createBlockSchema s.sh s.inh else (s.sh, s.inh)).1 (childInherit s))
      (f' (withFiles g (if scope then createBlockSchema s.sh s.inh else (s.sh, s.inh)).1) (childInherit s))) :
    OOff X c (runChild s scope f) (runChild (filesS g s) scope f') := by
  have e1 : (if scope then createBlockSchema (filesS g s).sh (filesS g s).inh else ((filesS g s).sh, (filesS g s).inh)) =
      (withFiles g (if scope then createBlockSchema s.sh s.inh else (s.sh, s.inh)).1,
        (if scope then createBlockSchema s.sh s.inh else (s.sh, s.inh)).2) := by
    cases scope with
    | false => rfl
    | true => exact create_files s.sh s.inh
  have e2 : childInherit (filesS g s) = childInherit s := rfl
  unfold runChild
  dsimp only
  rw [e1, e2]
  dsimp only
  revert h
  generalize f (if scope then createBlockSchema s.sh s.inh else (s.sh, s.inh)).1 (childInherit s) = r
  generalize f' (withFiles g (if scope then createBlockSchema s.sh s.inh else (s.sh, s.inh)).1) (childInherit s) = r'
  intro h
  cases r with
  | panic p => cases r' <;> first | exact h | exact h.elim
  | oof => cases r' <;> first | exact h | exact h.elim
  | ok x sh2 ci2 =>
    cases r' with
    | panic p => exact h.elim
    | oof => exact h.elim
    | ok x' sh2' ci2' =>
      obtain ⟨rfl, rfl, g2, rfl, hg2⟩ := h
      refine ⟨fun _ => rfl, g2, ?_, ?_⟩
      · cases scope with
        | false => simp only [Bool.false_eq_true, if_false, drop_files]; rfl
        | true => simp only [if_true, update_files, drop_files]; rfl
      · intro p hp
        cases scope with
        | false => simp only [Bool.false_eq_true, if_false, drop_world]; exact hg2 p hp
        | true => simp only [if_true, drop_world, update_world]; exact hg2 p hp

theorem off_step {R R' : Rec} {o : Op} {s : St} (hg : ∀ p, ¬ X p → g p = s.sh.w.fs p)
    (h : ∀ csrc cbs, childOf o = some (csrc, cbs) →
      POff X (R (childStart s o) (childInherit s) csrc cbs s.only)
        (R' (withFiles g (childStart s o)) (childInherit s) csrc cbs s.only)) :
    OOff X (o ≠ .get) (step R o s) (step R' o (filesS g s)) := by
  cases o with
  | child src scope =>
    simp only [step]
    refine off_runChild ?_
    unfold parseSrc
    cases hx : extractBlocks src with
    | error p =>
      refine ⟨rfl, rfl, g, rfl, fun p hp => ?_⟩
      unfold handleUnmatched
      cases scope with
      | false => exact hg p hp
      | true => simp only [if_true]; rw [create_world]; exact hg p hp
    | ok bs =>
      have := h src bs (by simp [childOf, hx])
      simp only [childStart] at this
      cases scope <;> simpa using this
  | childBlocks src bs scope =>
    simp only [step]
    refine off_runChild ?_
    have := h src bs rfl
    simp only [childStart] at this
    cases scope <;> simpa using this
  | setData name v =>
    simp only [step]
    cases s.sh.schema.modIndex c!"data" (fun d => d.setIndex name v) with
    | none => rfl
    | some sc => exact ⟨fun _ => rfl, g, rfl, hg⟩
  | setMoveto name v =>
    simp only [step]
    cases s.sh.schema.modIndex c!"__moveto" (fun d => d.setIndex name v) with
    | none => rfl
    | some sc => exact ⟨fun _ => rfl, g, rfl, hg⟩
  | setIndir sec key v =>
    simp only [step, Shared.modIndir]
    cases ((s.sh.indir s.inh.indir).getD (.obj [])).modIndex sec (fun y => y.setIndex key v) with
    | none => rfl
    | some sc => exact ⟨fun _ => rfl, g, rfl, hg⟩
  | mergeIndir sec v =>
    simp only [step, Shared.modIndir]
    cases ((s.sh.indir s.inh.indir).getD (.obj [])).modIndex sec (fun y => some (mergeSchemaOwned y v)) with
    | none => rfl
    | some sc => exact ⟨fun _ => rfl, g, rfl, hg⟩
  | createBlockSchema =>
    refine ⟨fun _ => rfl, g, ?_, fun p hp => ?_⟩
    · show St.mk (createBlockSchema (withFiles g s.sh) s.inh).1 (createBlockSchema (withFiles g s.sh) s.inh).2 _ _ _ = _
      rw [create_files]
      rfl
    · show g p = (createBlockSchema s.sh s.inh).1.w.fs p
      rw [create_world]
      exact hg p hp
  | writeFile path content mtime =>
    refine ⟨fun _ => rfl, fun x => if x = path then some ⟨some content, mtime, true⟩ else g x, rfl, fun p hp => ?_⟩
    show (if p = path then _ else _) = if p = path then _ else _
    split
    · rfl
    · exact hg p hp
  | get => exact ⟨fun hx => absurd rfl hx, g, rfl, hg⟩
  | pushFile k p => cases k <;> exact ⟨fun _ => rfl, g, rfl, hg⟩
  | _ => exact ⟨fun _ => rfl, g, rfl, hg⟩

theorem childStart_world (s : St) (o : Op) : (childStart s o).w = s.sh.w := by
  unfold childStart
  split <;> first | exact create_world _ _ | rfl

theorem off_run {S : Settings} {C : St → (Str → Option FileEntry) → Prop} {R R' : Rec} (hR : RecRel SameConfig R) {α : Type} (p : Prog α) :
    ∀ (s : St) (g : Str → Option FileEntry), Sees S C p → settings s.sh = S → (∀ p, ¬ X p → g p = s.sh.w.fs p) →
    (∀ k s1 g1, Moment R p s (.op .get k) s1 → (∀ p, ¬ X p → g1 p = s1.sh.w.fs p) → C s1 g1) →
    (∀ (o : Op) (k : o.Resp → Prog α) s1 g1, Moment R p s (.op o k) s1 → (∀ p, ¬ X p → g1 p = s1.sh.w.fs p) →
      ∀ csrc cbs, childOf o = some (csrc, cbs) →
      POff X (R (childStart s1 o) (childInherit s1) csrc cbs s.only)
        (R' (withFiles g1 (childStart s1 o)) (childInherit s1) csrc cbs s.only)) →
    ROff X (run R p s) (run R' p (filesS g s)) := by
  induction p with
  | pure a => intro s g _ _ hg _ _; exact ⟨rfl, g, rfl, hg⟩
  | throw e => intro s g _ _ hg _ _; exact ⟨rfl, g, rfl, hg⟩
  | panic q => intros; rfl
  | op o k ih =>
    intro s g hs hS hg hC hch
    simp only [run]
    have hst := off_step (R := R) (R' := R') hg (fun csrc cbs hc => hch o k s g (.now _ _) hg csrc cbs hc)
    cases h1 : step R o s with
    | panic q =>
      rw [h1] at hst
      cases h2 : step R' o (filesS g s) with
      | panic q' => rw [h2] at hst; exact hst
      | oof => rw [h2] at hst; exact hst.elim
      | ok r' s' => rw [h2] at hst; exact hst.elim
    | oof =>
      rw [h1] at hst
      cases h2 : step R' o (filesS g s) with
      | panic q' => rw [h2] at hst; exact hst.elim
      | oof => trivial
      | ok r' s' => rw [h2] at hst; exact hst.elim
    | ok r s1 =>
      have hS1 : settings s1.sh = S :=
        (step_rel (P := fun _ => True) sameConfig_closed.toSteps hR o s r s1 trivial h1).1.trans hS
      have ho := step_only h1
      rw [h1] at hst
      cases h2 : step R' o (filesS g s) with
      | panic q' => rw [h2] at hst; exact hst.elim
      | oof => rw [h2] at hst; exact hst.elim
      | ok r' s1' =>
        rw [h2] at hst
        obtain ⟨hr, g1, rfl, hg1⟩ := hst
        have hk : k r' = k r ∧ Sees S C (k r) := by
          by_cases hget : o = .get
          · subst hget
            simp only [step, ORes.ok.injEq] at h1 h2
            obtain ⟨rfl, rfl⟩ := h1
            obtain ⟨rfl, _⟩ := h2
            exact ⟨hs.2 _ _ hS (hC k _ _ (.now _ _) hg), hs.1 _ hS⟩
          · rw [hr hget]
            refine ⟨rfl, hs.1 r ?_⟩
            cases o <;> first | exact absurd rfl hget | trivial
        simp only
        rw [hk.1]
        refine ih r s1 g1 hk.2 hS1 hg1 (fun k' s2 g2 hm hg2 => hC k' s2 g2 (.step h1 hm) hg2) ?_
        intro o' k' s2 g2 hm hg2 csrc cbs hc
        rw [ho]
        exact hch o' k' s2 g2 (.step h1 hm) hg2 csrc cbs hc

variable {env : Env}

theorem finish_files (s : St) : POff X (bifFinish s) (bifFinish (filesS g s)) ↔ ∀ p, ¬ X p → g p = s.sh.w.fs p := by
  constructor
  · rintro ⟨_, _, g1, h1, h2⟩ p hp
    rw [show g = g1 from congrArg (fun sh : Shared => sh.w.fs) h1]
    exact h2 p hp
  · exact fun h => ⟨rfl, rfl, g, rfl, h⟩

theorem off_runBif {R R' : Rec} (hR : RecRel SameConfig R) {sh : Shared} {inh : Inherit} {raw only : Str}
    (hg : ∀ p, ¬ X p → g p = sh.w.fs p) (hn : ¬ Touches X env R raw sh inh only)
    (hch : ∀ name s, Started sh inh raw only name s → ∀ (o : Op) (k : o.Resp → Prog Unit) (s1 : St) g1,
      Moment R (bifBody env name) s (.op o k) s1 → (∀ p, ¬ X p → g1 p = s1.sh.w.fs p) → ∀ csrc cbs, childOf o = some (csrc, cbs) →
        POff X (R (childStart s1 o) (childInherit s1) csrc cbs only)
          (R' (withFiles g1 (childStart s1 o)) (childInherit s1) csrc cbs only)) :
    POff X (runBif env R sh inh raw only) (runBif env R' (withFiles g sh) inh raw only) := by
  by_cases hs : ∃ name s, Started sh inh raw only name s
  · obtain ⟨name, s, hst⟩ := hs
    have hst' : Started (withFiles g sh) inh raw only name (filesS g s) := by
      cases hst with
      | mk h1 h2 h3 h4 => exact .mk h1 h2 h3 h4
    have ho : s.only = only := by cases hst; rfl
    have hw : s.sh.w = sh.w := by cases hst; rfl
    rw [runBif_started hst, runBif_started hst']
    have := off_run (S := settings s.sh) (C := Agrees env name) (X := X) (R := R) (R' := R') hR (bifBody env name) s g (body_sees env name _) rfl
      (by rw [hw]; exact hg) (fun k s1 g1 hm hg1 p hl => hg1 p (fun hx => hn ⟨name, s, hst, k, s1, hm, p, hx, hl⟩))
      (by rw [ho]; exact hch name s hst)
    revert this
    generalize run R (bifBody env name) s = r
    generalize run R' (bifBody env name) (filesS g s) = r'
    intro h
    cases r with
    | panic q => cases r' <;> first | exact h | exact h.elim
    | oof => cases r' <;> first | exact h | exact h.elim
    | ok a s1 =>
      cases r' with
      | ok a' s1' =>
        obtain ⟨rfl, g1, rfl, hg1⟩ := h
        exact (finish_files s1).2 hg1
      | _ => exact h.elim
    | err e s1 =>
      cases r' with
      | err e' s1' =>
        obtain ⟨rfl, g1, rfl, hg1⟩ := h
        unfold bifResult
        dsimp only
        have : showErrors (filesS g1 s1).sh = showErrors s1.sh := rfl
        rw [this]
        cases showErrors s1.sh with
        | none => rfl
        | some b => exact ⟨rfl, rfl, g1, rfl, hg1⟩
      | _ => exact h.elim
  · unfold runBif bifParse
    have e1 : (withFiles g sh).count = sh.count := rfl
    have e2 : (withFiles g sh).max = sh.max := rfl
    rw [e1, e2]
    split
    · rfl
    · next hc =>
      split
      · split
        · exact ⟨rfl, rfl, g, rfl, hg⟩
        · unfold showErrors
          dsimp only
          have : (withFiles g sh).schema = sh.schema := rfl
          rw [this]
          cases (((sh.schema.index c!"config").index c!"error").index c!"show").asBool? with
          | none => rfl
          | some b => exact ⟨rfl, rfl, g, rfl, hg⟩
      · next full src hsp =>
        dsimp only
        split
        · exact ⟨rfl, rfl, g, rfl, hg⟩
        · next hsel =>
          split
          · rfl
          · next b name hset =>
            refine absurd ⟨name, _, Started.mk (by omega) hsp ?_ hset⟩ hs
            by_cases h1 : only = []
            · exact .inl h1
            · by_cases h2 : contains only full = true
              · exact .inr (.inl h2)
              · refine .inr (.inr ?_)
                have h3 : only.isEmpty = false := by cases only <;> simp_all
                rw [h3, Bool.eq_false_iff.2 h2] at hsel
                simpa using hsel

/-- No BIF of the blocks, nor nested in them, looks at a file in `X`. -/
def Avoids (X : Str → Prop) (env : Env) (only : Str) (n : Nat) (src : Str) (bs : List (Nat × Nat)) (sh : Shared) (inh : Inherit) : Prop :=
  ∀ m raw sh1 inh1, Evaluates env n src only bs sh inh m raw sh1 inh1 → ¬ Touches X env (runBlocks env m) raw sh1 inh1 only

theorem off_blocks {only : Str} {n : Nat}
    (hR : ∀ k, n = k + 1 → ∀ sh g inh src bs, (∀ p, ¬ X p → g p = sh.w.fs p) → Avoids X env only k src bs sh inh →
      POff X (runBlocks env n sh inh src bs only) (runBlocks env n (withFiles g sh) inh src bs only)) (src : Str) (bs : List (Nat × Nat)) :
    ∀ (prevEnd : Nat) (out : Str) (sh : Shared) (inh : Inherit) (g : Str → Option FileEntry), (∀ p, ¬ X p → g p = sh.w.fs p) →
      Avoids X env only n src bs sh inh →
      POff X (blocksGo env (runBlocks env n) src only prevEnd out bs sh inh)
        (blocksGo env (runBlocks env n) src only prevEnd out bs (withFiles g sh) inh) := by
  induction bs with
  | nil => intro prevEnd out sh inh g hg _; exact ⟨rfl, rfl, g, rfl, hg⟩
  | cons be bs ih =>
    intro prevEnd out sh inh g hg hf
    obtain ⟨b, e⟩ := be
    unfold blocksGo
    have e1 : (withFiles g sh).exit = sh.exit := rfl
    rw [e1]
    cases hx : sh.exit with
    | true => simp only [if_true]; exact ⟨rfl, rfl, g, rfl, hg⟩
    | false =>
      simp only [Bool.false_eq_true, if_false]
      cases hk : (startsWith c!"{:*" (slice src b e) || (inh.lastCoalesceOut && inh.alias = c!"coalesce")) with
      | true =>
        simp only [if_true]
        exact ih _ _ _ _ g hg fun m raw sh1 inh1 hev => hf m raw sh1 inh1 (.skip hx hk hev)
      | false =>
        simp only [Bool.false_eq_true, if_false]
        have hb := off_runBif (env := env) (R := runBlocks env n) (R' := runBlocks env n) (X := X) (g := g)
          (runBlocks_rel sameConfig_closed env (fun _ => OpsIn_true _) n) hg (hf _ _ _ _ (.here hx hk)) (fun name s hst o k s1 g1 hm hg1 csrc cbs hc => by
            cases n with
            | zero => trivial
            | succ n =>
              exact hR n rfl _ _ _ _ _ (by rw [childStart_world]; exact hg1) fun m raw sh1 inh1 hev => hf m raw sh1 inh1 (.nested hx hk hst hm hc hev))
        cases hr : runBif env (runBlocks env n) sh inh (slice src b e) only with
        | panic q =>
          rw [hr] at hb
          cases h2 : runBif env (runBlocks env n) (withFiles g sh) inh (slice src b e) only <;> rw [h2] at hb <;> first | exact hb | exact hb.elim
        | oof =>
          rw [hr] at hb
          cases h2 : runBif env (runBlocks env n) (withFiles g sh) inh (slice src b e) only <;> rw [h2] at hb <;> first | exact hb | exact hb.elim
        | ok x sh' inh' =>
          rw [hr] at hb
          cases h2 : runBif env (runBlocks env n) (withFiles g sh) inh (slice src b e) only with
          | panic q => rw [h2] at hb; exact hb.elim
          | oof => rw [h2] at hb; exact hb.elim
          | ok x' sh'' inh'' =>
            rw [h2] at hb
            obtain ⟨rfl, rfl, g1, rfl, hg1⟩ := hb
            exact ih _ _ _ _ g1 hg1 fun m raw sh1 inh1 hev => hf m raw sh1 inh1 (.later hx hk hr hev)

theorem off_runBlocks {only : Str} : ∀ (n : Nat) (sh : Shared) (g : Str → Option FileEntry) (inh : Inherit) (src : Str)
    (bs : List (Nat × Nat)), (∀ p, ¬ X p → g p = sh.w.fs p) → Avoids X env only n src bs sh inh →
    POff X (runBlocks env (n + 1) sh inh src bs only) (runBlocks env (n + 1) (withFiles g sh) inh src bs only) := by
  intro n
  induction n with
  | zero =>
    intro sh g inh src bs hg hf
    exact off_blocks (n := 0) (fun k hk => by omega) src bs 0 [] sh inh g hg hf
  | succ n ih =>
    intro sh g inh src bs hg hf
    refine off_blocks (n := n + 1) (fun k hk sh' g' inh' src' bs' hg' hf' => ?_) src bs 0 [] sh inh g hg hf
    have : k = n := by omega
    subst this
    exact ih sh' g' inh' src' bs' hg' hf'

/-! ### whole renders -/

theorem off_pass {sh : Shared} {inh : Inherit} {text only : Str} (hg : ∀ p, ¬ X p → g p = sh.w.fs p)
    (hn : ¬ Somewhere (Touches X env) env sh.max sh { inh with blockCount := inh.blockCount + 1 } text only) :
    POff X (pass env sh inh text only) (pass env (withFiles g sh) inh text only) := by
  have key : POff X (parseSrc (runBlocks env (sh.max + 1)) sh { inh with blockCount := inh.blockCount + 1 } text only)
      (parseSrc (runBlocks env (sh.max + 1)) (withFiles g sh) { inh with blockCount := inh.blockCount + 1 } text only) := by
    unfold parseSrc
    cases hx : extractBlocks text with
    | error p => exact ⟨rfl, rfl, g, rfl, hg⟩
    | ok bs =>
      exact off_runBlocks sh.max sh g { inh with blockCount := inh.blockCount + 1 } text bs hg
        fun m raw sh1 inh1 hev hneed => hn ⟨bs, hx, m, raw, sh1, inh1, hev, hneed⟩
  unfold pass
  have e1 : (withFiles g sh).max = sh.max := rfl
  rw [e1]
  revert key
  generalize parseSrc (runBlocks env (sh.max + 1)) sh { inh with blockCount := inh.blockCount + 1 } text only = r
  generalize parseSrc (runBlocks env (sh.max + 1)) (withFiles g sh) { inh with blockCount := inh.blockCount + 1 } text only = r'
  intro h
  cases r with
  | panic q => cases r' <;> first | exact h | exact h.elim
  | oof => cases r' <;> first | exact h | exact h.elim
  | ok x sh1 inh1 =>
    cases r' with
    | ok x' sh1' inh1' =>
      obtain ⟨rfl, rfl, g1, rfl, hg1⟩ := h
      exact ⟨rfl, rfl, g1, drop_files _ _, fun p hp => by rw [drop_world]; exact hg1 p hp⟩
    | _ => exact h.elim

theorem off_loop {inh : Inherit} {sh0 : Shared} {raw : Str} (n : Nat) :
    ∀ (j : Nat) (sh sh2 : Shared) (g : Str → Option FileEntry) (inh2 : Inherit) (text only out : Str), PassOf env inh sh0 raw j sh text only →
    pass env sh inh text only = .ok out sh2 inh2 → (∀ p, ¬ X p → g p = sh2.w.fs p) →
    (∀ k sh1 text1 only1, k ≤ j + n → PassOf env inh sh0 raw k sh1 text1 only1 →
      ¬ Somewhere (Touches X env) env sh1.max sh1 { inh with blockCount := inh.blockCount + 1 } text1 only1) →
    POff X (cacheLoop env inh n sh2 out) (cacheLoop env inh n (withFiles g sh2) out) := by
  induction n with
  | zero =>
    intro j sh sh2 g inh2 text only out _ _ hg _
    unfold cacheLoop
    by_cases hc : contains c!"{:!cache;" out = true
    · rw [if_pos hc, if_pos hc]; trivial
    · rw [if_neg hc, if_neg hc]; exact ⟨rfl, rfl, g, rfl, hg⟩
  | succ n ih =>
    intro j sh sh2 g inh2 text only out hp hr hg hf
    unfold cacheLoop
    by_cases hc : contains c!"{:!cache;" out = true
    · rw [if_pos hc, if_pos hc]
      have hn : PassOf env inh sh0 raw (j + 1) sh2 out c!"!cache" :=
        .next hp hr ((contains_iff (p := c!"{:!cache;") (s := out) (by decide)).1 hc)
      have hb := off_pass (env := env) (X := X) hg (hf (j + 1) _ _ _ (by omega) hn)
      cases hq : pass env sh2 inh out c!"!cache" with
      | panic q =>
        rw [hq] at hb
        cases h2 : pass env (withFiles g sh2) inh out c!"!cache" <;> rw [h2] at hb <;> first | exact hb | exact hb.elim
      | oof =>
        rw [hq] at hb
        cases h2 : pass env (withFiles g sh2) inh out c!"!cache" <;> rw [h2] at hb <;> first | exact hb | exact hb.elim
      | ok out' sh' inh' =>
        rw [hq] at hb
        cases h2 : pass env (withFiles g sh2) inh out c!"!cache" with
        | panic q => rw [h2] at hb; exact hb.elim
        | oof => rw [h2] at hb; exact hb.elim
        | ok x' sh'' inh'' =>
          rw [h2] at hb
          obtain ⟨rfl, rfl, g1, rfl, hg1⟩ := hb
          exact ih (j + 1) _ _ g1 _ _ _ _ hn hq hg1 fun k sh1 text1 only1 hk hpk => hf k sh1 text1 only1 (by omega) hpk
    · rw [if_neg hc, if_neg hc]; exact ⟨rfl, rfl, g, rfl, hg⟩

theorem init_files (f raw : Str) (sh : Shared) : initShared env f raw (withFiles g sh) =
    (initShared env f raw sh).map (fun r => (r.1, withFiles g r.2.1, r.2.2)) := by
  unfold initShared
  dsimp only
  rw [create_files]
  have e1 : (withFiles g sh).comments = sh.comments := rfl
  rw [e1]
  generalize (if contains c!"remove" sh.comments = true then removeComments raw else some raw) = x
  cases x with
  | none => rfl
  | some raw' =>
    dsimp only
    have e2 : (withFiles g (createBlockSchema sh Inherit.new).1).schema = (createBlockSchema sh Inherit.new).1.schema := rfl
    rw [e2]
    generalize Option.bind _ _ = y
    cases y with
    | none => rfl
    | some schema1 =>
      dsimp only
      cases filterContext schema1 with
      | none => rfl
      | some schema2 => rfl

theorem init_world {f raw raw' : Str} {sh sh1 : Shared} {inh : Inherit} (h : initShared env f raw sh = .ok (raw', sh1, inh)) :
    sh1.w = sh.w := by
  unfold initShared at h
  split at h
  · simp at h
  · dsimp only at h
    split at h
    · simp at h
    · split at h
      · simp at h
      · injection h with h
        injection h with _ h
        injection h with h _
        rw [← h]
        exact create_world _ _

theorem off_renderWith {n : Nat} {t : Tpl} {sc : Value} {sh : Shared} (hg : ∀ p, ¬ X p → g p = sh.w.fs p)
    (hn : ¬ InSomePass (Touches X env) env n t sh) :
    SameResult X (renderWith env n t sc (some sh)) (renderWith env n t sc (some (withFiles g sh))) := by
  unfold renderWith
  dsimp only
  rw [init_files]
  cases hi : initShared env t.filePath t.raw sh with
  | error p => rfl
  | ok r =>
    obtain ⟨raw, sh0, inh⟩ := r
    simp only [Except.map]
    have hf : ∀ k sh1 text1 only1, k ≤ n → PassOf env inh sh0 raw k sh1 text1 only1 →
        ¬ Somewhere (Touches X env) env sh1.max sh1 { inh with blockCount := inh.blockCount + 1 } text1 only1 :=
      fun k sh1 text1 only1 hk hp hs => hn ⟨raw, sh0, inh, hi, k, sh1, text1, only1, hk, hp, hs⟩
    have hg0 : ∀ p, ¬ X p → g p = sh0.w.fs p := by rw [init_world hi]; exact hg
    have hb := off_pass (env := env) (X := X) hg0 (hf 0 _ _ _ (by omega) .first)
    cases hp : pass env sh0 inh raw [] with
    | panic q =>
      rw [hp] at hb
      cases h2 : pass env (withFiles g sh0) inh raw [] <;> rw [h2] at hb <;> first | exact hb | exact hb.elim
    | oof =>
      rw [hp] at hb
      cases h2 : pass env (withFiles g sh0) inh raw [] <;> rw [h2] at hb <;> first | exact hb | exact hb.elim
    | ok out sh2 inh2 =>
      rw [hp] at hb
      cases h2 : pass env (withFiles g sh0) inh raw [] with
      | panic q => rw [h2] at hb; exact hb.elim
      | oof => rw [h2] at hb; exact hb.elim
      | ok out' sh2' inh2' =>
        rw [h2] at hb
        obtain ⟨rfl, rfl, g2, rfl, hg2⟩ := hb
        dsimp only
        have hl := off_loop (env := env) (X := X) n 0 sh0 sh2 g2 inh2' raw [] out' .first hp hg2
          (fun k sh1 text1 only1 hk hpk => hf k sh1 text1 only1 (by omega) hpk)
        revert hl
        generalize cacheLoop env inh n sh2 out' = r
        generalize cacheLoop env inh n (withFiles g2 sh2) out' = r'
        intro h
        cases r with
        | panic q => cases r' <;> first | exact h | exact h.elim
        | oof => cases r' <;> first | exact h | exact h.elim
        | ok x sh3 inh3 =>
          cases r' with
          | panic q => exact h.elim
          | oof => exact h.elim
          | ok x' sh3' inh3' =>
            obtain ⟨rfl, rfl, g3, rfl, hg3⟩ := h
            dsimp only
            have e : endsRender (withFiles g3 sh3) x' = endsRender sh3 x' := rfl
            rw [e]
            cases endsRender sh3 x' with
            | none => rfl
            | some o => exact ⟨_, ⟨g3, rfl, hg3⟩, rfl⟩

theorem new_files (w : World) (v : Value) :
    Shared.new env { w with fs := g } v = (Shared.new env w v).map (withFiles g) := by
  unfold Shared.new
  dsimp only
  split <;> rfl
theorem new_world {w : World} {v : Value} {sh : Shared} (h : Shared.new env w v = some sh) : sh.w = w := by
  unfold Shared.new at h
  dsimp only at h
  split at h
  · injection h with h; rw [← h]
  · simp at h
end

/-- **C91.** Two worlds that differ only in the files in `X` give the same render - output, status, errors, and the other files
afterwards - unless a BIF evaluated in it may look at a file in `X`. -/
theorem C91_files (X : Str → Prop) (env : Env) (n : Nat) (w w' : World) (t : Tpl) (htick : w'.tick = w.tick)
    (hfs : ∀ p, ¬ X p → w'.fs p = w.fs p)
    (hn : ∀ sh, Shared.new env w t.schema = some sh → ¬ InSomePass (Touches X env) env n t sh) :
    SameResult X (t.render env n w) (t.render env n w') := by
  have hw : w' = { w with fs := w'.fs } := by cases w; cases w'; simp_all
  unfold Tpl.render
  split
  · exact ⟨_, ⟨_, rfl, fun _ _ => rfl⟩, rfl⟩
  · rw [hw, new_files (g := w'.fs)]
    cases hs : Shared.new env w t.schema with
    | none => rfl
    | some sh => exact off_renderWith (by rw [new_world hs]; exact hfs) (hn sh hs)

/-- ... and for `render_once`. -/
theorem C91_files_once (X : Str → Prop) (env : Env) (n : Nat) (w w' : World) (t : Tpl) (htick : w'.tick = w.tick)
    (hfs : ∀ p, ¬ X p → w'.fs p = w.fs p)
    (hn : ∀ sh, Shared.new env w t.schema = some sh → ¬ InSomePass (Touches X env) env n t sh) :
    SameResult X (t.renderOnce env n w) (t.renderOnce env n w') := by
  have hw : w' = { w with fs := w'.fs } := by cases w; cases w'; simp_all
  unfold Tpl.renderOnce
  rw [renderOnceWith_eq]
  split
  · exact ⟨_, ⟨_, rfl, fun _ _ => rfl⟩, rfl⟩
  · rw [hw, new_files (g := w'.fs)]
    cases hs : Shared.new env w t.schema with
    | none => rfl
    | some sh => exact off_renderWith (by rw [new_world hs]; exact hfs) (hn sh hs)

/-- So a user observes the same. -/
theorem C91_observed (X : Str → Prop) (env : Env) (n : Nat) (w w' : World) (t : Tpl) (htick : w'.tick = w.tick)
    (hfs : ∀ p, ¬ X p → w'.fs p = w.fs p)
    (hn : ∀ sh, Shared.new env w t.schema = some sh → ¬ InSomePass (Touches X env) env n t sh) :
    (t.render env n w').observe = (t.render env n w).observe := by
  have h := C91_files X env n w w' t htick hfs hn
  revert h
  generalize t.render env n w = r
  generalize t.render env n w' = r'
  intro h
  cases r with
  | panic q =>
    cases r' with
    | panic q' => rw [show q' = q from h]
    | _ => exact h.elim
  | oof => cases r' <;> first | rfl | exact h.elim
  | ok t1 =>
    cases r' with
    | ok t2 =>
      obtain ⟨sh', ⟨g, rfl, _⟩, rfl⟩ := h
      rfl
    | _ => exact h.elim

/-! ### examples -/

/-- The hypotheses can be met: `lang` looks at no file at all. -/
example (w' : World) (h : w'.tick = 0) :
    ((Sample.tpl (Sample.schema 1000 [] Sample.inherit) c!"a{:lang;:}b{:lang;:}").render Sample.env 0 w').observe =
    ((Sample.tpl (Sample.schema 1000 [] Sample.inherit) c!"a{:lang;:}b{:lang;:}").render Sample.env 0 Sample.files).observe := by
  refine C91_observed (fun _ => True) _ _ Sample.files w' _ h (fun p hp => absurd trivial hp) (fun sh _ hp => ?_)
  obtain ⟨R, sh2, inh2, only, name, s, hst, k, s1, hm, path, _, hl⟩ := Sample.lang_pass _ sh hp
  have hn := Sample.lang_started hst
  subst hn
  rcases hl with ⟨h, _⟩ | ⟨h, _⟩ | ⟨h, _⟩ | h <;> simp at h

/-- The sample files, with another `a.ntpl`. -/
def Sample.changed : World :=
  ⟨fun p => if p = c!"a.ntpl" then some (Sample.file c!"other") else Sample.files.fs p, 0⟩

set_option maxRecDepth 10000 in
/-- A change of the included file is seen, also when it is included by another file; the change of another file is not. -/
example : (Sample.outOf ((Sample.tpl (Sample.schema 1000 [] Sample.inherit) c!"{:include; b.ntpl :}").render Sample.env 9 Sample.files)).map (·.1) ≠
      (Sample.outOf ((Sample.tpl (Sample.schema 1000 [] Sample.inherit) c!"{:include; b.ntpl :}").render Sample.env 9 Sample.changed)).map (·.1) ∧
    (Sample.outOf ((Sample.tpl (Sample.schema 1000 [] Sample.inherit) c!"{:include; c.ntpl :}-").render Sample.env 9 Sample.files)).map (·.1) =
      (Sample.outOf ((Sample.tpl (Sample.schema 1000 [] Sample.inherit) c!"{:include; c.ntpl :}-").render Sample.env 9 Sample.changed)).map (·.1) := by
  decide +kernel

end Nts
