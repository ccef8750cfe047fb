import Verif.Lemmas.RunBif
import Verif.Lemmas.Ops
/-
The same state in a pass that evaluates only some BIFs: what the bodies of the BIFs do not read.
-/
set_option autoImplicit false
namespace Nts

/-- The state, in a pass that evaluates only the BIFs named in `o`. -/
def withOnly (o : Str) (s : St) : St := { s with only := o }

/-! ### programs that do not see the difference -/

/-- The program does not see which BIFs the pass evaluates: what it does after reading the state is the same. -/
def Heed (ol : Str) {α : Type} : Prog α → Prop
  | .pure _ => True
  | .throw _ => True
  | .panic _ => True
  | .op .get k => (∀ s, k (withOnly ol s) = k s) ∧ ∀ s, Heed ol (k s)
  | .op _ k => ∀ r, Heed ol (k r)

section
variable {ol : Str}

theorem heed_op {α : Type} {o : Op} {k : o.Resp → Prog α} (h : o ≠ .get) : Heed ol (.op o k) ↔ ∀ r, Heed ol (k r) := by
  cases o with
  | get => exact absurd rfl h
  | _ => exact Iff.rfl

theorem heed_bind {α β : Type} {p : Prog α} {f : α → Prog β} (h : Heed ol p) (hf : ∀ a, Heed ol (f a)) : Heed ol (p >>= f) := by
  show Heed ol (Prog.bind p f)
  induction p with
  | pure a => exact hf a
  | throw e => trivial
  | panic q => trivial
  | op o k ih =>
    by_cases ho : o = .get
    · subst ho
      exact ⟨fun s => congrArg (fun p => Prog.bind p f) (h.1 s), fun s => ih s (h.2 s)⟩
    · exact (heed_op ho).2 fun r => ih r ((heed_op ho).1 h r)

theorem heed_bind' {α β : Type} {p : Prog α} {f : α → Prog β} (h : Heed ol p) (hf : ∀ a, Heed ol (f a)) : Heed ol (Prog.bind p f) :=
  heed_bind h hf

theorem heed_pure {α : Type} (a : α) : Heed ol (.pure a) := trivial
theorem heed_return {α : Type} (a : α) : Heed ol (pure a) := trivial
theorem heed_panic {α : Type} (p : Panic) : Heed ol (.panic p : Prog α) := trivial
theorem heed_error {α : Type} (msg : Str) : Heed ol (bifError msg : Prog α) := ⟨fun _ => rfl, fun _ => trivial⟩
theorem heed_get {β : Type} {k : St → Prog β} (hk : ∀ s, k (withOnly ol s) = k s) (h : ∀ s, Heed ol (k s)) : Heed ol (getSt >>= k) := ⟨hk, h⟩
theorem heed_perform (o : Op) (h : o ≠ .get) : Heed ol (perform o) := (heed_op h).2 fun _ => trivial
theorem heed_modB (g : BifS → BifS) : Heed ol (modB g) := fun _ => trivial
theorem heed_tick : Heed ol tick := fun _ => trivial
theorem heed_child (x : Str) (b : Bool) : Heed ol (childParse x b) := fun _ => trivial
theorem heed_setData (k v : Str) : Heed ol (setData k v) := fun _ => trivial
theorem heed_ite {α : Type} {c : Prop} [Decidable c] {p q : Prog α} (h1 : Heed ol p) (h2 : Heed ol q) : Heed ol (if c then p else q) := by
  split
  · exact h1
  · exact h2

macro "heed_see" : tactic => `(tactic| (intro s; rfl))

/-- Decompose a program. -/
macro "heed_step" : tactic => `(tactic| first
  | with_reducible exact heed_pure _
  | with_reducible exact heed_return _
  | with_reducible exact heed_panic _
  | with_reducible exact heed_error _
  | with_reducible exact heed_tick
  | with_reducible exact heed_child _ _
  | with_reducible exact heed_setData _ _
  | with_reducible exact heed_modB _
  | ((with_reducible refine heed_perform _ ?_); focus (intros; intro h; cases h; done))
  | ((with_reducible refine heed_get ?_ (fun s => ?_)); focus heed_see)
  | with_reducible refine heed_bind ?_ (fun _ => ?_)
  | with_reducible refine heed_bind' ?_ (fun _ => ?_)
  | with_reducible refine heed_ite ?_ ?_
  | split
  | dsimp only)

theorem heed_denyMods (f : BifS → Bool) : Heed ol (denyMods f) := by
  unfold denyMods
  refine heed_get ?_ (fun s => ?_)
  · heed_see
  repeat' heed_step
theorem heed_denyFlags : Heed ol denyFlags := by unfold denyFlags; repeat' heed_step
theorem heed_denyFlgParams : Heed ol denyFlgParams := by unfold denyFlgParams; repeat' heed_step
theorem heed_checkFlags (l : List Str) : Heed ol (checkFlags l) := by unfold checkFlags; repeat' heed_step
theorem heed_setCode (x : Str) : Heed ol (setCode x) := heed_modB _
theorem heed_parseCode (b : Bool) : Heed ol (parseCode b) := by
  unfold parseCode; repeat' (first | with_reducible exact heed_setCode _ | heed_step)
theorem heed_setParams (x : Str) : Heed ol (setParams x) := heed_modB _
theorem heed_setOut (x : Str) : Heed ol (setOut x) := heed_modB _
theorem heed_setSrc (x : Str) : Heed ol (setSrc x) := heed_modB _
theorem heed_setAlias (x : Str) : Heed ol (setAlias x) := heed_modB _
theorem heed_setFilePath (x : Str) : Heed ol (setFilePath x) := heed_modB _
theorem heed_setDir (x : Str) : Heed ol (setDir x) := heed_modB _
theorem heed_outCode : Heed ol outCode := heed_modB _
theorem heed_extract (b : Bool) : Heed ol (extractParamsCode b) := by
  unfold extractParamsCode
  repeat' (first | with_reducible exact heed_setParams _ | heed_step)
theorem heed_argLoop (l : List Str) : Heed ol (argLoop l) := by
  induction l with
  | nil => exact heed_pure _
  | cons a r ih =>
    unfold argLoop
    repeat' (first | with_reducible exact ih | heed_step)
theorem heed_extractArgs : Heed ol extractArgs := by
  unfold extractArgs
  repeat' (first | with_reducible exact heed_argLoop _ | heed_step)
theorem heed_argReq (l : List Str) (i : Nat) (m : Str) : Heed ol (argReq l i m) := by
  unfold argReq; repeat' heed_step
theorem heed_requireAllow (a b : Str) : Heed ol (requireAllow a b) := by
  unfold requireAllow; repeat' heed_step
theorem heed_canon (env : Env) (p : Str) : Heed ol (canonUnwrap env p) := by
  unfold canonUnwrap; repeat' heed_step
theorem heed_forList {β : Type} (l : List β) (f : β → Prog Unit) (h : ∀ x, Heed ol (f x)) : Heed ol (forList l f) := by
  induction l with
  | nil => exact heed_pure _
  | cons a r ih => exact heed_bind' (h a) (fun _ => ih)

macro "heed_mid" : tactic => `(tactic| first
  | with_reducible exact heed_denyMods _
  | with_reducible exact heed_denyFlags
  | with_reducible exact heed_denyFlgParams
  | with_reducible exact heed_checkFlags _
  | with_reducible exact heed_extract _
  | with_reducible exact heed_parseCode _
  | with_reducible exact heed_extractArgs
  | with_reducible exact heed_argReq _ _ _
  | with_reducible exact heed_requireAllow _ _
  | with_reducible exact heed_canon _ _
  | with_reducible exact heed_setCode _
  | with_reducible exact heed_setParams _
  | with_reducible exact heed_setOut _
  | with_reducible exact heed_setSrc _
  | with_reducible exact heed_setAlias _
  | with_reducible exact heed_setFilePath _
  | with_reducible exact heed_setDir _
  | with_reducible exact heed_outCode
  | with_reducible refine heed_forList _ _ (fun _ => ?_)
  | heed_step)

theorem heed_resolve : Heed ol resolveFilePath := by
  unfold resolveFilePath
  repeat' heed_mid
theorem heed_cond (t : Value → Str → Bool) : Heed ol (condBif t) := by unfold condBif; repeat' heed_mid
theorem heed_cmp (t : Str → Str → Bool) : Heed ol (cmpBif t) := by unfold cmpBif; repeat' heed_mid
theorem heed_allow (env : Env) : Heed ol (bifAllow env) := by unfold bifAllow; repeat' heed_mid
theorem heed_coalesce : Heed ol bifCoalesce := by unfold bifCoalesce; repeat' heed_mid
theorem heed_code : Heed ol bifCode := by unfold bifCode; repeat' heed_mid
theorem heed_count (env : Env) : Heed ol (bifCount env) := by unfold bifCount; repeat' heed_mid
theorem heed_mergeJson (env : Env) (sec : Str) (p : Value → Value) (t : Str) : Heed ol (mergeJson env sec p t) := by
  unfold mergeJson; repeat' heed_mid
theorem heed_data (env : Env) : Heed ol (bifData env) := by
  unfold bifData; repeat' (first | with_reducible exact heed_resolve | with_reducible exact heed_mergeJson _ _ _ _ | heed_mid)
theorem heed_locale (env : Env) : Heed ol (bifLocale env) := by
  unfold bifLocale; repeat' (first | with_reducible exact heed_resolve | with_reducible exact heed_mergeJson _ _ _ _ | heed_mid)
theorem heed_date (env : Env) : Heed ol (bifDate env) := by unfold bifDate; repeat' heed_mid
theorem heed_declare : Heed ol bifDeclare := by unfold bifDeclare; repeat' heed_mid
theorem heed_eachIter (k v x : Str) (y : Value) (bs : List (Nat × Nat)) : Heed ol (eachIter k v x y bs) := by
  unfold eachIter; repeat' heed_mid
theorem heed_each : Heed ol bifEach := by
  unfold bifEach; repeat' (first | with_reducible exact heed_eachIter _ _ _ _ _ | heed_mid)
theorem heed_else : Heed ol bifElse := by unfold bifElse; repeat' heed_mid
theorem heed_eval (env : Env) : Heed ol (bifEval env) := by unfold bifEval; repeat' heed_mid
theorem heed_outUncached : Heed ol outUncached := by unfold outUncached; repeat' heed_mid
theorem heed_exit : Heed ol bifExit := by unfold bifExit; repeat' (first | with_reducible exact heed_outUncached | heed_mid)
theorem heed_flg : Heed ol bifFlg := by unfold bifFlg; repeat' heed_mid
theorem heed_forIter (v x : Str) (bs : List (Nat × Nat)) : Heed ol (forIter v x bs) := by
  unfold forIter; repeat' heed_mid
theorem heed_for (env : Env) : Heed ol (bifFor env) := by
  unfold bifFor; repeat' (first | with_reducible exact heed_forIter _ _ _ | heed_mid)
theorem heed_hash (env : Env) : Heed ol (bifHash env) := by unfold bifHash; repeat' heed_mid
theorem heed_join (env : Env) : Heed ol (bifJoin env) := by unfold bifJoin; repeat' heed_mid
theorem heed_lang : Heed ol bifLang := by unfold bifLang; repeat' heed_mid
theorem heed_param (env : Env) : Heed ol (bifParam env) := by unfold bifParam; repeat' heed_mid
theorem heed_rand (env : Env) : Heed ol (bifRand env) := by unfold bifRand; repeat' heed_mid
theorem heed_replace : Heed ol bifReplace := by unfold bifReplace; repeat' heed_mid
theorem heed_snippet (env : Env) : Heed ol (bifSnippet env) := by unfold bifSnippet; repeat' heed_mid
theorem heed_sum (env : Env) : Heed ol (bifSum env) := by unfold bifSum; repeat' heed_mid
theorem heed_trans (env : Env) : Heed ol (bifTrans env) := by unfold bifTrans; repeat' heed_mid
theorem heed_unknown : Heed ol bifUnknown := by unfold bifUnknown; repeat' heed_mid

theorem heed_neutral : Heed ol bifNeutral := by unfold bifNeutral; repeat' heed_mid
theorem heed_moveto (env : Env) : Heed ol (bifMoveto env) := by unfold bifMoveto; repeat' (first | with_reducible exact heed_outUncached | heed_mid)
theorem heed_redirect : Heed ol bifRedirect := by
  unfold bifRedirect; repeat' (first | with_reducible exact heed_outUncached | heed_mid)

theorem heed_var (env : Env) : Heed ol (bifVar env) := by unfold bifVar; repeat' heed_mid
theorem heed_fetch (env : Env) : Heed ol (bifFetch env) := by unfold bifFetch; repeat' heed_mid
theorem heed_include (env : Env) : Heed ol (bifInclude env) := by
  unfold bifInclude; repeat' (first | with_reducible exact heed_resolve | heed_mid)
theorem heed_cacheParse (b : Bool) (f : Str → Prog Unit) (h : ∀ x, Heed ol (f x)) : Heed ol (cacheParse b f) := by
  unfold cacheParse; repeat' (first | with_reducible exact h _ | heed_mid)
theorem heed_cacheStore (env : Env) (b : Bool) (d f : Str) : Heed ol (cacheStore env b d f) := by
  unfold cacheStore; repeat' (first | with_reducible exact heed_cacheParse _ _ (fun _ => heed_setCode _) | heed_mid)
theorem heed_cacheLookup (env : Env) (b : Bool) (d f e : Str) : Heed ol (cacheLookup env b d f e) := by
  unfold cacheLookup
  repeat' (first | with_reducible exact heed_cacheStore _ _ _ _ | with_reducible exact heed_cacheParse _ _ (fun _ => heed_setOut _) | heed_mid)

theorem heed_cache (env : Env) : Heed ol (bifCache env) := by
  unfold bifCache; repeat' (first | with_reducible exact heed_cacheLookup _ _ _ _ _ | heed_mid)
theorem heed_debugEnable (env : Env) : Heed ol (debugEnable env) := by unfold debugEnable; repeat' heed_mid
theorem heed_debug (env : Env) : Heed ol (bifDebug env) := by
  unfold bifDebug; repeat' (first | with_reducible exact heed_debugEnable _ | heed_mid)
theorem heed_objString (x : Str) : Heed ol (objString x) := by unfold objString; repeat' heed_mid

mutual
theorem heed_objEntry (b : Bool) (k : Str) : ∀ v, Heed ol (objEntry b k v)
  | .str x => by unfold objEntry; repeat' (first | with_reducible exact heed_objString _ | heed_mid)
  | .obj _ => by unfold objEntry; repeat' (first | with_reducible exact heed_objEntries _ _ | heed_mid)
  | .null => by unfold objEntry; exact heed_pure _
  | .bool _ => by unfold objEntry; exact heed_pure _
  | .num _ => by unfold objEntry; exact heed_pure _
  | .arr _ => by unfold objEntry; exact heed_pure _
theorem heed_objEntries (b : Bool) : ∀ l, Heed ol (objEntries b l)
  | [] => by unfold objEntries; exact heed_pure _
  | (k, v) :: r => by
    unfold objEntries
    exact heed_bind' (heed_objEntry b k v) (fun _ => heed_bind' (heed_objEntries b r) (fun _ => heed_pure _))
end

theorem heed_objSource (env : Env) : Heed ol (objSource env) := by unfold objSource; repeat' heed_mid
theorem heed_objVenv (v : Value) (d : Str) : Heed ol (objVenv v d) := by unfold objVenv; repeat' heed_mid
theorem heed_bridge (env : Env) (f : Str) : Heed ol (ensureBridge env f) := by unfold ensureBridge; repeat' heed_mid
theorem heed_objCall (env : Env) (v : Value) (p : Bool) (f : Str) : Heed ol (objCall env v p f) := by
  unfold objCall; repeat' (first | with_reducible exact heed_objVenv _ _ | with_reducible exact heed_bridge _ _ | heed_mid)
theorem heed_parseObj (v : Value) : Heed ol (parseObjValues v) := by
  unfold parseObjValues; repeat' (first | with_reducible exact heed_objEntries _ _ | heed_mid)
theorem heed_obj (env : Env) : Heed ol (bifObj env) := by
  unfold bifObj
  repeat' (first | with_reducible exact heed_objSource _ | with_reducible exact heed_objCall _ _ _ _ | with_reducible exact heed_parseObj _ | heed_mid)

theorem heed_body (env : Env) (name : Str) : Heed ol (bifBody env name) := by
  unfold bifBody
  refine heed_ite (heed_var env) ?_
  refine heed_ite (heed_allow env) ?_
  refine heed_ite (heed_cond _) ?_
  refine heed_ite (heed_cond _) ?_
  refine heed_ite (heed_cache env) ?_
  refine heed_ite (heed_coalesce) ?_
  refine heed_ite (heed_code) ?_
  refine heed_ite (heed_cmp _) ?_
  refine heed_ite (heed_count env) ?_
  refine heed_ite (heed_data env) ?_
  refine heed_ite (heed_date env) ?_
  refine heed_ite (heed_declare) ?_
  refine heed_ite (heed_cond _) ?_
  refine heed_ite (heed_each) ?_
  refine heed_ite (heed_else) ?_
  refine heed_ite (heed_eval env) ?_
  refine heed_ite (heed_exit) ?_
  refine heed_ite (heed_fetch env) ?_
  refine heed_ite (heed_cond _) ?_
  refine heed_ite (heed_flg) ?_
  refine heed_ite (heed_for env) ?_
  refine heed_ite (heed_hash env) ?_
  refine heed_ite (heed_include env) ?_
  refine heed_ite (heed_join env) ?_
  refine heed_ite (heed_lang) ?_
  refine heed_ite (heed_locale env) ?_
  refine heed_ite (heed_moveto env) ?_
  refine heed_ite (heed_neutral) ?_
  refine heed_ite (heed_param env) ?_
  refine heed_ite (heed_rand env) ?_
  refine heed_ite (heed_redirect) ?_
  refine heed_ite (heed_replace) ?_
  refine heed_ite (heed_cmp _) ?_
  refine heed_ite (heed_snippet env) ?_
  refine heed_ite (heed_snippet env) ?_
  refine heed_ite (heed_sum env) ?_
  refine heed_ite (heed_trans env) ?_
  refine heed_ite (heed_obj env) ?_
  exact heed_ite (heed_debug env) heed_unknown

end

end Nts
