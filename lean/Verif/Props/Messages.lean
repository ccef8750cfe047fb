import Verif.Props.Errors
/-
C89: the messages of the errors.
-/
set_option autoImplicit false
namespace Nts
open Spec

/-! ### specification -/

/-- The messages of each BIF that are fixed texts, besides `modifier not allowed`. -/
def Spec.messages : List (Str × List Str) := [
  ([], [c!"insecure varname"]),
  (c!"array", [c!"flags not allowed"]),
  (c!"bool", [c!"flags not allowed"]),
  (c!"cache", [c!"flags not allowed", c!"arguments 'expires' not found"]),
  (c!"contains", [c!"flags not allowed", c!"arguments not found"]),
  (c!"count", [c!"argument is not a number", c!"Bif 'count' is deprecated"]),
  (c!"data", [c!"flags not allowed", c!"not a valid JSON file", c!"insecure file name", c!"file not found"]),
  (c!"date", [c!"flags not allowed"]),
  (c!"debug", [c!"Debug is disabled. Remember to remove the bif debug in production."]),
  (c!"declare", [c!"flags not allowed", c!"declare cannot be set here"]),
  (c!"defined", [c!"flags not allowed"]),
  (c!"each", [c!"flags not allowed", c!"arguments not found", c!"arguments 'key' not found", c!"arguments 'value' not found",
    c!"insecure varname"]),
  (c!"else", [c!"flags not allowed"]),
  (c!"eval", [c!"flags not allowed"]),
  (c!"exit", [c!"flags not allowed"]),
  (c!"fetch", [c!"flags not allowed", c!"arguments not found"]),
  (c!"filled", [c!"flags not allowed"]),
  (c!"flg", [c!"flags not allowed"]),
  (c!"for", [c!"flags not allowed", c!"arguments not found", c!"arguments 'from' and 'to' not found", c!"arguments 'to' not found",
    c!"argument is not a number"]),
  (c!"include", [c!"insecure file name", c!"file not found"]),
  (c!"join", [c!"arguments 'array' not found", c!"arguments 'separator' not found"]),
  (c!"locale", [c!"flags not allowed", c!"not a valid JSON file", c!"insecure file name", c!"file not found"]),
  (c!"moveto", [c!"flags not allowed"]),
  (c!"param", [c!"flags not allowed", c!"param cannot be set here"]),
  (c!"rand", [c!"arguments not found", c!"argument is not a number", c!"from > to"]),
  (c!"redirect", [c!"flags not allowed", c!"this redirection requires URL", c!"status code not allowed", c!"redirect type not allowed"]),
  (c!"replace", [c!"flags not allowed", c!"arguments not found"]),
  (c!"same", [c!"flags not allowed", c!"arguments not found"]),
  (c!"snippet", [c!"snippet cannot be set here"]),
  (c!"snip", [c!"snippet cannot be set here"]),
  (c!"sum", [c!"flags not allowed", c!"arguments not found", c!"invalid argument 1", c!"invalid argument 2"])]

/-- The messages that tell something of the BIF: what they begin and end with. -/
def Spec.messageForms : List (Str × Str × Str) := [
  (c!"allow", [], c!" flag not allowed"),
  (c!"allow", [], c!" declared is empty"),
  (c!"code", [], c!" flag not allowed"),
  (c!"include", [], c!" flag not allowed"),
  (c!"snippet", [], c!" flag not allowed"),
  (c!"snip", [], c!" flag not allowed"),
  (c!"each", c!"Unmatched block at position ", []),
  (c!"for", c!"Unmatched block at position ", []),
  (c!"cache", c!"Failed to read cache ", []),
  (c!"cache", c!"Failed to create cache directory ", []),
  (c!"cache", c!"Failed to create file ", []),
  (c!"cache", c!"Failed to write to cache ", [])]

/-- `msg` is a message of the BIF `name`; for `obj`, whose messages are also those of the two interpreters, anything is. -/
def Spec.Message (name msg : Str) : Prop :=
  if name ∈ accepts.map (·.1) then
    msg = c!"modifier not allowed" ∨ (∃ l, (name, l) ∈ messages ∧ msg ∈ l) ∨
      (∃ f ∈ messageForms, f.1 = name ∧ f.2.1 <+: msg ∧ f.2.2 <:+ msg) ∨ name = c!"obj"
  else msg = c!"unknown bif"

/-! ### what the bodies raise -/

/-- The errors of the program carry messages of `N`. -/
def Tells (N : Str) {α : Type} (p : Prog α) : Prop :=
  ∀ R s e s', run R p s = .err e s' → Message N e.msg

theorem msg_fixed {N msg : Str} (h : N ∈ accepts.map (·.1))
    (h' : ((messages.find? (fun p => p.1 == N)).map (fun p => decide (msg ∈ p.2))) = some true) : Message N msg := by
  unfold Message
  rw [if_pos h]
  refine .inr (.inl ?_)
  cases hf : messages.find? (fun p => p.1 == N) with
  | none => rw [hf] at h'; simp at h'
  | some p =>
    rw [hf] at h'
    simp only [Option.map_some, Option.some.injEq, decide_eq_true_eq] at h'
    have h1 := List.find?_some hf
    have h2 := List.mem_of_find?_eq_some hf
    simp only [beq_iff_eq] at h1
    subst h1
    exact ⟨p.2, h2, h'⟩
theorem msg_mod {N : Str} (h : N ∈ accepts.map (·.1)) : Message N c!"modifier not allowed" := by
  unfold Message; rw [if_pos h]; exact .inl rfl
theorem msg_suffix {N x post : Str} (h : N ∈ accepts.map (·.1)) (h' : (N, [], post) ∈ messageForms) : Message N (x ++ post) := by
  unfold Message; rw [if_pos h]
  exact .inr (.inr (.inl ⟨_, h', rfl, List.nil_prefix, List.suffix_append _ _⟩))
theorem msg_prefix {N x pre : Str} (h : N ∈ accepts.map (·.1)) (h' : (N, pre, []) ∈ messageForms) : Message N (pre ++ x) := by
  unfold Message; rw [if_pos h]
  exact .inr (.inr (.inl ⟨_, h', rfl, List.prefix_append _ _, List.nil_suffix⟩))
theorem msg_obj (x : Str) : Message c!"obj" x := by
  unfold Message; rw [if_pos (by decide)]
  exact .inr (.inr (.inr rfl))

macro "msg" : tactic => `(tactic| first
  | assumption
  | exact msg_obj _
  | exact msg_mod (by decide)
  | exact msg_fixed (by decide) (by decide)
  | exact msg_suffix (by decide) (by decide)
  | exact fun _ => msg_suffix (by decide) (by decide)
  | exact msg_prefix (by decide) (by decide)
  | (simp only [List.append_assoc]; exact msg_prefix (by decide) (by decide))
  | solve_by_elim)

section
variable {N : Str}

theorem tl_bind' {α β : Type} {p : Prog α} {f : α → Prog β} (hp : Tells N p) (hf : ∀ a, Tells N (f a)) : Tells N (p.bind f) := by
  intro R s e s' h
  rw [run_bind'] at h
  cases hr : run R p s with
  | ok a s1 => rw [hr] at h; exact hf a R s1 e s' h
  | err e1 s1 =>
    rw [hr] at h
    injection h with h1 _
    rw [← h1]
    exact hp R s e1 s1 hr
  | panic q => rw [hr] at h; simp at h
  | oof => rw [hr] at h; simp at h
theorem tl_bind {α β : Type} {p : Prog α} {f : α → Prog β} (hp : Tells N p) (hf : ∀ a, Tells N (f a)) : Tells N (p >>= f) :=
  tl_bind' hp hf
theorem tl_op (o : Op) : Tells N (perform o) := by
  intro R s e s' h
  unfold perform at h
  simp only [run] at h
  cases hst : step R o s with
  | ok r s' => rw [hst] at h; simp at h
  | panic q => rw [hst] at h; simp at h
  | oof => rw [hst] at h; simp at h
theorem tl_pure {α : Type} (a : α) : Tells N (Prog.pure a) := by
  intro R s e s' h
  simp [run] at h
theorem tl_pure' {α : Type} (a : α) : Tells N (pure a : Prog α) := tl_pure a
theorem tl_get : Tells N getSt := tl_op _
theorem tl_modB (f : BifS → BifS) : Tells N (modB f) := tl_op _
theorem tl_panic {α : Type} (p : Panic) : Tells N (.panic p : Prog α) := by
  intro R s e s' h
  simp [run] at h
theorem tl_error {α : Type} {m : Str} (h : Message N m) : Tells N (bifError m : Prog α) := by
  intro R s e s' hr
  have : run R (bifError m : Prog α) s = .err (errOf s m) s := rfl
  rw [this] at hr
  simp only [Res.err.injEq] at hr
  rw [← hr.1]
  exact h
theorem tl_child (x : Str) (b : Bool) : Tells N (childParse x b) := tl_op (.child x b)
theorem tl_setCode (x : Str) : Tells N (setCode x) := tl_modB _
theorem tl_setParams (x : Str) : Tells N (setParams x) := tl_modB _
theorem tl_setOut (x : Str) : Tells N (setOut x) := tl_modB _
theorem tl_setSrc (x : Str) : Tells N (setSrc x) := tl_modB _
theorem tl_setAlias (x : Str) : Tells N (setAlias x) := tl_modB _
theorem tl_setFilePath (x : Str) : Tells N (setFilePath x) := tl_modB _
theorem tl_setDir (x : Str) : Tells N (setDir x) := tl_modB _
theorem tl_setData (a b : Str) : Tells N (setData a b) := tl_op (.setData _ _)
theorem tl_outCode : Tells N outCode := tl_modB _
theorem tl_tick : Tells N tick := tl_op .tick

macro "tl_step" : tactic => `(tactic| first
  | with_reducible refine tl_bind ?_ (fun _ => ?_)
  | with_reducible refine tl_bind' ?_ (fun _ => ?_)
  | with_reducible exact tl_get
  | with_reducible exact tl_modB _
  | with_reducible exact tl_pure _
  | with_reducible exact tl_pure' _
  | with_reducible exact tl_panic _
  | ((with_reducible refine tl_error ?_); msg)
  | with_reducible exact tl_child _ _
  | with_reducible exact tl_setCode _
  | with_reducible exact tl_setParams _
  | with_reducible exact tl_setOut _
  | with_reducible exact tl_setSrc _
  | with_reducible exact tl_setAlias _
  | with_reducible exact tl_setFilePath _
  | with_reducible exact tl_setDir _
  | with_reducible exact tl_setData _ _
  | with_reducible exact tl_outCode
  | with_reducible exact tl_tick
  | with_reducible exact tl_op _
  | split
  | dsimp only)

theorem tl_denyMods (h0 : Message N c!"modifier not allowed") (f : BifS → Bool) : Tells N (denyMods f) := by unfold denyMods; repeat' tl_step
theorem tl_denyFlags (h1 : Message N c!"flags not allowed") : Tells N denyFlags := by unfold denyFlags; repeat' tl_step
theorem tl_denyFlgParams (h1 : Message N c!"flags not allowed") : Tells N denyFlgParams := by unfold denyFlgParams; repeat' tl_step
theorem tl_checkFlags (h2 : ∀ f : Str, Message N (f ++ c!" flag not allowed")) (l : List Str) : Tells N (checkFlags l) := by unfold checkFlags; repeat' tl_step
theorem tl_extract (b : Bool) : Tells N (extractParamsCode b) := by unfold extractParamsCode; repeat' tl_step
theorem tl_parseCode (b : Bool) : Tells N (parseCode b) := by unfold parseCode; repeat' tl_step
theorem tl_argLoop (l : List Str) : Tells N (argLoop l) := by
  induction l with
  | nil => exact tl_pure _
  | cons a r ih => unfold argLoop; repeat' (first | exact ih | tl_step)
theorem tl_extractArgs : Tells N extractArgs := by
  unfold extractArgs; repeat' (first | exact tl_argLoop _ | tl_step)
theorem tl_argReq (l : List Str) (i : Nat) (m : Str) (hm : Message N m) : Tells N (argReq l i m) := by unfold argReq; repeat' tl_step
theorem tl_outUncached : Tells N outUncached := by unfold outUncached; repeat' tl_step
theorem tl_canon (env : Env) (p : Str) : Tells N (canonUnwrap env p) := by
  unfold canonUnwrap; repeat' tl_step
theorem tl_forList {β : Type} (l : List β) (f : β → Prog Unit) (h : ∀ x, Tells N (f x)) : Tells N (forList l f) := by
  induction l with
  | nil => exact tl_pure _
  | cons a r ih => exact tl_bind' (h a) (fun _ => ih)

macro "tl_mid" : tactic => `(tactic| first
  | ((with_reducible refine tl_denyMods ?_ _); msg)
  | ((with_reducible refine tl_denyFlags ?_); msg)
  | ((with_reducible refine tl_denyFlgParams ?_); msg)
  | ((with_reducible refine tl_checkFlags ?_ _); msg)
  | with_reducible exact tl_extract _
  | with_reducible exact tl_parseCode _
  | with_reducible exact tl_extractArgs
  | ((with_reducible refine tl_argReq _ _ _ ?_); msg)
  | with_reducible exact tl_outUncached
  | with_reducible exact tl_canon _ _
  | with_reducible refine tl_forList _ _ (fun _ => ?_)
  | tl_step)

theorem tl_cond (h0 : Message N c!"modifier not allowed") (h1 : Message N c!"flags not allowed") (t : Value → Str → Bool) : Tells N (condBif t) := by unfold condBif; repeat' tl_mid
theorem tl_cmp (h0 : Message N c!"modifier not allowed") (h1 : Message N c!"flags not allowed") (h2 : Message N c!"arguments not found") (t : Str → Str → Bool) : Tells N (cmpBif t) := by unfold cmpBif; repeat' tl_mid
theorem tl_debugEnable (env : Env) : Tells N (debugEnable env) := by unfold debugEnable; repeat' tl_mid
theorem tl_mergeJson (h2 : Message N c!"not a valid JSON file") (env : Env) (sec : Str) (part : Value → Value) (text : Str) :
    Tells N (mergeJson env sec part text) := by
  unfold mergeJson; repeat' tl_mid
theorem tl_allow (env : Env) : Tells c!"allow" (bifAllow env) := by unfold bifAllow; repeat' tl_mid
theorem tl_coalesce : Tells c!"coalesce" bifCoalesce := by unfold bifCoalesce; repeat' tl_mid
theorem tl_code : Tells c!"code" bifCode := by unfold bifCode; repeat' tl_mid
theorem tl_count (env : Env) : Tells c!"count" (bifCount env) := by unfold bifCount; repeat' tl_mid
theorem tl_date (env : Env) : Tells c!"date" (bifDate env) := by unfold bifDate; repeat' tl_mid
theorem tl_debug (env : Env) : Tells c!"debug" (bifDebug env) := by
  unfold bifDebug; repeat' (first | with_reducible exact tl_debugEnable _ | tl_mid)
theorem tl_declare : Tells c!"declare" bifDeclare := by unfold bifDeclare; repeat' tl_mid
theorem tl_each : Tells c!"each" bifEach := by unfold bifEach eachIter; repeat' tl_mid
theorem tl_else : Tells c!"else" bifElse := by unfold bifElse; repeat' tl_mid
theorem tl_eval (env : Env) : Tells c!"eval" (bifEval env) := by unfold bifEval; repeat' tl_mid
theorem tl_exit : Tells c!"exit" bifExit := by unfold bifExit; repeat' tl_mid
theorem tl_fetch (env : Env) : Tells c!"fetch" (bifFetch env) := by unfold bifFetch; repeat' tl_mid
theorem tl_flg : Tells c!"flg" bifFlg := by unfold bifFlg; repeat' tl_mid
theorem tl_for (env : Env) : Tells c!"for" (bifFor env) := by unfold bifFor forIter; repeat' tl_mid
theorem tl_hash (env : Env) : Tells c!"hash" (bifHash env) := by unfold bifHash; repeat' tl_mid
theorem tl_join (env : Env) : Tells c!"join" (bifJoin env) := by unfold bifJoin; repeat' tl_mid
theorem tl_lang : Tells c!"lang" bifLang := by unfold bifLang; repeat' tl_mid
theorem tl_moveto (env : Env) : Tells c!"moveto" (bifMoveto env) := by unfold bifMoveto; repeat' tl_mid
theorem tl_neutral : Tells c!"neutral" bifNeutral := by unfold bifNeutral; repeat' tl_mid
theorem tl_param (env : Env) : Tells c!"param" (bifParam env) := by unfold bifParam; repeat' tl_mid
theorem tl_rand (env : Env) : Tells c!"rand" (bifRand env) := by unfold bifRand; repeat' tl_mid
theorem redirectPlan_msg {a : Bool} {b c msg : Str} (h : redirectPlan a b c = .error msg) : Message c!"redirect" msg := by
  unfold redirectPlan at h
  repeat' split at h
  all_goals first | (simp only [Except.error.injEq] at h; subst h; msg) | simp at h
theorem tl_redirect : Tells c!"redirect" bifRedirect := by
  unfold bifRedirect
  repeat' (first | exact tl_error (redirectPlan_msg (by assumption)) | tl_mid)
theorem tl_replace : Tells c!"replace" bifReplace := by unfold bifReplace; repeat' tl_mid
theorem tl_snippet (hN : N = c!"snippet" ∨ N = c!"snip") (env : Env) : Tells N (bifSnippet env) := by rcases hN with rfl | rfl <;> unfold bifSnippet; repeat' tl_mid
theorem tl_sum (env : Env) : Tells c!"sum" (bifSum env) := by unfold bifSum; repeat' tl_mid
theorem tl_trans (env : Env) : Tells c!"trans" (bifTrans env) := by unfold bifTrans; repeat' tl_mid
theorem tl_cacheParse (b : Bool) (f : Str → Prog Unit) (h : ∀ x, Tells N (f x)) : Tells N (cacheParse b f) := by
  unfold cacheParse; repeat' (first | exact h _ | tl_mid)
theorem tl_cacheStore (env : Env) (b : Bool) (d f : Str) : Tells c!"cache" (cacheStore env b d f) := by
  unfold cacheStore; repeat' (first | with_reducible exact tl_cacheParse _ _ (fun _ => tl_setCode _) | tl_mid)
theorem tl_cacheLookup (env : Env) (b : Bool) (d f e : Str) : Tells c!"cache" (cacheLookup env b d f e) := by
  unfold cacheLookup
  repeat' (first
    | with_reducible exact tl_cacheStore _ _ _ _
    | with_reducible exact tl_cacheParse _ _ (fun _ => tl_setOut _)
    | tl_mid)
theorem tl_cache (env : Env) : Tells c!"cache" (bifCache env) := by
  unfold bifCache; repeat' (first | with_reducible exact tl_cacheLookup _ _ _ _ _ | tl_mid)
theorem tl_unknown (h2 : Message N c!"unknown bif")  : Tells N bifUnknown := by unfold bifUnknown; repeat' tl_mid
theorem tl_objVenv (o : Value) (d : Str) : Tells c!"obj" (objVenv o d) := by unfold objVenv; repeat' tl_mid
theorem tl_objCall (env : Env) (o : Value) (p : Bool) (f : Str) : Tells c!"obj" (objCall env o p f) := by
  unfold objCall ensureBridge; repeat' (first | with_reducible exact tl_objVenv _ _ | tl_mid)
mutual
theorem tl_objEntry (r : Bool) (k : Str) : ∀ v, Tells N (objEntry r k v)
  | .str x => by unfold objEntry objString; repeat' tl_mid
  | .obj o => by unfold objEntry; repeat' (first | exact tl_objEntries _ _ | tl_mid)
  | .null => by unfold objEntry; exact tl_pure _
  | .bool _ => by unfold objEntry; exact tl_pure _
  | .num _ => by unfold objEntry; exact tl_pure _
  | .arr _ => by unfold objEntry; exact tl_pure _
theorem tl_objEntries (r : Bool) : ∀ o, Tells N (objEntries r o)
  | [] => tl_pure _
  | (k, v) :: rest => by
    unfold objEntries
    exact tl_bind' (tl_objEntry r k v) (fun _ => tl_bind' (tl_objEntries r rest) (fun _ => tl_pure _))
end
theorem tl_parseObj (v : Value) : Tells N (parseObjValues v) := by
  cases v with
  | obj o => exact tl_bind' (tl_objEntries false o) (fun _ => tl_pure _)
  | _ => exact tl_pure _
theorem tl_requireAllow (a b : Str) (hm : Message N b) : Tells N (requireAllow a b) := by unfold requireAllow; repeat' tl_step
theorem tl_resolve (h2 : Message N c!"insecure file name") : Tells N resolveFilePath := by
  unfold resolveFilePath; repeat' (first | ((with_reducible refine tl_requireAllow _ _ ?_); msg) | tl_step)
theorem tl_var (env : Env) : Tells c!"" (bifVar env) := by
  unfold bifVar; repeat' (first | ((with_reducible refine tl_requireAllow _ _ ?_); msg) | tl_mid)
theorem tl_include (env : Env) : Tells c!"include" (bifInclude env) := by
  unfold bifInclude; repeat' (first | ((with_reducible refine tl_resolve ?_); msg) | tl_mid)
theorem tl_data (env : Env) : Tells c!"data" (bifData env) := by
  unfold bifData; repeat' (first | ((with_reducible refine tl_resolve ?_); msg) | ((with_reducible refine tl_mergeJson ?_ _ _ _ _); msg) | tl_mid)
theorem tl_locale (env : Env) : Tells c!"locale" (bifLocale env) := by
  unfold bifLocale; repeat' (first | ((with_reducible refine tl_resolve ?_); msg) | ((with_reducible refine tl_mergeJson ?_ _ _ _ _); msg) | tl_mid)
theorem tl_obj (env : Env) : Tells c!"obj" (bifObj env) := by
  unfold bifObj objSource
  repeat' (first
    | ((with_reducible refine tl_requireAllow _ _ ?_); msg)
    | with_reducible exact tl_parseObj _
    | with_reducible exact tl_objCall _ _ _ _
    | tl_mid)

theorem tl_ite {α : Type} {c : Prop} [Decidable c] {p q : Prog α} (h1 : c → Tells N p) (h2 : ¬ c → Tells N q) :
    Tells N (if c then p else q) := by
  by_cases h : c
  · rw [if_pos h]; exact h1 h
  · rw [if_neg h]; exact h2 h
end

theorem tells_body (env : Env) (name : Str) : Tells name (bifBody env name) := by
  unfold bifBody
  refine tl_ite (fun h => by rw [h]; exact tl_var env) (fun n0 => ?_)
  refine tl_ite (fun h => by rw [h]; exact tl_allow env) (fun n1 => ?_)
  refine tl_ite (fun h => by rw [h]; exact tl_cond (by msg) (by msg) _) (fun n2 => ?_)
  refine tl_ite (fun h => by rw [h]; exact tl_cond (by msg) (by msg) _) (fun n3 => ?_)
  refine tl_ite (fun h => by rw [h]; exact tl_cache env) (fun n4 => ?_)
  refine tl_ite (fun h => by rw [h]; exact tl_coalesce) (fun n5 => ?_)
  refine tl_ite (fun h => by rw [h]; exact tl_code) (fun n6 => ?_)
  refine tl_ite (fun h => by rw [h]; exact tl_cmp (by msg) (by msg) (by msg) _) (fun n7 => ?_)
  refine tl_ite (fun h => by rw [h]; exact tl_count env) (fun n8 => ?_)
  refine tl_ite (fun h => by rw [h]; exact tl_data env) (fun n9 => ?_)
  refine tl_ite (fun h => by rw [h]; exact tl_date env) (fun n10 => ?_)
  refine tl_ite (fun h => by rw [h]; exact tl_declare) (fun n11 => ?_)
  refine tl_ite (fun h => by rw [h]; exact tl_cond (by msg) (by msg) _) (fun n12 => ?_)
  refine tl_ite (fun h => by rw [h]; exact tl_each) (fun n13 => ?_)
  refine tl_ite (fun h => by rw [h]; exact tl_else) (fun n14 => ?_)
  refine tl_ite (fun h => by rw [h]; exact tl_eval env) (fun n15 => ?_)
  refine tl_ite (fun h => by rw [h]; exact tl_exit) (fun n16 => ?_)
  refine tl_ite (fun h => by rw [h]; exact tl_fetch env) (fun n17 => ?_)
  refine tl_ite (fun h => by rw [h]; exact tl_cond (by msg) (by msg) _) (fun n18 => ?_)
  refine tl_ite (fun h => by rw [h]; exact tl_flg) (fun n19 => ?_)
  refine tl_ite (fun h => by rw [h]; exact tl_for env) (fun n20 => ?_)
  refine tl_ite (fun h => by rw [h]; exact tl_hash env) (fun n21 => ?_)
  refine tl_ite (fun h => by rw [h]; exact tl_include env) (fun n22 => ?_)
  refine tl_ite (fun h => by rw [h]; exact tl_join env) (fun n23 => ?_)
  refine tl_ite (fun h => by rw [h]; exact tl_lang) (fun n24 => ?_)
  refine tl_ite (fun h => by rw [h]; exact tl_locale env) (fun n25 => ?_)
  refine tl_ite (fun h => by rw [h]; exact tl_moveto env) (fun n26 => ?_)
  refine tl_ite (fun h => by rw [h]; exact tl_neutral) (fun n27 => ?_)
  refine tl_ite (fun h => by rw [h]; exact tl_param env) (fun n28 => ?_)
  refine tl_ite (fun h => by rw [h]; exact tl_rand env) (fun n29 => ?_)
  refine tl_ite (fun h => by rw [h]; exact tl_redirect) (fun n30 => ?_)
  refine tl_ite (fun h => by rw [h]; exact tl_replace) (fun n31 => ?_)
  refine tl_ite (fun h => by rw [h]; exact tl_cmp (by msg) (by msg) (by msg) _) (fun n32 => ?_)
  refine tl_ite (fun h => by rw [h]; exact tl_snippet (by decide) env) (fun n33 => ?_)
  refine tl_ite (fun h => by rw [h]; exact tl_snippet (by decide) env) (fun n34 => ?_)
  refine tl_ite (fun h => by rw [h]; exact tl_sum env) (fun n35 => ?_)
  refine tl_ite (fun h => by rw [h]; exact tl_trans env) (fun n36 => ?_)
  refine tl_ite (fun h => by rw [h]; exact tl_obj env) (fun n37 => ?_)
  refine tl_ite (fun h => by rw [h]; exact tl_debug env) (fun n38 => ?_)
  refine tl_unknown ?_
  have hn : name ∉ accepts.map (fun p => p.1) := by
    intro this
    simp only [accepts, List.map_cons, List.map_nil, List.mem_cons, List.not_mem_nil, or_false] at this
    simp_all
  unfold Message
  rw [if_neg hn]

/-! ### the list of errors -/

/-- What an error line says: the BIF `name`, by the name errors call it, and one of its messages. -/
def Spec.ErrorOf (env : Env) (line : Str) : Prop :=
  (∃ raw, OneLine (c!"The delimiter was not found: " ++ raw) line) ∨
  ∃ tick name label msg file src, Called name label ∧ Message name msg ∧
    OneLine (report (env.localTime tick) label msg file src) line

theorem complains_errorOf {env : Env} {line : Str} {R : Rec} {raw only : Str} {sh : Shared} {inh : Inherit}
    (h : Complains env line R raw sh inh only) : ErrorOf env line := by
  rcases h with ⟨_, _, h⟩ | ⟨name, s, s1, e, _, hm, hc, hl⟩
  · exact .inl ⟨_, h⟩
  · exact .inr ⟨_, name, e.name, e.msg, _, _, hc, tells_body env name _ _ _ _ (run_err.2 hm), hl⟩

/-- **C89 (one BIF).** Whatever the body of a BIF does, from any state: if it fails, the message is one of those of the BIF. -/
theorem C89_body (env : Env) (R : Rec) (name : Str) (s s' : St) (e : BifErr) (h : run R (bifBody env name) s = .err e s') :
    Message name e.msg :=
  tells_body env name R s e s' h

/-- **C89.** For every template a program can hold, whatever was called before: every line of `get_error` tells of a BIF without `;`, or
calls a BIF by its name and gives one of the messages of that BIF. -/
theorem C89_messages (env : Env) (t : Tpl) (h : Reach env t) :
    ∃ lines : List Str, t.getError = .arr (lines.map .str) ∧ ∀ line ∈ lines, ErrorOf env line := by
  refine reach_shared (Q := fun sh => ∃ lines : List Str, errorsOf sh = .arr (lines.map .str) ∧ ∀ line ∈ lines,
    ErrorOf env line) ?_ ?_ h
  · intro w sh hs
    refine ⟨[], ?_, by simp⟩
    unfold errorsOf
    rw [(sharedNew_fields hs).1]
    rfl
  · intro n t t' sc w h
    cases hs : Shared.new env w t.schema with
    | none => rw [hs] at h; simp [renderWith] at h
    | some sh =>
      rw [hs] at h
      obtain ⟨lines, h1, h2⟩ := renderWith_errs h
      refine ⟨lines, h1, fun line hl => ?_⟩
      obtain ⟨_, _, _, _, _, _, _, _, _, _, _, _, _, _, _, _, _, hc⟩ := (h2 line).1 hl
      exact complains_errorOf hc

/-! ### examples -/

/-- Templates that fail, with the name and the message in their only error. -/
def Sample.failing : List (Str × Str × Str) :=
  [(c!"{:;{:;x:}:}", c!"var", c!"insecure varname"),
   (c!"{:+;x:}", c!"", c!"modifier not allowed"),
   (c!"{:array; {:flg; f :} a >> b :}", c!"array", c!"flags not allowed"),
   (c!"{:cache; {:flg; f :} /1/ >> b :}", c!"cache", c!"flags not allowed"),
   (c!"{:cache; >> x :}", c!"cache", c!"arguments 'expires' not found"),
   (c!"{:contains; a >> x :}", c!"contains", c!"arguments not found"),
   (c!"{:count; a >> b :}", c!"count", c!"argument is not a number"),
   (c!"{:count; a >> 1 :}", c!"count", c!"Bif 'count' is deprecated"),
   (c!"{:data; {:flg; f :} >> x :}", c!"data", c!"flags not allowed"),
   (c!"{:data; {:flg; inline :} >> x :}", c!"data", c!"not a valid JSON file"),
   (c!"{:data; {:;x:} :}", c!"data", c!"insecure file name"),
   (c!"{:data; {:flg; require :} >> x :}", c!"data", c!"file not found"),
   (c!"{:debug; data :}", c!"debug", c!"Debug is disabled. Remember to remove the bif debug in production."),
   (c!"{:declare; a >> b :}", c!"declare", c!"declare cannot be set here"),
   (c!"{:each; >> b :}", c!"each", c!"arguments not found"),
   (c!"{:each; x >> b :}", c!"each", c!"arguments 'key' not found"),
   (c!"{:each; x k >> b :}", c!"each", c!"arguments 'value' not found"),
   (c!"{:each; local::x local::k v >> b :}", c!"each", c!"insecure varname"),
   (c!"{:exit; {:flg; f :} x >> x :}", c!"exit", c!"flags not allowed"),
   (c!"{:fetch; >> a :}", c!"fetch", c!"arguments not found"),
   (c!"{:for; x >> b :}", c!"for", c!"arguments 'from' and 'to' not found"),
   (c!"{:for; x y >> b :}", c!"for", c!"argument is not a number"),
   (c!"{:for; x 1 >> b :}", c!"for", c!"arguments 'to' not found"),
   (c!"{:for; x 1 a >> b :}", c!"for", c!"argument is not a number"),
   (c!"{:include; {:;x:} :}", c!"include", c!"insecure file name"),
   (c!"{:include; {:flg; require :} >> nope :}", c!"include", c!"file not found"),
   (c!"{:include; {:flg; nn :} >> a.ntpl :}", c!"include", c!"nn flag not allowed"),
   (c!"{:join; :}", c!"join", c!"arguments 'array' not found"),
   (c!"{:locale; {:flg; inline :} >> x :}", c!"locale", c!"not a valid JSON file"),
   (c!"{:param; a >> b :}", c!"param", c!"param cannot be set here"),
   (c!"{:rand; .. :}", c!"rand", c!"arguments not found"),
   (c!"{:rand; 5..1 :}", c!"rand", c!"from > to"),
   (c!"{:redirect; 301 >> :}", c!"redirect", c!"this redirection requires URL"),
   (c!"{:redirect; 999 >> x :}", c!"redirect", c!"status code not allowed"),
   (c!"{:redirect; nope :}", c!"redirect", c!"redirect type not allowed"),
   (c!"{:replace; a >> x :}", c!"replace", c!"arguments not found"),
   (c!"{:same; a >> x :}", c!"same", c!"arguments not found"),
   (c!"{:snip; a >> b :}", c!"snippet", c!"snippet cannot be set here"),
   (c!"{:snip; {:flg; f :} a >> b :}", c!"snippet", c!"f flag not allowed"),
   (c!"{:sum; a :}", c!"sum", c!"arguments not found"),
   (c!"{:sum; /a/1/ :}", c!"sum", c!"invalid argument 1"),
   (c!"{:sum; /1/b/ :}", c!"sum", c!"invalid argument 2"),
   (c!"{:allow; a >> b :}", c!"allow", c!"a declared is empty"),
   (c!"{:nope; a :}", c!"unknown", c!"unknown bif")]

set_option maxRecDepth 100000 in
/-- Each of these templates records one error, and it says this. -/
example : ∀ p ∈ Sample.failing, Sample.errorsIn (Sample.go [(c!"x", .str c!"X")] p.1) = [report c!"2025" p.2.1 p.2.2 [] p.1] := by
  decide +kernel

example : Message c!"sum" c!"invalid argument 1" := by msg
example : Message c!"include" c!"nn flag not allowed" := msg_suffix (x := c!"nn") (by decide) (by decide)
example : ¬ Message c!"sum" c!"unknown bif" := by
  unfold Message
  rw [if_pos (by decide)]
  rintro (h | ⟨l, h, h'⟩ | ⟨f, h, h1, _⟩ | h)
  · exact absurd h (by decide)
  · have : ∀ p ∈ messages, p.1 = c!"sum" → c!"unknown bif" ∉ p.2 := by decide
    exact this _ h rfl h'
  · have : ∀ f ∈ messageForms, f.1 ≠ c!"sum" := by decide
    exact this f h h1
  · exact absurd h (by decide)

end Nts
