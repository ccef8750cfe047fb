import Verif.Lemmas.Inv
/-
Which operations the bodies of the BIFs perform: a table of effects, proved for every body.
-/
set_option autoImplicit false
namespace Nts

/-- The assignments that keep the modifiers and the name of a BIF. -/
def KeepMods (f : BifS → BifS) : Prop :=
  ∀ b, (f b).modFilter = b.modFilter ∧ (f b).modNegate = b.modNegate ∧ (f b).modUpline = b.modUpline ∧
      (f b).modScope = b.modScope ∧ (f b).name = b.name

/-- Table of effects: `Effects name o` when the BIF `name` may perform the operation `o`. -/
def Effects (name : Str) : Op → Prop
  | .get => True
  | .modB f => KeepMods f
  | .setInCache _ => name = c!"cache"
  | .setLastCoalesce b => name = c!"coalesce" ∧ b = false
  | .setCurrentDir _ => name = c!"snippet" ∨ name = c!"snip"
  | .pushFile .incl _ => name = c!"include"
  | .pushFile .locale _ => name = c!"locale"
  | .pushFile .data _ => name = c!"data"
  | .setFlags _ => True
  | .setStatus _ _ => name = c!"exit" ∨ name = c!"redirect"
  | .setExit _ => name = c!"exit" ∨ name = c!"redirect"
  | .setRedirectJs _ => name = c!"redirect"
  | .setAlreadyJs => name = c!"fetch"
  | .setData _ _ => name = c!"each" ∨ name = c!"for" ∨ name = c!"eval" ∨ name = c!"count"
  | .setMoveto _ _ => name = c!"moveto"
  | .createBlockSchema => name = c!"data" ∨ name = c!"locale" ∨ name = c!"declare" ∨ name = c!"snippet"
      ∨ name = c!"snip" ∨ name = c!"param"
  | .setIndir sec _ _ => (name = c!"declare" ∧ sec = c!"declare") ∨ (name = c!"param" ∧ sec = c!"params") ∨
      ((name = c!"snippet" ∨ name = c!"snip") ∧ (sec = c!"snippets" ∨ sec = c!"snippets_set_dir"))
  | .mergeIndir sec _ => (name = c!"data" ∧ sec = c!"data") ∨ (name = c!"locale" ∧ sec = c!"locale")
  | .tick => True
  | .writeFile _ _ _ => name = c!"cache" ∨ name = c!"obj"
  | .child _ _ => True
  | .childBlocks _ _ _ => name = c!"each" ∨ name = c!"for"

/-- Decompose a program into its operations. -/
macro "ops_step" : tactic => `(tactic| first
  | exact trivial
  | exact ⟨trivial, fun _ => trivial⟩
  | refine OpsIn_bind ?_ (fun _ => ?_)
  | refine OpsIn_bind' ?_ (fun _ => ?_)
  | split
  | dsimp only)

section
variable {n : Str}

theorem eff_modB {f : BifS → BifS} (h : KeepMods f) : OpsIn (Effects n) (modB f) := ⟨h, fun _ => trivial⟩

macro "ops_basic" : tactic => `(tactic| repeat' (first
  | exact eff_modB (fun _ => ⟨rfl, rfl, rfl, rfl, rfl⟩)
  | ops_step))

theorem eff_get : OpsIn (Effects n) getSt := ⟨trivial, fun _ => trivial⟩
theorem eff_tick : OpsIn (Effects n) tick := ⟨trivial, fun _ => trivial⟩
theorem eff_child (x : Str) (b : Bool) : OpsIn (Effects n) (childParse x b) := ⟨trivial, fun _ => trivial⟩
theorem eff_error {α : Type} (msg : Str) : OpsIn (Effects n) (bifError msg : Prog α) := ⟨trivial, fun _ => trivial⟩
theorem eff_setCode (x : Str) : OpsIn (Effects n) (setCode x) := eff_modB (fun _ => ⟨rfl, rfl, rfl, rfl, rfl⟩)
theorem eff_setParams (x : Str) : OpsIn (Effects n) (setParams x) := eff_modB (fun _ => ⟨rfl, rfl, rfl, rfl, rfl⟩)
theorem eff_setOut (x : Str) : OpsIn (Effects n) (setOut x) := eff_modB (fun _ => ⟨rfl, rfl, rfl, rfl, rfl⟩)
theorem eff_setSrc (x : Str) : OpsIn (Effects n) (setSrc x) := eff_modB (fun _ => ⟨rfl, rfl, rfl, rfl, rfl⟩)
theorem eff_setAlias (x : Str) : OpsIn (Effects n) (setAlias x) := eff_modB (fun _ => ⟨rfl, rfl, rfl, rfl, rfl⟩)
theorem eff_setFilePath (x : Str) : OpsIn (Effects n) (setFilePath x) := eff_modB (fun _ => ⟨rfl, rfl, rfl, rfl, rfl⟩)
theorem eff_setDir (x : Str) : OpsIn (Effects n) (setDir x) := eff_modB (fun _ => ⟨rfl, rfl, rfl, rfl, rfl⟩)
theorem eff_outCode : OpsIn (Effects n) outCode := eff_modB (fun _ => ⟨rfl, rfl, rfl, rfl, rfl⟩)

macro "ops_small" : tactic => `(tactic| first
  | exact eff_get
  | exact eff_tick
  | exact eff_child _ _
  | exact eff_error _
  | exact eff_setCode _
  | exact eff_setParams _
  | exact eff_setOut _
  | exact eff_setSrc _
  | exact eff_setAlias _
  | exact eff_setFilePath _
  | exact eff_setDir _
  | exact eff_outCode
  | exact eff_modB (fun _ => ⟨rfl, rfl, rfl, rfl, rfl⟩)
  | ops_step)

theorem eff_denyMods (f : BifS → Bool) : OpsIn (Effects n) (denyMods f) := by unfold denyMods; repeat' ops_small
theorem eff_denyFlags : OpsIn (Effects n) denyFlags := by unfold denyFlags; repeat' ops_small
theorem eff_denyFlgParams : OpsIn (Effects n) denyFlgParams := by unfold denyFlgParams; repeat' ops_small
theorem eff_checkFlags (l : List Str) : OpsIn (Effects n) (checkFlags l) := by unfold checkFlags; repeat' ops_small
theorem eff_extract (b : Bool) : OpsIn (Effects n) (extractParamsCode b) := by
  unfold extractParamsCode
  repeat' ops_small
theorem eff_parseCode (b : Bool) : OpsIn (Effects n) (parseCode b) := by unfold parseCode; repeat' ops_small
theorem eff_argLoop (l : List Str) : OpsIn (Effects n) (argLoop l) := by
  induction l with
  | nil => trivial
  | cons a r ih =>
    unfold argLoop
    repeat' (first | exact ih | ops_small)
theorem eff_extractArgs : OpsIn (Effects n) extractArgs := by
  unfold extractArgs
  repeat' (first | exact eff_argLoop _ | ops_small)
theorem eff_argReq (l : List Str) (i : Nat) (m : Str) : OpsIn (Effects n) (argReq l i m) := by
  unfold argReq; repeat' ops_small
theorem eff_requireAllow (a b : Str) : OpsIn (Effects n) (requireAllow a b) := by
  unfold requireAllow; repeat' ops_small
theorem eff_canon (env : Env) (p : Str) : OpsIn (Effects n) (canonUnwrap env p) := by
  unfold canonUnwrap; repeat' ops_small
theorem eff_resolve : OpsIn (Effects n) resolveFilePath := by
  unfold resolveFilePath
  repeat' (first | exact eff_requireAllow _ _ | ops_small)
theorem eff_outUncached : OpsIn (Effects n) outUncached := by unfold outUncached; repeat' ops_small

macro "ops_mid" : tactic => `(tactic| first
  | exact eff_denyMods _
  | exact eff_denyFlags
  | exact eff_denyFlgParams
  | exact eff_checkFlags _
  | exact eff_extract _
  | exact eff_parseCode _
  | exact eff_extractArgs
  | exact eff_argReq _ _ _
  | exact eff_requireAllow _ _
  | exact eff_canon _ _
  | exact eff_resolve
  | exact eff_outUncached
  | (refine OpsIn_perform ?_; simp [Effects]; done)
  | ops_small)

theorem eff_forList {β : Type} (l : List β) (f : β → Prog Unit) (h : ∀ x, OpsIn (Effects n) (f x)) :
    OpsIn (Effects n) (forList l f) := by
  induction l with
  | nil => trivial
  | cons a r ih => exact OpsIn_bind' (h a) (fun _ => ih)

theorem eff_cond (t : Value → Str → Bool) : OpsIn (Effects n) (condBif t) := by unfold condBif; repeat' ops_mid
theorem eff_cmp (t : Str → Str → Bool) : OpsIn (Effects n) (cmpBif t) := by unfold cmpBif; repeat' ops_mid
theorem eff_debugEnable (env : Env) : OpsIn (Effects n) (debugEnable env) := by unfold debugEnable; repeat' ops_mid

end

theorem eff_var (env : Env) : OpsIn (Effects []) (bifVar env) := by unfold bifVar; repeat' ops_mid
theorem eff_allow (env : Env) : OpsIn (Effects c!"allow") (bifAllow env) := by unfold bifAllow; repeat' ops_mid
theorem eff_coalesce : OpsIn (Effects c!"coalesce") bifCoalesce := by unfold bifCoalesce; repeat' ops_mid
theorem eff_code : OpsIn (Effects c!"code") bifCode := by unfold bifCode; repeat' ops_mid
theorem eff_setData {n : Str} (h : n = c!"each" ∨ n = c!"for" ∨ n = c!"eval" ∨ n = c!"count") (k v : Str) :
    OpsIn (Effects n) (setData k v) := ⟨h, fun _ => trivial⟩
theorem eff_count (env : Env) : OpsIn (Effects c!"count") (bifCount env) := by
  unfold bifCount; repeat' (first | exact eff_setData (by decide) _ _ | ops_mid)
theorem eff_data (env : Env) : OpsIn (Effects c!"data") (bifData env) := by unfold bifData mergeJson; repeat' ops_mid
theorem eff_locale (env : Env) : OpsIn (Effects c!"locale") (bifLocale env) := by unfold bifLocale mergeJson; repeat' ops_mid
theorem eff_date (env : Env) : OpsIn (Effects c!"date") (bifDate env) := by unfold bifDate; repeat' ops_mid
theorem eff_debug (env : Env) : OpsIn (Effects c!"debug") (bifDebug env) := by
  unfold bifDebug; repeat' (first | exact eff_debugEnable _ | ops_mid)
theorem eff_declare : OpsIn (Effects c!"declare") bifDeclare := by unfold bifDeclare; repeat' ops_mid
theorem eff_each : OpsIn (Effects c!"each") bifEach := by
  unfold bifEach eachIter
  repeat' (first | refine eff_forList _ _ (fun _ => ?_) | ops_mid)
theorem eff_else : OpsIn (Effects c!"else") bifElse := by unfold bifElse; repeat' ops_mid
theorem eff_eval (env : Env) : OpsIn (Effects c!"eval") (bifEval env) := by
  unfold bifEval; repeat' (first | exact eff_setData (by decide) _ _ | ops_mid)
theorem eff_exit : OpsIn (Effects c!"exit") bifExit := by unfold bifExit; repeat' ops_mid
theorem eff_fetch (env : Env) : OpsIn (Effects c!"fetch") (bifFetch env) := by unfold bifFetch; repeat' ops_mid
theorem eff_flg : OpsIn (Effects c!"flg") bifFlg := by unfold bifFlg; repeat' ops_mid
theorem eff_for (env : Env) : OpsIn (Effects c!"for") (bifFor env) := by
  unfold bifFor forIter
  repeat' (first | exact eff_setData (by decide) _ _ | refine eff_forList _ _ (fun _ => ?_) | ops_mid)
theorem eff_hash (env : Env) : OpsIn (Effects c!"hash") (bifHash env) := by unfold bifHash; repeat' ops_mid
theorem eff_include (env : Env) : OpsIn (Effects c!"include") (bifInclude env) := by unfold bifInclude; repeat' ops_mid
theorem eff_join (env : Env) : OpsIn (Effects c!"join") (bifJoin env) := by unfold bifJoin; repeat' ops_mid
theorem eff_lang : OpsIn (Effects c!"lang") bifLang := by unfold bifLang; repeat' ops_mid
theorem eff_moveto (env : Env) : OpsIn (Effects c!"moveto") (bifMoveto env) := by unfold bifMoveto; repeat' ops_mid
theorem eff_neutral : OpsIn (Effects c!"neutral") bifNeutral := by unfold bifNeutral; repeat' ops_mid
theorem eff_param (env : Env) : OpsIn (Effects c!"param") (bifParam env) := by unfold bifParam; repeat' ops_mid
theorem eff_rand (env : Env) : OpsIn (Effects c!"rand") (bifRand env) := by unfold bifRand; repeat' ops_mid
theorem eff_redirect : OpsIn (Effects c!"redirect") bifRedirect := by unfold bifRedirect; repeat' ops_mid
theorem eff_replace : OpsIn (Effects c!"replace") bifReplace := by unfold bifReplace; repeat' ops_mid
theorem eff_snippet (env : Env) {n : Str} (h : n = c!"snippet" ∨ n = c!"snip") : OpsIn (Effects n) (bifSnippet env) := by
  unfold bifSnippet
  repeat' (first
    | exact ⟨.inr (.inr ⟨h, .inl rfl⟩), fun _ => trivial⟩
    | exact ⟨.inr (.inr ⟨h, .inr rfl⟩), fun _ => trivial⟩
    | exact ⟨h, fun _ => trivial⟩
    | exact ⟨h.elim (fun e => .inr (.inr (.inr (.inl e)))) (fun e => .inr (.inr (.inr (.inr (.inl e))))), fun _ => trivial⟩
    | ops_mid)
theorem eff_sum (env : Env) : OpsIn (Effects c!"sum") (bifSum env) := by unfold bifSum; repeat' ops_mid
theorem eff_trans (env : Env) : OpsIn (Effects c!"trans") (bifTrans env) := by unfold bifTrans; repeat' ops_mid
theorem eff_cacheParse (b : Bool) (f : Str → Prog Unit) (h : ∀ x, OpsIn (Effects c!"cache") (f x)) :
    OpsIn (Effects c!"cache") (cacheParse b f) := by
  unfold cacheParse; repeat' (first | exact h _ | ops_mid)
theorem eff_cacheStore (env : Env) (b : Bool) (d f : Str) : OpsIn (Effects c!"cache") (cacheStore env b d f) := by
  unfold cacheStore; repeat' (first | exact eff_cacheParse _ _ (fun _ => eff_setCode _) | ops_mid)
theorem eff_cacheLookup (env : Env) (b : Bool) (d f e : Str) : OpsIn (Effects c!"cache") (cacheLookup env b d f e) := by
  unfold cacheLookup
  repeat' (first | exact eff_cacheStore _ _ _ _ | exact eff_cacheParse _ _ (fun _ => eff_setOut _) | ops_mid)
theorem eff_cache (env : Env) : OpsIn (Effects c!"cache") (bifCache env) := by
  unfold bifCache; repeat' (first | exact eff_cacheLookup _ _ _ _ _ | ops_mid)
theorem eff_objString {n : Str} (x : Str) : OpsIn (Effects n) (objString x) := by unfold objString; repeat' ops_mid

mutual
theorem eff_objEntry {n : Str} (b : Bool) (k : Str) : ∀ v, OpsIn (Effects n) (objEntry b k v)
  | .str x => by unfold objEntry; repeat' (first | exact eff_objString _ | ops_mid)
  | .obj o => by unfold objEntry; repeat' (first | exact eff_objEntries _ _ | ops_mid)
  | .null => by unfold objEntry; trivial
  | .bool _ => by unfold objEntry; trivial
  | .num _ => by unfold objEntry; trivial
  | .arr _ => by unfold objEntry; trivial
theorem eff_objEntries {n : Str} (b : Bool) : ∀ o, OpsIn (Effects n) (objEntries b o)
  | [] => trivial
  | (k, v) :: r => by
    unfold objEntries
    exact OpsIn_bind' (eff_objEntry b k v) (fun _ => OpsIn_bind' (eff_objEntries b r) (fun _ => trivial))
end

theorem eff_objSource {n : Str} (env : Env) : OpsIn (Effects n) (objSource env) := by unfold objSource; repeat' ops_mid
theorem eff_objVenv {n : Str} (o : Value) (d : Str) : OpsIn (Effects n) (objVenv o d) := by unfold objVenv; repeat' ops_mid
theorem eff_bridge (env : Env) (f : Str) : OpsIn (Effects c!"obj") (ensureBridge env f) := by
  unfold ensureBridge; repeat' ops_mid
theorem eff_objCall (env : Env) (o : Value) (p : Bool) (f : Str) : OpsIn (Effects c!"obj") (objCall env o p f) := by
  unfold objCall; repeat' (first | exact eff_objVenv _ _ | exact eff_bridge _ _ | ops_mid)
theorem eff_parseObj {n : Str} (o : Value) : OpsIn (Effects n) (parseObjValues o) := by
  unfold parseObjValues; repeat' (first | exact eff_objEntries _ _ | ops_mid)
theorem eff_obj (env : Env) : OpsIn (Effects c!"obj") (bifObj env) := by
  unfold bifObj
  repeat' (first | exact eff_objSource _ | exact eff_objCall _ _ _ _ | exact eff_parseObj _ | ops_mid)
theorem eff_unknown {n : Str} : OpsIn (Effects n) bifUnknown := by unfold bifUnknown; repeat' ops_mid

theorem ops_ite {P : Op → Prop} {α : Type} {c : Prop} [Decidable c] {p q : Prog α} (h1 : c → OpsIn P p)
    (h2 : ¬ c → OpsIn P q) : OpsIn P (if c then p else q) := by
  by_cases h : c
  · rw [if_pos h]; exact h1 h
  · rw [if_neg h]; exact h2 h

/-- The table of effects is right for every BIF. -/
theorem effects (env : Env) (name : Str) : OpsIn (Effects name) (bifBody env name) := by
  unfold bifBody
  refine ops_ite (fun h => by subst h; exact eff_var env) (fun _ => ?_)
  refine ops_ite (fun h => by subst h; exact eff_allow env) (fun _ => ?_)
  refine ops_ite (fun _ => eff_cond _) (fun _ => ?_)
  refine ops_ite (fun _ => eff_cond _) (fun _ => ?_)
  refine ops_ite (fun h => by subst h; exact eff_cache env) (fun _ => ?_)
  refine ops_ite (fun h => by subst h; exact eff_coalesce) (fun _ => ?_)
  refine ops_ite (fun h => by subst h; exact eff_code) (fun _ => ?_)
  refine ops_ite (fun _ => eff_cmp _) (fun _ => ?_)
  refine ops_ite (fun h => by subst h; exact eff_count env) (fun _ => ?_)
  refine ops_ite (fun h => by subst h; exact eff_data env) (fun _ => ?_)
  refine ops_ite (fun h => by subst h; exact eff_date env) (fun _ => ?_)
  refine ops_ite (fun h => by subst h; exact eff_declare) (fun _ => ?_)
  refine ops_ite (fun _ => eff_cond _) (fun _ => ?_)
  refine ops_ite (fun h => by subst h; exact eff_each) (fun _ => ?_)
  refine ops_ite (fun h => by subst h; exact eff_else) (fun _ => ?_)
  refine ops_ite (fun h => by subst h; exact eff_eval env) (fun _ => ?_)
  refine ops_ite (fun h => by subst h; exact eff_exit) (fun _ => ?_)
  refine ops_ite (fun h => by subst h; exact eff_fetch env) (fun _ => ?_)
  refine ops_ite (fun _ => eff_cond _) (fun _ => ?_)
  refine ops_ite (fun h => by subst h; exact eff_flg) (fun _ => ?_)
  refine ops_ite (fun h => by subst h; exact eff_for env) (fun _ => ?_)
  refine ops_ite (fun h => by subst h; exact eff_hash env) (fun _ => ?_)
  refine ops_ite (fun h => by subst h; exact eff_include env) (fun _ => ?_)
  refine ops_ite (fun h => by subst h; exact eff_join env) (fun _ => ?_)
  refine ops_ite (fun h => by subst h; exact eff_lang) (fun _ => ?_)
  refine ops_ite (fun h => by subst h; exact eff_locale env) (fun _ => ?_)
  refine ops_ite (fun h => by subst h; exact eff_moveto env) (fun _ => ?_)
  refine ops_ite (fun h => by subst h; exact eff_neutral) (fun _ => ?_)
  refine ops_ite (fun h => by subst h; exact eff_param env) (fun _ => ?_)
  refine ops_ite (fun h => by subst h; exact eff_rand env) (fun _ => ?_)
  refine ops_ite (fun h => by subst h; exact eff_redirect) (fun _ => ?_)
  refine ops_ite (fun h => by subst h; exact eff_replace) (fun _ => ?_)
  refine ops_ite (fun _ => eff_cmp _) (fun _ => ?_)
  refine ops_ite (fun h => eff_snippet env (.inl h)) (fun _ => ?_)
  refine ops_ite (fun h => eff_snippet env (.inr h)) (fun _ => ?_)
  refine ops_ite (fun h => by subst h; exact eff_sum env) (fun _ => ?_)
  refine ops_ite (fun h => by subst h; exact eff_trans env) (fun _ => ?_)
  refine ops_ite (fun h => by subst h; exact eff_obj env) (fun _ => ?_)
  refine ops_ite (fun h => by subst h; exact eff_debug env) (fun _ => ?_)
  exact eff_unknown

end Nts
