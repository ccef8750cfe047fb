import Verif.Props.Where
import Verif.Props.Malformed
/-
C87, C88: what the list of errors says.  First: an error raised by the body of a BIF names the BIF, its file and its text.
-/
set_option autoImplicit false
namespace Nts
open Spec

/-! ### what the bodies raise -/

/-- The name of the BIF stays within `L`, and an error names it, the file and the text of the BIF. -/
def SaysR (L : Str → Prop) {α : Type} : Res α → Prop
  | .ok _ s' => L s'.b.alias
  | .err e s' => L s'.b.alias ∧ ∃ msg, e = errOf s' msg
  | _ => True

def Says (L : Str → Prop) {α : Type} (p : Prog α) : Prop := ∀ R s, L s.b.alias → SaysR L (run R p s)

/-- The operation does not assign the fields of the BIF. -/
def NotB : Op → Prop
  | .modB _ => False
  | _ => True

theorem step_b {R : Rec} {o : Op} {s s' : St} {r : o.Resp} (h : step R o s = .ok r s') :
    s'.raw = s.raw ∧ (NotB o → s'.b = s.b) := by
  have child : ∀ (scope : Bool) (f : Shared → Inherit → PRes) (x : Str), runChild s scope f = .ok x s' →
      s'.raw = s.raw ∧ s'.b = s.b := by
    intro scope f x h
    unfold runChild at h
    dsimp only at h
    split at h
    · simp only [ORes.ok.injEq] at h
      rw [← h.2]
      exact ⟨rfl, rfl⟩
    · simp at h
    · simp at h
  cases o with
  | child src scope => simp only [step] at h; exact ⟨(child _ _ _ h).1, fun _ => (child _ _ _ h).2⟩
  | childBlocks src bs scope => simp only [step] at h; exact ⟨(child _ _ _ h).1, fun _ => (child _ _ _ h).2⟩
  | setData name v => obtain ⟨x, _, rfl⟩ := oresOpt_map h; exact ⟨rfl, fun _ => rfl⟩
  | setMoveto name v => obtain ⟨x, _, rfl⟩ := oresOpt_map h; exact ⟨rfl, fun _ => rfl⟩
  | setIndir sec key v => obtain ⟨x, _, rfl⟩ := oresOpt_map h; exact ⟨rfl, fun _ => rfl⟩
  | mergeIndir sec v => obtain ⟨x, _, rfl⟩ := oresOpt_map h; exact ⟨rfl, fun _ => rfl⟩
  | modB f => simp only [step, ORes.ok.injEq] at h; obtain ⟨_, rfl⟩ := h; exact ⟨rfl, fun h => h.elim⟩
  | pushFile kd p => cases kd <;> (simp only [step, ORes.ok.injEq] at h; obtain ⟨_, rfl⟩ := h; exact ⟨rfl, fun _ => rfl⟩)
  | _ => simp only [step, ORes.ok.injEq] at h; obtain ⟨_, rfl⟩ := h; exact ⟨rfl, fun _ => rfl⟩

section
variable {L : Str → Prop}

theorem sy_bind' {α β : Type} {p : Prog α} {f : α → Prog β} (hp : Says L p) (hf : ∀ a, Says L (f a)) : Says L (p.bind f) := by
  intro R s hs
  rw [run_bind']
  have := hp R s hs
  cases hr : run R p s with
  | ok a s' => rw [hr] at this; exact hf a R s' this
  | err e s' => rw [hr] at this; exact this
  | panic q => trivial
  | oof => trivial
theorem sy_bind {α β : Type} {p : Prog α} {f : α → Prog β} (hp : Says L p) (hf : ∀ a, Says L (f a)) : Says L (p >>= f) :=
  sy_bind' hp hf
theorem sy_op (o : Op) (h : NotB o) : Says L (perform o) := by
  intro R s hs
  unfold perform
  simp only [run]
  cases hst : step R o s with
  | ok r s' => simp only [SaysR]; rw [(step_b hst).2 h]; exact hs
  | panic q => trivial
  | oof => trivial
theorem sy_pure {α : Type} (a : α) : Says L (Prog.pure a) := fun _ _ hs => hs
theorem sy_pure' {α : Type} (a : α) : Says L (pure a : Prog α) := fun _ _ hs => hs
theorem sy_get : Says L getSt := fun _ _ hs => hs
theorem sy_modB (f : BifS → BifS) (h : ∀ b, L b.alias → L (f b).alias) : Says L (modB f) := fun _ _ hs => h _ hs
theorem sy_panic {α : Type} (p : Panic) : Says L (.panic p : Prog α) := fun _ _ _ => trivial
theorem sy_error {α : Type} (msg : Str) : Says L (bifError msg : Prog α) := fun _ _ hs => ⟨hs, msg, rfl⟩
theorem sy_child (x : Str) (b : Bool) : Says L (childParse x b) := sy_op (.child x b) trivial
theorem sy_setCode (x : Str) : Says L (setCode x) := sy_modB _ (fun _ h => h)
theorem sy_setParams (x : Str) : Says L (setParams x) := sy_modB _ (fun _ h => h)
theorem sy_setOut (x : Str) : Says L (setOut x) := sy_modB _ (fun _ h => h)
theorem sy_setSrc (x : Str) : Says L (setSrc x) := sy_modB _ (fun _ h => h)
theorem sy_setAlias {x : Str} (h : L x) : Says L (setAlias x) := sy_modB _ (fun _ _ => h)
theorem sy_setFilePath (x : Str) : Says L (setFilePath x) := sy_modB _ (fun _ h => h)
theorem sy_setDir (x : Str) : Says L (setDir x) := sy_modB _ (fun _ h => h)
theorem sy_setData (a b : Str) : Says L (setData a b) := sy_op (.setData _ _) trivial
theorem sy_outCode : Says L outCode := sy_modB _ (fun _ h => h)
theorem sy_tick : Says L tick := sy_op .tick trivial

macro "sy_step" : tactic => `(tactic| first
  | with_reducible refine sy_bind ?_ (fun _ => ?_)
  | with_reducible refine sy_bind' ?_ (fun _ => ?_)
  | with_reducible exact sy_get
  | with_reducible exact sy_modB _ (fun _ h => h)
  | with_reducible exact sy_pure _
  | with_reducible exact sy_pure' _
  | with_reducible exact sy_panic _
  | with_reducible exact sy_error _
  | with_reducible exact sy_child _ _
  | with_reducible exact sy_setCode _
  | with_reducible exact sy_setParams _
  | with_reducible exact sy_setOut _
  | with_reducible exact sy_setSrc _
  | with_reducible exact sy_setAlias (by assumption)
  | with_reducible exact sy_setFilePath _
  | with_reducible exact sy_setDir _
  | with_reducible exact sy_setData _ _
  | with_reducible exact sy_outCode
  | with_reducible exact sy_tick
  | ((with_reducible refine sy_op _ ?_); exact trivial)
  | split
  | dsimp only)

theorem sy_denyMods (f : BifS → Bool) : Says L (denyMods f) := by unfold denyMods; repeat' sy_step
theorem sy_denyFlags : Says L denyFlags := by unfold denyFlags; repeat' sy_step
theorem sy_denyFlgParams : Says L denyFlgParams := by unfold denyFlgParams; repeat' sy_step
theorem sy_checkFlags (l : List Str) : Says L (checkFlags l) := by unfold checkFlags; repeat' sy_step
theorem sy_extract (b : Bool) : Says L (extractParamsCode b) := by unfold extractParamsCode; repeat' sy_step
theorem sy_parseCode (b : Bool) : Says L (parseCode b) := by unfold parseCode; repeat' sy_step
theorem sy_argLoop (l : List Str) : Says L (argLoop l) := by
  induction l with
  | nil => exact sy_pure _
  | cons a r ih => unfold argLoop; repeat' (first | exact ih | sy_step)
theorem sy_extractArgs : Says L extractArgs := by
  unfold extractArgs; repeat' (first | exact sy_argLoop _ | sy_step)
theorem sy_argReq (l : List Str) (i : Nat) (m : Str) : Says L (argReq l i m) := by unfold argReq; repeat' sy_step
theorem sy_outUncached : Says L outUncached := by unfold outUncached; repeat' sy_step
theorem sy_canon (env : Env) (p : Str) : Says L (canonUnwrap env p) := by
  unfold canonUnwrap; repeat' sy_step
theorem sy_forList {β : Type} (l : List β) (f : β → Prog Unit) (h : ∀ x, Says L (f x)) : Says L (forList l f) := by
  induction l with
  | nil => exact sy_pure _
  | cons a r ih => exact sy_bind' (h a) (fun _ => ih)

macro "sy_mid" : tactic => `(tactic| first
  | with_reducible exact sy_denyMods _
  | with_reducible exact sy_denyFlags
  | with_reducible exact sy_denyFlgParams
  | with_reducible exact sy_checkFlags _
  | with_reducible exact sy_extract _
  | with_reducible exact sy_parseCode _
  | with_reducible exact sy_extractArgs
  | with_reducible exact sy_argReq _ _ _
  | with_reducible exact sy_outUncached
  | with_reducible exact sy_canon _ _
  | with_reducible refine sy_forList _ _ (fun _ => ?_)
  | sy_step)

theorem sy_cond (t : Value → Str → Bool) : Says L (condBif t) := by unfold condBif; repeat' sy_mid
theorem sy_cmp (t : Str → Str → Bool) : Says L (cmpBif t) := by unfold cmpBif; repeat' sy_mid
theorem sy_debugEnable (env : Env) : Says L (debugEnable env) := by unfold debugEnable; repeat' sy_mid
theorem sy_mergeJson (env : Env) (sec : Str) (part : Value → Value) (text : Str) :
    Says L (mergeJson env sec part text) := by
  unfold mergeJson; repeat' sy_mid
theorem sy_allow (env : Env) : Says L (bifAllow env) := by unfold bifAllow; repeat' sy_mid
theorem sy_coalesce : Says L bifCoalesce := by unfold bifCoalesce; repeat' sy_mid
theorem sy_code : Says L bifCode := by unfold bifCode; repeat' sy_mid
theorem sy_count (env : Env) : Says L (bifCount env) := by unfold bifCount; repeat' sy_mid
theorem sy_date (env : Env) : Says L (bifDate env) := by unfold bifDate; repeat' sy_mid
theorem sy_debug (env : Env) : Says L (bifDebug env) := by
  unfold bifDebug; repeat' (first | with_reducible exact sy_debugEnable _ | sy_mid)
theorem sy_declare : Says L bifDeclare := by unfold bifDeclare; repeat' sy_mid
theorem sy_each : Says L bifEach := by unfold bifEach eachIter; repeat' sy_mid
theorem sy_else : Says L bifElse := by unfold bifElse; repeat' sy_mid
theorem sy_eval (env : Env) : Says L (bifEval env) := by unfold bifEval; repeat' sy_mid
theorem sy_exit : Says L bifExit := by unfold bifExit; repeat' sy_mid
theorem sy_fetch (env : Env) : Says L (bifFetch env) := by unfold bifFetch; repeat' sy_mid
theorem sy_flg : Says L bifFlg := by unfold bifFlg; repeat' sy_mid
theorem sy_for (env : Env) : Says L (bifFor env) := by unfold bifFor forIter; repeat' sy_mid
theorem sy_hash (env : Env) : Says L (bifHash env) := by unfold bifHash; repeat' sy_mid
theorem sy_join (env : Env) : Says L (bifJoin env) := by unfold bifJoin; repeat' sy_mid
theorem sy_lang : Says L bifLang := by unfold bifLang; repeat' sy_mid
theorem sy_moveto (env : Env) : Says L (bifMoveto env) := by unfold bifMoveto; repeat' sy_mid
theorem sy_neutral : Says L bifNeutral := by unfold bifNeutral; repeat' sy_mid
theorem sy_param (env : Env) : Says L (bifParam env) := by unfold bifParam; repeat' sy_mid
theorem sy_rand (env : Env) : Says L (bifRand env) := by unfold bifRand; repeat' sy_mid
theorem sy_redirect : Says L bifRedirect := by unfold bifRedirect; repeat' sy_mid
theorem sy_replace : Says L bifReplace := by unfold bifReplace; repeat' sy_mid
theorem sy_snippet (hl : L c!"snippet") (env : Env) : Says L (bifSnippet env) := by unfold bifSnippet; repeat' sy_mid
theorem sy_sum (env : Env) : Says L (bifSum env) := by unfold bifSum; repeat' sy_mid
theorem sy_trans (env : Env) : Says L (bifTrans env) := by unfold bifTrans; repeat' sy_mid
theorem sy_cacheParse (b : Bool) (f : Str → Prog Unit) (h : ∀ x, Says L (f x)) : Says L (cacheParse b f) := by
  unfold cacheParse; repeat' (first | exact h _ | sy_mid)
theorem sy_cacheStore (env : Env) (b : Bool) (d f : Str) : Says L (cacheStore env b d f) := by
  unfold cacheStore; repeat' (first | with_reducible exact sy_cacheParse _ _ (fun _ => sy_setCode _) | sy_mid)
theorem sy_cacheLookup (env : Env) (b : Bool) (d f e : Str) : Says L (cacheLookup env b d f e) := by
  unfold cacheLookup
  repeat' (first
    | with_reducible exact sy_cacheStore _ _ _ _
    | with_reducible exact sy_cacheParse _ _ (fun _ => sy_setOut _)
    | sy_mid)
theorem sy_cache (env : Env) : Says L (bifCache env) := by
  unfold bifCache; repeat' (first | with_reducible exact sy_cacheLookup _ _ _ _ _ | sy_mid)
theorem sy_unknown (hl : L c!"unknown") : Says L bifUnknown := by unfold bifUnknown; repeat' sy_mid
theorem sy_objVenv (o : Value) (d : Str) : Says L (objVenv o d) := by unfold objVenv; repeat' sy_mid
theorem sy_objCall (env : Env) (o : Value) (p : Bool) (f : Str) : Says L (objCall env o p f) := by
  unfold objCall ensureBridge; repeat' (first | with_reducible exact sy_objVenv _ _ | sy_mid)
mutual
theorem sy_objEntry (r : Bool) (k : Str) : ∀ v, Says L (objEntry r k v)
  | .str x => by unfold objEntry objString; repeat' sy_mid
  | .obj o => by unfold objEntry; repeat' (first | exact sy_objEntries _ _ | sy_mid)
  | .null => by unfold objEntry; exact sy_pure _
  | .bool _ => by unfold objEntry; exact sy_pure _
  | .num _ => by unfold objEntry; exact sy_pure _
  | .arr _ => by unfold objEntry; exact sy_pure _
theorem sy_objEntries (r : Bool) : ∀ o, Says L (objEntries r o)
  | [] => sy_pure _
  | (k, v) :: rest => by
    unfold objEntries
    exact sy_bind' (sy_objEntry r k v) (fun _ => sy_bind' (sy_objEntries r rest) (fun _ => sy_pure _))
end
theorem sy_parseObj (v : Value) : Says L (parseObjValues v) := by
  cases v with
  | obj o => exact sy_bind' (sy_objEntries false o) (fun _ => sy_pure _)
  | _ => exact sy_pure _
theorem sy_requireAllow (a b : Str) : Says L (requireAllow a b) := by unfold requireAllow; repeat' sy_step
theorem sy_resolve : Says L resolveFilePath := by
  unfold resolveFilePath; repeat' (first | with_reducible exact sy_requireAllow _ _ | sy_step)
theorem sy_var (h1 : L c!"var") (h2 : L c!"unprintable") (env : Env) : Says L (bifVar env) := by
  unfold bifVar; repeat' (first | with_reducible exact sy_requireAllow _ _ | sy_mid)
theorem sy_include (env : Env) : Says L (bifInclude env) := by
  unfold bifInclude; repeat' (first | with_reducible exact sy_resolve | sy_mid)
theorem sy_data (env : Env) : Says L (bifData env) := by
  unfold bifData; repeat' (first | with_reducible exact sy_resolve | with_reducible exact sy_mergeJson _ _ _ _ | sy_mid)
theorem sy_locale (env : Env) : Says L (bifLocale env) := by
  unfold bifLocale; repeat' (first | with_reducible exact sy_resolve | with_reducible exact sy_mergeJson _ _ _ _ | sy_mid)
theorem sy_obj (env : Env) : Says L (bifObj env) := by
  unfold bifObj objSource
  repeat' (first
    | with_reducible exact sy_requireAllow _ _
    | with_reducible exact sy_parseObj _
    | with_reducible exact sy_objCall _ _ _ _
    | sy_mid)

theorem sy_ite {α : Type} {c : Prop} [Decidable c] {p q : Prog α} (h1 : c → Says L p) (h2 : ¬ c → Says L q) :
    Says L (if c then p else q) := by
  by_cases h : c
  · rw [if_pos h]; exact h1 h
  · rw [if_neg h]; exact h2 h
end

/-- The name by which errors call the BIF `name`: its own, except for variables (`var` and `unprintable`), `snip` and unknown names. -/
def Spec.Called (name label : Str) : Prop :=
  label = name ∨ (name = [] ∧ (label = c!"var" ∨ label = c!"unprintable")) ∨ (name = c!"snip" ∧ label = c!"snippet") ∨
    ((∀ mods, (name, mods) ∉ accepts) ∧ label = c!"unknown")

theorem says_body (env : Env) (name : Str) : Says (Called name) (bifBody env name) := by
  unfold bifBody
  refine sy_ite (fun h => sy_var (.inr (.inl ⟨h, .inl rfl⟩)) (.inr (.inl ⟨h, .inr rfl⟩)) env) (fun n0 => ?_)
  refine sy_ite (fun _ => (sy_allow env)) (fun n1 => ?_)
  refine sy_ite (fun _ => (sy_cond _)) (fun n2 => ?_)
  refine sy_ite (fun _ => (sy_cond _)) (fun n3 => ?_)
  refine sy_ite (fun _ => (sy_cache env)) (fun n4 => ?_)
  refine sy_ite (fun _ => sy_coalesce) (fun n5 => ?_)
  refine sy_ite (fun _ => sy_code) (fun n6 => ?_)
  refine sy_ite (fun _ => (sy_cmp _)) (fun n7 => ?_)
  refine sy_ite (fun _ => (sy_count env)) (fun n8 => ?_)
  refine sy_ite (fun _ => sy_data env) (fun n9 => ?_)
  refine sy_ite (fun _ => (sy_date env)) (fun n10 => ?_)
  refine sy_ite (fun _ => sy_declare) (fun n11 => ?_)
  refine sy_ite (fun _ => (sy_cond _)) (fun n12 => ?_)
  refine sy_ite (fun _ => sy_each) (fun n13 => ?_)
  refine sy_ite (fun _ => sy_else) (fun n14 => ?_)
  refine sy_ite (fun _ => (sy_eval env)) (fun n15 => ?_)
  refine sy_ite (fun _ => sy_exit) (fun n16 => ?_)
  refine sy_ite (fun _ => (sy_fetch env)) (fun n17 => ?_)
  refine sy_ite (fun _ => (sy_cond _)) (fun n18 => ?_)
  refine sy_ite (fun _ => sy_flg) (fun n19 => ?_)
  refine sy_ite (fun _ => (sy_for env)) (fun n20 => ?_)
  refine sy_ite (fun _ => (sy_hash env)) (fun n21 => ?_)
  refine sy_ite (fun _ => sy_include env) (fun n22 => ?_)
  refine sy_ite (fun _ => (sy_join env)) (fun n23 => ?_)
  refine sy_ite (fun _ => sy_lang) (fun n24 => ?_)
  refine sy_ite (fun _ => sy_locale env) (fun n25 => ?_)
  refine sy_ite (fun _ => (sy_moveto env)) (fun n26 => ?_)
  refine sy_ite (fun _ => sy_neutral) (fun n27 => ?_)
  refine sy_ite (fun _ => (sy_param env)) (fun n28 => ?_)
  refine sy_ite (fun _ => (sy_rand env)) (fun n29 => ?_)
  refine sy_ite (fun _ => sy_redirect) (fun n30 => ?_)
  refine sy_ite (fun _ => sy_replace) (fun n31 => ?_)
  refine sy_ite (fun _ => (sy_cmp _)) (fun n32 => ?_)
  refine sy_ite (fun h => sy_snippet (.inl h.symm) env) (fun n33 => ?_)
  refine sy_ite (fun h => sy_snippet (.inr (.inr (.inl ⟨h, rfl⟩))) env) (fun n34 => ?_)
  refine sy_ite (fun _ => (sy_sum env)) (fun n35 => ?_)
  refine sy_ite (fun _ => (sy_trans env)) (fun n36 => ?_)
  refine sy_ite (fun _ => sy_obj env) (fun n37 => ?_)
  refine sy_ite (fun _ => (sy_debug env)) (fun n38 => ?_)
  refine sy_unknown (.inr (.inr (.inr ⟨fun mods hm => ?_, rfl⟩)))
  have : name ∈ accepts.map (fun p => p.1) := List.mem_map.2 ⟨_, hm, rfl⟩
  simp only [accepts, List.map_cons, List.map_nil, List.mem_cons, List.not_mem_nil, or_false] at this
  simp_all

end Nts
