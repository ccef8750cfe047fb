import Verif.Lemmas.RunBif
import Verif.Lemmas.Ops
/-
The bodies of the BIFs do not look at the modifier `^`, nor at how their BIF is written (other than to report errors).
-/
set_option autoImplicit false
namespace Nts

/-- The same state for a BIF that is written in another way: `u` says whether it has the modifier `^`, `raw` is its text. -/
def rewritten (u : Bool) (raw : Str) (s : St) : St := { s with b := { s.b with modUpline := u }, raw := raw }

/-- The same result. -/
def Res.rewritten (u : Bool) (raw : Str) {α : Type} : Res α → Res α
  | .ok a s => .ok a (Nts.rewritten u raw s)
  | .err e s => .err { e with src := raw } (Nts.rewritten u raw s)
  | .panic p => .panic p
  | .oof => .oof

/-- In this state a program does the same however its BIF is written. -/
def BlindAt (R : Rec) (u : Bool) (raw : Str) {α : Type} (p : Prog α) (s : St) : Prop :=
  run R p (rewritten u raw s) = (run R p s).rewritten u raw

/-- In every state. -/
def Blind (R : Rec) (u : Bool) (raw : Str) {α : Type} (p : Prog α) : Prop := ∀ s, BlindAt R u raw p s

section
variable {R : Rec} {u : Bool} {raw : Str}

theorem blindAt_bind {α β : Type} {p : Prog α} {f : α → Prog β} {s : St} (h : BlindAt R u raw p s)
    (hf : ∀ a s', run R p s = .ok a s' → BlindAt R u raw (f a) s') : BlindAt R u raw (p >>= f) s := by
  unfold BlindAt at *
  rw [run_bind, run_bind, h]
  cases hp : run R p s with
  | ok a s' => exact hf a s' hp
  | err e s' => rfl
  | panic p => rfl
  | oof => rfl

theorem blind_bind {α β : Type} {p : Prog α} {f : α → Prog β} (h : Blind R u raw p) (hf : ∀ a, Blind R u raw (f a)) :
    Blind R u raw (p >>= f) := fun s => blindAt_bind (h s) (fun a s' _ => hf a s')

theorem blind_bind' {α β : Type} {p : Prog α} {f : α → Prog β} (h : Blind R u raw p) (hf : ∀ a, Blind R u raw (f a)) :
    Blind R u raw (Prog.bind p f) := blind_bind h hf

theorem blind_pure {α : Type} (a : α) : Blind R u raw (.pure a) := fun _ => rfl
theorem blind_return {α : Type} (a : α) : Blind R u raw (pure a) := fun _ => rfl
theorem blind_panic {α : Type} (p : Panic) : Blind R u raw (.panic p : Prog α) := fun _ => rfl
theorem blind_error {α : Type} (msg : Str) : Blind R u raw (bifError msg : Prog α) := fun _ => rfl

theorem blind_get {β : Type} {k : St → Prog β} (hk : ∀ s, k (rewritten u raw s) = k s) (h : ∀ s, Blind R u raw (k s)) :
    Blind R u raw (getSt >>= k) := by
  intro s
  show run R (k (rewritten u raw s)) (rewritten u raw s) = _
  rw [hk]
  exact h s s

theorem blind_modB {g : BifS → BifS} (h : ∀ b : BifS, g { b with modUpline := u } = { g b with modUpline := u }) :
    Blind R u raw (modB g) := by
  intro s
  show Res.ok () _ = Res.ok () _
  congr 1
  simp only [rewritten, h]

theorem runChild_rewritten (s : St) (scope : Bool) (f : Shared → Inherit → PRes) :
    runChild (rewritten u raw s) scope f = match runChild s scope f with
      | .ok a s' => .ok a (rewritten u raw s')
      | .panic p => .panic p
      | .oof => .oof := by
  have h1 : childInherit (rewritten u raw s) = childInherit s := rfl
  have h2 : (rewritten u raw s).sh = s.sh := rfl
  have h3 : (rewritten u raw s).inh = s.inh := rfl
  unfold runChild
  simp only [h1, h2, h3]
  cases f (if scope = true then createBlockSchema s.sh s.inh else (s.sh, s.inh)).1 (childInherit s) <;> rfl

theorem blind_perform (o : Op) (h1 : o ≠ .get) (h2 : ∀ g, o ≠ .modB g) : Blind R u raw (perform o) := by
  intro s
  have h : step R o (rewritten u raw s) = match step R o s with
      | .ok a s' => .ok a (rewritten u raw s')
      | .panic p => .panic p
      | .oof => .oof := by
    cases o with
    | get => exact absurd rfl h1
    | modB g => exact absurd rfl (h2 g)
    | pushFile k p => cases k <;> rfl
    | setData name v =>
      simp only [step, show (rewritten u raw s).sh = s.sh from rfl, show (rewritten u raw s).inh = s.inh from rfl]
      generalize s.sh.schema.modIndex c!"data" (fun d => d.setIndex name v) = o
      cases o <;> rfl
    | setMoveto name v =>
      simp only [step, show (rewritten u raw s).sh = s.sh from rfl, show (rewritten u raw s).inh = s.inh from rfl]
      generalize s.sh.schema.modIndex c!"__moveto" (fun d => d.setIndex name v) = o
      cases o <;> rfl
    | setIndir sec key v =>
      simp only [step, show (rewritten u raw s).sh = s.sh from rfl, show (rewritten u raw s).inh = s.inh from rfl]
      generalize s.sh.modIndir s.inh.indir (fun x => x.modIndex sec (fun y => y.setIndex key v)) = o
      cases o <;> rfl
    | mergeIndir sec v =>
      simp only [step, show (rewritten u raw s).sh = s.sh from rfl, show (rewritten u raw s).inh = s.inh from rfl]
      generalize s.sh.modIndir s.inh.indir (fun x => x.modIndex sec (fun y => some (mergeSchemaOwned y v))) = o
      cases o <;> rfl
    | child src scope =>
      have := runChild_rewritten (u := u) (raw := raw) s scope (fun sh inh => parseSrc R sh inh src s.only)
      simp only [step]
      refine this.trans ?_
      cases runChild s scope (fun sh inh => parseSrc R sh inh src s.only) <;> rfl
    | childBlocks src blocks scope =>
      have := runChild_rewritten (u := u) (raw := raw) s scope (fun sh inh => R sh inh src blocks s.only)
      simp only [step]
      refine this.trans ?_
      cases runChild s scope (fun sh inh => R sh inh src blocks s.only) <;> rfl
    | _ => rfl
  unfold BlindAt
  simp only [perform, run, h]
  cases step R o s <;> rfl

theorem blind_tick : Blind R u raw tick := blind_perform .tick (by intro h; cases h) (by intro g h; cases h)
theorem blind_child (x : Str) (b : Bool) : Blind R u raw (childParse x b) :=
  blind_perform (.child x b) (by intro h; cases h) (by intro g h; cases h)
theorem blind_setData (k v : Str) : Blind R u raw (setData k v) :=
  blind_perform (.setData k (.str v)) (by intro h; cases h) (by intro g h; cases h)

theorem blind_ite {α : Type} {c : Prop} [Decidable c] {p q : Prog α} (h1 : Blind R u raw p) (h2 : Blind R u raw q) :
    Blind R u raw (if c then p else q) := by
  split
  · exact h1
  · exact h2

/-- Decompose a program. -/
macro "blind_step" : tactic => `(tactic| first
  | with_reducible exact blind_pure _
  | with_reducible exact blind_return _
  | with_reducible exact blind_panic _
  | with_reducible exact blind_error _
  | with_reducible exact blind_tick
  | with_reducible exact blind_child _ _
  | with_reducible exact blind_setData _ _
  | ((with_reducible refine blind_modB ?_); focus (intro b; rfl))
  | ((with_reducible refine blind_perform _ ?_ ?_) <;> (intros; intro h; cases h; done))
  | ((with_reducible refine blind_get ?_ (fun s => ?_)); focus (intro s; rfl))
  | with_reducible refine blind_bind ?_ (fun _ => ?_)
  | with_reducible refine blind_bind' ?_ (fun _ => ?_)
  | with_reducible refine blind_ite ?_ ?_
  | split
  | dsimp only)

theorem blind_denyMods (f : BifS → Bool) (h : ∀ b : BifS, f { b with modUpline := u } = f b) : Blind R u raw (denyMods f) := by
  unfold denyMods
  refine blind_get (fun s => ?_) (fun s => ?_)
  · simp only [rewritten, h]
  · repeat' blind_step
theorem blind_denyFlags : Blind R u raw denyFlags := by unfold denyFlags; repeat' blind_step
theorem blind_denyFlgParams : Blind R u raw denyFlgParams := by unfold denyFlgParams; repeat' blind_step
theorem blind_checkFlags (l : List Str) : Blind R u raw (checkFlags l) := by unfold checkFlags; repeat' blind_step
theorem blind_setCode (x : Str) : Blind R u raw (setCode x) := blind_modB (fun _ => rfl)
theorem blind_parseCode (b : Bool) : Blind R u raw (parseCode b) := by
  unfold parseCode; repeat' (first | with_reducible exact blind_setCode _ | blind_step)
theorem blind_setParams (x : Str) : Blind R u raw (setParams x) := blind_modB (fun _ => rfl)
theorem blind_setOut (x : Str) : Blind R u raw (setOut x) := blind_modB (fun _ => rfl)
theorem blind_setSrc (x : Str) : Blind R u raw (setSrc x) := blind_modB (fun _ => rfl)
theorem blind_setAlias (x : Str) : Blind R u raw (setAlias x) := blind_modB (fun _ => rfl)
theorem blind_setFilePath (x : Str) : Blind R u raw (setFilePath x) := blind_modB (fun _ => rfl)
theorem blind_setDir (x : Str) : Blind R u raw (setDir x) := blind_modB (fun _ => rfl)
theorem blind_outCode : Blind R u raw outCode := blind_modB (fun _ => rfl)
theorem blind_extract (b : Bool) : Blind R u raw (extractParamsCode b) := by
  unfold extractParamsCode
  refine blind_get (fun s => rfl) (fun s => ?_)
  refine blind_bind ?_ (fun _ => ?_)
  · refine blind_modB (fun b => ?_)
    cases getCodePosition s.b.src <;> rfl
  repeat' (first | with_reducible exact blind_setParams _ | blind_step)
theorem blind_argLoop (l : List Str) : Blind R u raw (argLoop l) := by
  induction l with
  | nil => exact blind_pure _
  | cons a r ih =>
    unfold argLoop
    repeat' (first | with_reducible exact ih | blind_step)
theorem blind_extractArgs : Blind R u raw extractArgs := by
  unfold extractArgs
  repeat' (first | with_reducible exact blind_argLoop _ | blind_step)
theorem blind_argReq (l : List Str) (i : Nat) (m : Str) : Blind R u raw (argReq l i m) := by
  unfold argReq; repeat' blind_step
theorem blind_requireAllow (a b : Str) : Blind R u raw (requireAllow a b) := by
  unfold requireAllow; repeat' blind_step
theorem blind_canon (env : Env) (p : Str) : Blind R u raw (canonUnwrap env p) := by
  unfold canonUnwrap; repeat' blind_step
theorem blind_forList {β : Type} (l : List β) (f : β → Prog Unit) (h : ∀ x, Blind R u raw (f x)) : Blind R u raw (forList l f) := by
  induction l with
  | nil => exact blind_pure _
  | cons a r ih => exact blind_bind' (h a) (fun _ => ih)

macro "blind_mid" : tactic => `(tactic| first
  | ((with_reducible refine blind_denyMods _ ?_); focus (intro b; rfl))
  | with_reducible exact blind_denyFlags
  | with_reducible exact blind_denyFlgParams
  | with_reducible exact blind_checkFlags _
  | with_reducible exact blind_extract _
  | with_reducible exact blind_parseCode _
  | with_reducible exact blind_extractArgs
  | with_reducible exact blind_argReq _ _ _
  | with_reducible exact blind_requireAllow _ _
  | with_reducible exact blind_canon _ _
  | with_reducible exact blind_setCode _
  | with_reducible exact blind_setParams _
  | with_reducible exact blind_setOut _
  | with_reducible exact blind_setSrc _
  | with_reducible exact blind_setAlias _
  | with_reducible exact blind_setFilePath _
  | with_reducible exact blind_setDir _
  | with_reducible exact blind_outCode
  | with_reducible refine blind_forList _ _ (fun _ => ?_)
  | blind_step)

theorem blind_resolve : Blind R u raw resolveFilePath := by
  unfold resolveFilePath
  repeat' blind_mid
theorem blind_cond (t : Value → Str → Bool) : Blind R u raw (condBif t) := by unfold condBif; repeat' blind_mid
theorem blind_cmp (t : Str → Str → Bool) : Blind R u raw (cmpBif t) := by unfold cmpBif; repeat' blind_mid
theorem blind_debugEnable (env : Env) : Blind R u raw (debugEnable env) := by unfold debugEnable; repeat' blind_mid
theorem blind_var (env : Env) : Blind R u raw (bifVar env) := by unfold bifVar; repeat' blind_mid
theorem blind_allow (env : Env) : Blind R u raw (bifAllow env) := by unfold bifAllow; repeat' blind_mid
theorem blind_coalesce : Blind R u raw bifCoalesce := by unfold bifCoalesce; repeat' blind_mid
theorem blind_code : Blind R u raw bifCode := by unfold bifCode; repeat' blind_mid
theorem blind_count (env : Env) : Blind R u raw (bifCount env) := by unfold bifCount; repeat' blind_mid
theorem blind_mergeJson (env : Env) (sec : Str) (p : Value → Value) (t : Str) : Blind R u raw (mergeJson env sec p t) := by
  unfold mergeJson; repeat' blind_mid
theorem blind_data (env : Env) : Blind R u raw (bifData env) := by
  unfold bifData; repeat' (first | with_reducible exact blind_resolve | with_reducible exact blind_mergeJson _ _ _ _ | blind_mid)
theorem blind_locale (env : Env) : Blind R u raw (bifLocale env) := by
  unfold bifLocale; repeat' (first | with_reducible exact blind_resolve | with_reducible exact blind_mergeJson _ _ _ _ | blind_mid)
theorem blind_date (env : Env) : Blind R u raw (bifDate env) := by unfold bifDate; repeat' blind_mid
theorem blind_debug (env : Env) : Blind R u raw (bifDebug env) := by
  unfold bifDebug; repeat' (first | with_reducible exact blind_debugEnable _ | blind_mid)
theorem blind_declare : Blind R u raw bifDeclare := by unfold bifDeclare; repeat' blind_mid
theorem blind_eachIter (k v x : Str) (y : Value) (bs : List (Nat × Nat)) : Blind R u raw (eachIter k v x y bs) := by
  unfold eachIter; repeat' blind_mid
theorem blind_each : Blind R u raw bifEach := by
  unfold bifEach; repeat' (first | with_reducible exact blind_eachIter _ _ _ _ _ | blind_mid)
theorem blind_else : Blind R u raw bifElse := by unfold bifElse; repeat' blind_mid
theorem blind_eval (env : Env) : Blind R u raw (bifEval env) := by unfold bifEval; repeat' blind_mid
theorem blind_fetch (env : Env) : Blind R u raw (bifFetch env) := by unfold bifFetch; repeat' blind_mid
theorem blind_forIter (v x : Str) (bs : List (Nat × Nat)) : Blind R u raw (forIter v x bs) := by
  unfold forIter; repeat' blind_mid
theorem blind_for (env : Env) : Blind R u raw (bifFor env) := by
  unfold bifFor; repeat' (first | with_reducible exact blind_forIter _ _ _ | blind_mid)
theorem blind_hash (env : Env) : Blind R u raw (bifHash env) := by unfold bifHash; repeat' blind_mid
theorem blind_include (env : Env) : Blind R u raw (bifInclude env) := by
  unfold bifInclude; repeat' (first | with_reducible exact blind_resolve | blind_mid)
theorem blind_join (env : Env) : Blind R u raw (bifJoin env) := by unfold bifJoin; repeat' blind_mid
theorem blind_lang : Blind R u raw bifLang := by unfold bifLang; repeat' blind_mid
theorem blind_param (env : Env) : Blind R u raw (bifParam env) := by unfold bifParam; repeat' blind_mid
theorem blind_rand (env : Env) : Blind R u raw (bifRand env) := by unfold bifRand; repeat' blind_mid
theorem blind_replace : Blind R u raw bifReplace := by unfold bifReplace; repeat' blind_mid
theorem blind_snippet (env : Env) : Blind R u raw (bifSnippet env) := by unfold bifSnippet; repeat' blind_mid
theorem blind_sum (env : Env) : Blind R u raw (bifSum env) := by unfold bifSum; repeat' blind_mid
theorem blind_trans (env : Env) : Blind R u raw (bifTrans env) := by unfold bifTrans; repeat' blind_mid
theorem blind_cacheParse (b : Bool) (f : Str → Prog Unit) (h : ∀ x, Blind R u raw (f x)) : Blind R u raw (cacheParse b f) := by
  unfold cacheParse; repeat' (first | with_reducible exact h _ | blind_mid)
theorem blind_cacheStore (env : Env) (b : Bool) (d f : Str) : Blind R u raw (cacheStore env b d f) := by
  unfold cacheStore; repeat' (first | with_reducible exact blind_cacheParse _ _ (fun _ => blind_setCode _) | blind_mid)
theorem blind_cacheLookup (env : Env) (b : Bool) (d f e : Str) : Blind R u raw (cacheLookup env b d f e) := by
  unfold cacheLookup
  repeat' (first | with_reducible exact blind_cacheStore _ _ _ _ | with_reducible exact blind_cacheParse _ _ (fun _ => blind_setOut _) | blind_mid)
theorem blind_objString (x : Str) : Blind R u raw (objString x) := by unfold objString; repeat' blind_mid

mutual
theorem blind_objEntry (b : Bool) (k : Str) : ∀ v, Blind R u raw (objEntry b k v)
  | .str x => by unfold objEntry; repeat' (first | with_reducible exact blind_objString _ | blind_mid)
  | .obj o => by unfold objEntry; repeat' (first | with_reducible exact blind_objEntries _ _ | blind_mid)
  | .null => by unfold objEntry; exact blind_pure _
  | .bool _ => by unfold objEntry; exact blind_pure _
  | .num _ => by unfold objEntry; exact blind_pure _
  | .arr _ => by unfold objEntry; exact blind_pure _
theorem blind_objEntries (b : Bool) : ∀ o, Blind R u raw (objEntries b o)
  | [] => by unfold objEntries; exact blind_pure _
  | (k, v) :: r => by
    unfold objEntries
    exact blind_bind' (blind_objEntry b k v) (fun _ => blind_bind' (blind_objEntries b r) (fun _ => blind_pure _))
end

theorem blind_objSource (env : Env) : Blind R u raw (objSource env) := by unfold objSource; repeat' blind_mid
theorem blind_objVenv (o : Value) (d : Str) : Blind R u raw (objVenv o d) := by unfold objVenv; repeat' blind_mid
theorem blind_bridge (env : Env) (f : Str) : Blind R u raw (ensureBridge env f) := by unfold ensureBridge; repeat' blind_mid
theorem blind_objCall (env : Env) (o : Value) (p : Bool) (f : Str) : Blind R u raw (objCall env o p f) := by
  unfold objCall; repeat' (first | with_reducible exact blind_objVenv _ _ | with_reducible exact blind_bridge _ _ | blind_mid)
theorem blind_parseObj (o : Value) : Blind R u raw (parseObjValues o) := by
  unfold parseObjValues; repeat' (first | with_reducible exact blind_objEntries _ _ | blind_mid)
theorem blind_obj (env : Env) : Blind R u raw (bifObj env) := by
  unfold bifObj
  repeat' (first | with_reducible exact blind_objSource _ | with_reducible exact blind_objCall _ _ _ _ | with_reducible exact blind_parseObj _ | blind_mid)
theorem blind_unknown : Blind R u raw bifUnknown := by unfold bifUnknown; repeat' blind_mid

end

end Nts
