import Verif.Props.ErrorText
import Verif.Props.Include
/-
C105: how a BIF is written: the order of its modifiers and the white space between its parts.
-/
set_option autoImplicit false
namespace Nts
open Spec

/-! ### the text of a BIF is not read by its body -/

/-- The parts of a source: whether it has a `>>`, the parameters and the code. -/
def cut (src : Str) : Bool × Str × Str :=
  match getCodePosition src with
  | some p => (true, trim (src.take p), trim (src.drop (p + 2)))
  | none => (false, [], trim src)

theorem splitSrc_cut (b : BifS) : splitSrc b = { b with params := (cut b.src).2.1, code := (cut b.src).2.2 } := by
  unfold splitSrc cut
  cases getCodePosition b.src <;> rfl

theorem cut_found (src : Str) : (cut src).1 = (getCodePosition src).isSome := by
  unfold cut
  split <;> simp_all

/-- The same state for a BIF with another text and another source. -/
def St.rewrite (r x : Str) (s : St) : St := { s with raw := r, b := { s.b with src := x } }

/-- Relations between sources under which bodies may not tell them apart. -/
class Keys (K : Str → Str → Prop) : Prop where
  refl : ∀ x, K x x
  parts : ∀ x y, K x y → cut x = cut y

instance : Keys (Eq : Str → Str → Prop) := ⟨fun _ => rfl, fun _ _ h => h ▸ rfl⟩

/-- Two sources with the same parts. -/
def SameCut (x y : Str) : Prop := cut x = cut y
instance : Keys SameCut := ⟨fun _ => rfl, fun _ _ h => h⟩

/-- Two states that differ only in the text and the source of the BIF. -/
def Sim (K : Str → Str → Prop) (q r : Str) (s t : St) : Prop := s.raw = q ∧ ∃ x, K s.b.src x ∧ t = s.rewrite r x

def ResSim (K : Str → Str → Prop) (q r : Str) {α : Type} : Res α → Res α → Prop
  | .ok a s, .ok b t => a = b ∧ Sim K q r s t
  | .err e s, .err e' t => e.src = q ∧ e' = { e with src := r } ∧ Sim K q r s t
  | .panic p, .panic p' => p = p'
  | .oof, .oof => True
  | _, _ => False

/-- The program reads neither the text of the BIF nor, beyond `K`, its source. -/
def RS (K : Str → Str → Prop) {α : Type} (p : Prog α) : Prop :=
  ∀ R q r s t, Sim K q r s t → ResSim K q r (run R p s) (run R p t)

/-- The same outside of a cache. -/
def RS0 (K : Str → Str → Prop) {α : Type} (p : Prog α) : Prop :=
  ∀ R q r s t, Sim K q r s t → s.inh.inCache = false → ResSim K q r (run R p s) (run R p t)

set_option linter.unusedSectionVars false
section
variable {K : Str → Str → Prop} [Keys K]

theorem ResSim.bind {α β : Type} {q r : Str} {x y : Res α} {f g : α → St → Res β} (h : ResSim K q r x y)
    (hf : ∀ a s t, x = .ok a s → Sim K q r s t → ResSim K q r (f a s) (g a t)) :
    ResSim K q r (x.andThen f) (y.andThen g) := by
  cases x with
  | ok a s =>
    cases y with
    | ok b t =>
      obtain ⟨rfl, h⟩ := h
      exact hf a s t rfl h
    | err e t => exact h.elim
    | panic p => exact h.elim
    | oof => exact h.elim
  | err e s =>
    cases y with
    | err e' t => exact h
    | ok b t => exact h.elim
    | panic p => exact h.elim
    | oof => exact h.elim
  | panic p =>
    cases y with
    | panic p' => exact h
    | ok b t => exact h.elim
    | err e t => exact h.elim
    | oof => exact h.elim
  | oof =>
    cases y with
    | oof => trivial
    | ok b t => exact h.elim
    | err e t => exact h.elim
    | panic p => exact h.elim

theorem rs_bind {α β : Type} {p : Prog α} {f : α → Prog β} (hp : RS K p) (hf : ∀ a, RS K (f a)) : RS K (p >>= f) := by
  intro R q r s t h
  rw [run_bind, run_bind]
  exact (hp R q r s t h).bind (fun a s t _ hst => hf a R q r s t hst)
theorem rs_bind' {α β : Type} {p : Prog α} {f : α → Prog β} (hp : RS K p) (hf : ∀ a, RS K (f a)) : RS K (p.bind f) :=
  rs_bind hp hf
theorem rs_get {β : Type} {f : St → Prog β} (he : ∀ s r x, f (s.rewrite r x) = f s) (hf : ∀ s, RS K (f s)) :
    RS K (getSt >>= f) := by
  intro R q r s t h
  simp only [run_bind, run_getSt, andThen_ok]
  have : f t = f s := by obtain ⟨_, x, _, rfl⟩ := h; exact he s r x
  rw [this]
  exact hf s R q r s t h
theorem rs_getT {β : Type} {f : St → Prog β} (he : ∀ s r, f (s.rewrite r s.b.src) = f s) (hf : ∀ s, RS Eq (f s)) :
    RS Eq (getSt >>= f) := by
  intro R q r s t h
  simp only [run_bind, run_getSt, andThen_ok]
  have : f t = f s := by obtain ⟨_, x, rfl, rfl⟩ := h; exact he s r
  rw [this]
  exact hf s R q r s t h
theorem rs_pure {α : Type} (a : α) : RS K (Prog.pure a) := fun _ _ _ _ _ h => ⟨rfl, h⟩
theorem rs_pure' {α : Type} (a : α) : RS K (pure a : Prog α) := fun _ _ _ _ _ h => ⟨rfl, h⟩
theorem rs_panic {α : Type} (p : Panic) : RS K (.panic p : Prog α) := fun _ _ _ _ _ _ => rfl
theorem rs_error {α : Type} (msg : Str) : RS K (bifError msg : Prog α) := by
  intro R q r s t h
  have h' := h
  obtain ⟨hq, x, hx, rfl⟩ := h
  exact ⟨hq, rfl, h'⟩
theorem rs_modB (f : BifS → BifS) (h : ∀ b x, f { b with src := x } = { f b with src := x }) (h' : ∀ b, (f b).src = b.src) :
    RS K (modB f) := by
  intro R q r s t hs
  obtain ⟨hq, x, hx, rfl⟩ := hs
  refine ⟨rfl, hq, x, ?_, ?_⟩
  · change K (f s.b).src x
    rw [h']; exact hx
  · change ({ s with raw := r, b := f { s.b with src := x } } : St) = _
    rw [h]
    rfl
theorem rs_modT (f : BifS → BifS) : RS Eq (modB f) := by
  intro R q r s t hs
  obtain ⟨hq, x, rfl, rfl⟩ := hs
  exact ⟨rfl, hq, _, rfl, rfl⟩

/-- Operations other than reading the state and assigning the fields of the BIF. -/
def OutsideB : Op → Prop
  | .get => False
  | .modB _ => False
  | _ => True

theorem rs_child (scope : Bool) (f : Shared → Inherit → PRes) (s : St) (q r x : Str) (hq : s.raw = q) (hx : K s.b.src x) :
    ResSim K q r (runChild s scope f).toRes (runChild (s.rewrite r x) scope f).toRes := by
  unfold runChild
  dsimp only
  have e : childInherit (s.rewrite r x) = childInherit s := rfl
  have e1 : (s.rewrite r x).sh = s.sh := rfl
  have e2 : (s.rewrite r x).inh = s.inh := rfl
  rw [e, e1, e2]
  cases f (if scope = true then createBlockSchema s.sh s.inh else (s.sh, s.inh)).1 (childInherit s) with
  | ok out sh2 ci2 => exact ⟨rfl, hq, x, hx, rfl⟩
  | panic p => rfl
  | oof => trivial

theorem rs_opt (s : St) (q r x : Str) (hq : s.raw = q) (hx : K s.b.src x) {β : Type} (o : Option β) (g : St → β → St)
    (hg : ∀ b, g (s.rewrite r x) b = (g s b).rewrite r x) (hr : ∀ b, (g s b).raw = s.raw) (hb : ∀ b, (g s b).b = s.b) :
    ResSim K q r (oresOpt (o.map (g s))).toRes (oresOpt (o.map (g (s.rewrite r x)))).toRes := by
  cases o with
  | none => rfl
  | some b =>
    refine ⟨rfl, (hr b).trans hq, x, ?_, ?_⟩
    · rw [hb]; exact hx
    · exact hg b

theorem rs_op (o : Op) (h : OutsideB o) : RS K (perform o) := by
  intro R q r s t hs
  obtain ⟨hq, x, hx, rfl⟩ := hs
  rw [run_perform, run_perform]
  cases o with
  | get => exact h.elim
  | modB f => exact h.elim
  | child src scope => exact rs_child scope (fun sh inh => parseSrc R sh inh src s.only) s q r x hq hx
  | childBlocks src bs scope => exact rs_child scope (fun sh inh => R sh inh src bs s.only) s q r x hq hx
  | setData name v => exact rs_opt s q r x hq hx _ (fun s sc => { s with sh := { s.sh with schema := sc } }) (fun _ => rfl) (fun _ => rfl) (fun _ => rfl)
  | setMoveto name v => exact rs_opt s q r x hq hx _ (fun s sc => { s with sh := { s.sh with schema := sc } }) (fun _ => rfl) (fun _ => rfl) (fun _ => rfl)
  | setIndir sec key v => exact rs_opt s q r x hq hx _ (fun s sh => { s with sh := sh }) (fun _ => rfl) (fun _ => rfl) (fun _ => rfl)
  | mergeIndir sec v => exact rs_opt s q r x hq hx _ (fun s sh => { s with sh := sh }) (fun _ => rfl) (fun _ => rfl) (fun _ => rfl)
  | pushFile kd p => cases kd <;> exact ⟨rfl, hq, x, hx, rfl⟩
  | _ => exact ⟨rfl, hq, x, hx, rfl⟩

theorem rs_childParse (y : Str) (b : Bool) : RS K (childParse y b) := rs_op (.child y b) trivial
theorem rs_setCode (y : Str) : RS K (setCode y) := rs_modB _ (fun _ _ => rfl) (fun _ => rfl)
theorem rs_setParams (y : Str) : RS K (setParams y) := rs_modB _ (fun _ _ => rfl) (fun _ => rfl)
theorem rs_setOut (y : Str) : RS K (setOut y) := rs_modB _ (fun _ _ => rfl) (fun _ => rfl)
theorem rs_setAlias (y : Str) : RS K (setAlias y) := rs_modB _ (fun _ _ => rfl) (fun _ => rfl)
theorem rs_setFilePath (y : Str) : RS K (setFilePath y) := rs_modB _ (fun _ _ => rfl) (fun _ => rfl)
theorem rs_setDir (y : Str) : RS K (setDir y) := rs_modB _ (fun _ _ => rfl) (fun _ => rfl)
theorem rs_outCode : RS K outCode := rs_modB _ (fun _ _ => rfl) (fun _ => rfl)
theorem rs_setData (a b : Str) : RS K (setData a b) := rs_op (.setData _ _) trivial
theorem rs_tick : RS K tick := rs_op .tick trivial
theorem rs_setSrc (y : Str) : RS Eq (setSrc y) := rs_modT _

macro "rs_step" : tactic => `(tactic| first
  | with_reducible refine rs_get (fun _ _ _ => rfl) (fun _ => ?_)
  | with_reducible refine rs_bind ?_ (fun _ => ?_)
  | with_reducible refine rs_bind' ?_ (fun _ => ?_)
  | with_reducible exact rs_pure _
  | with_reducible exact rs_pure' _
  | with_reducible exact rs_panic _
  | with_reducible exact rs_error _
  | with_reducible exact rs_childParse _ _
  | with_reducible exact rs_setCode _
  | with_reducible exact rs_setParams _
  | with_reducible exact rs_setOut _
  | with_reducible exact rs_setSrc _
  | with_reducible exact rs_setAlias _
  | with_reducible exact rs_setFilePath _
  | with_reducible exact rs_setDir _
  | with_reducible exact rs_setData _ _
  | with_reducible exact rs_outCode
  | with_reducible exact rs_tick
  | with_reducible exact rs_modB _ (fun _ _ => rfl) (fun _ => rfl)
  | ((with_reducible refine rs_op _ ?_); exact trivial)
  | split
  | dsimp only)

theorem rs_denyMods (f : BifS → Bool) (h : ∀ b x, f { b with src := x } = f b) : RS K (denyMods f) := by
  unfold denyMods
  refine rs_get (fun s r x => ?_) (fun s => ?_)
  · change (if f { s.b with src := x } = true then _ else _) = _
    rw [h]
  · repeat' rs_step
theorem rs_denyFlags : RS K denyFlags := by unfold denyFlags; repeat' rs_step
theorem rs_denyFlgParams : RS K denyFlgParams := by unfold denyFlgParams; repeat' rs_step
theorem rs_checkFlags (l : List Str) : RS K (checkFlags l) := by unfold checkFlags; repeat' rs_step
theorem rs_parseCode (b : Bool) : RS K (parseCode b) := by unfold parseCode; repeat' rs_step
theorem rs_argLoop (l : List Str) : RS K (argLoop l) := by
  induction l with
  | nil => exact rs_pure _
  | cons a r ih => unfold argLoop; repeat' (first | exact ih | rs_step)
theorem rs_extractArgs : RS K extractArgs := by
  unfold extractArgs; repeat' (first | exact rs_argLoop _ | rs_step)
theorem rs_argReq (l : List Str) (i : Nat) (m : Str) : RS K (argReq l i m) := by unfold argReq; repeat' rs_step
theorem rs_canon (env : Env) (p : Str) : RS K (canonUnwrap env p) := by
  unfold canonUnwrap; repeat' rs_step
theorem rs_forList {β : Type} (l : List β) (f : β → Prog Unit) (h : ∀ x, RS K (f x)) : RS K (forList l f) := by
  induction l with
  | nil => exact rs_pure _
  | cons a r ih => exact rs_bind' (h a) (fun _ => ih)

theorem rs_extract (parse : Bool) : RS K (extractParamsCode parse) := by
  intro R q r s t hs
  obtain ⟨hq, x, hx, rfl⟩ := hs
  have hc : cut x = cut s.b.src := (Keys.parts _ _ hx).symm
  rw [run_extractParamsCode, run_extractParamsCode]
  dsimp only
  simp only [splitSrc_cut, ← cut_found]
  have e : (s.rewrite r x).b.src = x := rfl
  rw [e, hc]
  change ResSim K q r _ (if (parse && contains bifOpen (cut s.b.src).2.1) = true then _ else _)
  by_cases hb : (parse && contains bifOpen (cut s.b.src).2.1) = true
  · rw [if_pos hb, if_pos hb]
    refine ResSim.bind (rs_childParse (K := K) _ _ R q r _ _ ⟨hq, x, hx, rfl⟩) ?_
    intro a s1 t1 _ h1
    obtain ⟨hq1, x1, hx1, rfl⟩ := h1
    exact ⟨rfl, hq1, x1, hx1, rfl⟩
  · rw [if_neg hb, if_neg hb]
    exact ⟨rfl, hq, x, hx, rfl⟩

/-! ### the bodies -/

macro "rs_mid" : tactic => `(tactic| first
  | with_reducible exact rs_denyMods _ (fun _ _ => rfl)
  | with_reducible exact rs_denyFlags
  | with_reducible exact rs_denyFlgParams
  | with_reducible exact rs_checkFlags _
  | with_reducible exact rs_extract _
  | with_reducible exact rs_parseCode _
  | with_reducible exact rs_extractArgs
  | with_reducible exact rs_argReq _ _ _
  | with_reducible exact rs_canon _ _
  | with_reducible refine rs_forList _ _ (fun _ => ?_)
  | rs_step)

/-- For bodies that read the source itself. -/
macro "rt_mid" : tactic => `(tactic| first
  | with_reducible refine rs_getT (fun _ _ => rfl) (fun _ => ?_)
  | rs_mid
  | with_reducible exact rs_modT _)

theorem rs_cond (t : Value → Str → Bool) : RS K (condBif t) := by unfold condBif; repeat' rs_mid
theorem rs_cmp (t : Str → Str → Bool) : RS K (cmpBif t) := by unfold cmpBif; repeat' rs_mid
theorem rs_debugEnable (env : Env) : RS K (debugEnable env) := by unfold debugEnable; repeat' rs_mid
theorem rs_mergeJson (env : Env) (sec : Str) (part : Value → Value) (text : Str) :
    RS K (mergeJson env sec part text) := by
  unfold mergeJson; repeat' rs_mid
theorem rs_allow (env : Env) : RS K (bifAllow env) := by unfold bifAllow; repeat' rs_mid
theorem rs_coalesce : RS Eq bifCoalesce := by unfold bifCoalesce; repeat' rt_mid
theorem rs_code : RS K bifCode := by unfold bifCode; repeat' rs_mid
theorem rs_count (env : Env) : RS K (bifCount env) := by unfold bifCount; repeat' rs_mid
theorem rs_date (env : Env) : RS Eq (bifDate env) := by unfold bifDate; repeat' rt_mid
theorem rs_debug (env : Env) : RS K (bifDebug env) := by
  unfold bifDebug; repeat' (first | with_reducible exact rs_debugEnable _ | rs_mid)
theorem rs_declare : RS K bifDeclare := by unfold bifDeclare; repeat' rs_mid
theorem rs_each : RS K bifEach := by unfold bifEach eachIter; repeat' rs_mid
theorem rs_else : RS K bifElse := by unfold bifElse; repeat' rs_mid
theorem rs_eval (env : Env) : RS K (bifEval env) := by unfold bifEval; repeat' rs_mid
theorem rs_fetch (env : Env) : RS K (bifFetch env) := by unfold bifFetch; repeat' rs_mid
theorem rs_flg : RS K bifFlg := by unfold bifFlg; repeat' rs_mid
theorem rs_for (env : Env) : RS K (bifFor env) := by unfold bifFor forIter; repeat' rs_mid
theorem rs_hash (env : Env) : RS Eq (bifHash env) := by unfold bifHash; repeat' rt_mid
theorem rs_join (env : Env) : RS Eq (bifJoin env) := by unfold bifJoin; repeat' rt_mid
theorem rs_lang : RS K bifLang := by unfold bifLang; repeat' rs_mid
theorem rs_param (env : Env) : RS K (bifParam env) := by unfold bifParam; repeat' rs_mid
theorem rs_rand (env : Env) : RS Eq (bifRand env) := by unfold bifRand; repeat' rt_mid
theorem rs_replace : RS K bifReplace := by unfold bifReplace; repeat' rs_mid
theorem rs_snippet (env : Env) : RS K (bifSnippet env) := by unfold bifSnippet; repeat' rs_mid
theorem rs_sum (env : Env) : RS Eq (bifSum env) := by unfold bifSum; repeat' rt_mid
theorem rs_trans (env : Env) : RS Eq (bifTrans env) := by unfold bifTrans; repeat' rt_mid
theorem rs_unknown : RS K bifUnknown := by unfold bifUnknown; repeat' rs_mid
theorem rs_cacheParse (b : Bool) (f : Str → Prog Unit) (h : ∀ x, RS K (f x)) : RS K (cacheParse b f) := by
  unfold cacheParse; repeat' (first | exact h _ | rs_mid)
theorem rs_cacheStore (env : Env) (b : Bool) (d f : Str) : RS K (cacheStore env b d f) := by
  unfold cacheStore; repeat' (first | with_reducible exact rs_cacheParse _ _ (fun _ => rs_setCode _) | rs_mid)
theorem rs_cacheLookup (env : Env) (b : Bool) (d f e : Str) : RS K (cacheLookup env b d f e) := by
  unfold cacheLookup
  repeat' (first
    | with_reducible exact rs_cacheStore _ _ _ _
    | with_reducible exact rs_cacheParse _ _ (fun _ => rs_setOut _)
    | rs_mid)
theorem rs_objVenv (o : Value) (d : Str) : RS K (objVenv o d) := by unfold objVenv; repeat' rs_mid
theorem rs_objCall (env : Env) (o : Value) (p : Bool) (f : Str) : RS K (objCall env o p f) := by
  unfold objCall ensureBridge; repeat' (first | with_reducible exact rs_objVenv _ _ | rs_mid)
mutual
theorem rs_objEntry (r : Bool) (k : Str) : ∀ v, RS K (objEntry r k v)
  | .str x => by unfold objEntry objString; repeat' rs_mid
  | .obj o => by unfold objEntry; repeat' (first | exact rs_objEntries _ _ | rs_mid)
  | .null => by unfold objEntry; exact rs_pure _
  | .bool _ => by unfold objEntry; exact rs_pure _
  | .num _ => by unfold objEntry; exact rs_pure _
  | .arr _ => by unfold objEntry; exact rs_pure _
theorem rs_objEntries (r : Bool) : ∀ o, RS K (objEntries r o)
  | [] => rs_pure _
  | (k, v) :: rest => by
    unfold objEntries
    exact rs_bind' (rs_objEntry r k v) (fun _ => rs_bind' (rs_objEntries r rest) (fun _ => rs_pure _))
end
theorem rs_parseObj (v : Value) : RS K (parseObjValues v) := by
  cases v with
  | obj o => exact rs_bind' (rs_objEntries false o) (fun _ => rs_pure _)
  | _ => exact rs_pure _
theorem rs_requireAllow (a b : Str) : RS K (requireAllow a b) := by unfold requireAllow; repeat' rs_step
theorem rs_resolve : RS K resolveFilePath := by
  unfold resolveFilePath; repeat' (first | with_reducible exact rs_requireAllow _ _ | rs_step)
theorem rs_var (env : Env) : RS Eq (bifVar env) := by
  unfold bifVar; repeat' (first | with_reducible exact rs_requireAllow _ _ | rt_mid)
theorem rs_include (env : Env) : RS K (bifInclude env) := by
  unfold bifInclude; repeat' (first | with_reducible exact rs_resolve | rs_mid)
theorem rs_data (env : Env) : RS K (bifData env) := by
  unfold bifData; repeat' (first | with_reducible exact rs_resolve | with_reducible exact rs_mergeJson _ _ _ _ | rs_mid)
theorem rs_locale (env : Env) : RS K (bifLocale env) := by
  unfold bifLocale; repeat' (first | with_reducible exact rs_resolve | with_reducible exact rs_mergeJson _ _ _ _ | rs_mid)
theorem rs_obj (env : Env) : RS Eq (bifObj env) := by
  unfold bifObj objSource
  repeat' (first
    | with_reducible exact rs_requireAllow _ _
    | with_reducible exact rs_parseObj _
    | with_reducible exact rs_objCall _ _ _ _
    | rt_mid)

/-! ### the bodies that copy the text of the BIF inside of a cache -/

/-- The program does not leave the cache. -/
def KeepsCache {α : Type} (p : Prog α) : Prop := ∀ R s a s', run R p s = .ok a s' → s'.inh.inCache = s.inh.inCache

theorem rs0_of {α : Type} {p : Prog α} (h : RS K p) : RS0 K p := fun R q r s t hs _ => h R q r s t hs
theorem rs0_stay {α β : Type} {p : Prog α} {f : α → Prog β} (hp : RS K p) (hk : KeepsCache p) (hf : ∀ a, RS0 K (f a)) :
    RS0 K (p >>= f) := by
  intro R q r s t h hc
  rw [run_bind, run_bind]
  exact (hp R q r s t h).bind (fun a s' t' hr hst => hf a R q r s' t' hst ((hk R s a s' hr).trans hc))
theorem rs0_bind {α β : Type} {p : Prog α} {f : α → Prog β} (hp : RS0 K p) (hf : ∀ a, RS K (f a)) :
    RS0 K (p >>= f) := by
  intro R q r s t h hc
  rw [run_bind, run_bind]
  exact (hp R q r s t h hc).bind (fun a s' t' _ hst => hf a R q r s' t' hst)
theorem rs0_get {β : Type} {f : St → Prog β} (he : ∀ s r x, s.inh.inCache = false → f (s.rewrite r x) = f s)
    (hf : ∀ s, s.inh.inCache = false → RS K (f s)) : RS0 K (getSt >>= f) := by
  intro R q r s t h hc
  simp only [run_bind, run_getSt, andThen_ok]
  have : f t = f s := by obtain ⟨_, x, _, rfl⟩ := h; exact he s r x hc
  rw [this]
  exact hf s hc R q r s t h

theorem stays_denyMods (f : BifS → Bool) : KeepsCache (denyMods f) := by
  intro R s a s' h
  rw [run_denyMods] at h
  split at h
  · simp at h
  · simp only [Res.ok.injEq] at h; rw [h.2]
theorem stays_denyFlgParams : KeepsCache denyFlgParams := by
  intro R s a s' h
  rw [run_denyFlgParams] at h
  split at h
  · simp at h
  · simp only [Res.ok.injEq] at h; rw [h.2]
theorem stays_extract (b : Bool) : KeepsCache (extractParamsCode b) := by
  intro R s a s' h
  rw [(extractParamsCode_ok h).2.2.1]

theorem rs0_outUncached : RS0 K outUncached := by
  unfold outUncached
  refine rs0_get (fun s r x hc => ?_) (fun s _ => rs_setOut _)
  have e : (s.rewrite r x).inh = s.inh := rfl
  rw [e, hc]
  rfl

theorem rs0_exit : RS0 K bifExit := by
  unfold bifExit
  refine rs0_stay (rs_denyMods _ (fun _ _ => rfl)) (stays_denyMods _) (fun _ => ?_)
  refine rs0_bind rs0_outUncached (fun _ => ?_)
  repeat' rs_mid
theorem rs0_redirect : RS0 K bifRedirect := by
  unfold bifRedirect
  refine rs0_stay (rs_denyMods _ (fun _ _ => rfl)) (stays_denyMods _) (fun _ => ?_)
  refine rs0_bind rs0_outUncached (fun _ => ?_)
  repeat' rs_mid
theorem rs0_moveto (env : Env) : RS0 K (bifMoveto env) := by
  unfold bifMoveto
  refine rs0_stay (rs_denyMods _ (fun _ _ => rfl)) (stays_denyMods _) (fun _ => ?_)
  refine rs0_bind rs0_outUncached (fun _ => ?_)
  repeat' rs_mid
theorem rs0_cache (env : Env) : RS0 K (bifCache env) := by
  unfold bifCache
  refine rs0_stay (rs_denyMods _ (fun _ _ => rfl)) (stays_denyMods _) (fun _ => ?_)
  refine rs0_stay (rs_extract _) (stays_extract _) (fun _ => ?_)
  refine rs0_stay rs_denyFlgParams stays_denyFlgParams (fun _ => ?_)
  refine rs0_get (fun s r x hc => ?_) (fun s hc => ?_)
  · have e : (s.rewrite r x).inh = s.inh := rfl
    rw [e, hc]
    rfl
  · rw [hc]
    repeat' (first | with_reducible exact rs_cacheLookup _ _ _ _ _ | rs_mid)

theorem found_contains {src : Str} (h : (cut src).1 = true) : contains c!">>" src = true := by
  rw [cut_found] at h
  unfold getCodePosition at h
  split at h
  · simp at h
  · simp_all

/-- `obj` with parameters. -/
theorem rs_objP (env : Env) (R : Rec) (q r : Str) (s t : St) (hs : Sim SameCut q r s t) (hf : (cut s.b.src).1 = true) :
    ResSim SameCut q r (run R (bifObj env) s) (run R (bifObj env) t) := by
  unfold bifObj
  rw [run_bind, run_bind]
  refine ResSim.bind (rs_denyMods (K := SameCut) _ (fun _ _ => rfl) R q r s t hs) (fun _ s1 t1 h1 hs1 => ?_)
  have e1 : s1 = s := by
    rw [run_denyMods] at h1
    split at h1
    · simp at h1
    · simp only [Res.ok.injEq] at h1; exact h1.2.symm
  subst e1
  rw [run_bind, run_bind, run_getSt, run_getSt]
  simp only [andThen_ok]
  obtain ⟨hq, x, hx, rfl⟩ := hs1
  have hc1 := found_contains hf
  have hc2 : contains c!">>" (s1.rewrite r x).b.src = true := found_contains (by
    change (cut x).1 = true
    rw [← show cut s1.b.src = cut x from hx]; exact hf)
  simp only [hc1, hc2, if_true]
  unfold objSource
  refine (?_ : RS SameCut _) R q r _ _ ⟨hq, x, hx, rfl⟩
  repeat' (first
    | with_reducible exact rs_requireAllow _ _
    | with_reducible exact rs_parseObj _
    | with_reducible exact rs_objCall _ _ _ _
    | rs_mid)

end

/-! ### C105 -/

/-- The BIFs whose source is read as a whole: it has no parameters of its own. -/
def Spec.wholes : List Str := [[], c!"coalesce", c!"date", c!"hash", c!"join", c!"rand", c!"sum", c!"trans"]

/-- The BIFs that inside of a cache print a copy of themselves, for later. -/
def Spec.copiers : List Str := [c!"cache", c!"exit", c!"moveto", c!"redirect"]

/-- Two sources that mean the same to the BIF `name`: they differ in the white space around them or, for BIFs with
parameters, in the white space around the parameters and the code. -/
def Spec.SameSource (name s1 s2 : Str) : Prop :=
  trim s1 = trim s2 ∨ (name ∉ wholes ∧ ∃ p c, Parts s1 p c ∧ Parts s2 p c)

/-- The same answer and the same effects, but for the text of the BIF that the line of an error ends with. -/
def Spec.SameAnswer (t1 t2 : Str) : PRes → PRes → Prop
  | .ok o1 sh1 i1, .ok o2 sh2 i2 => o1 = o2 ∧ i1 = i2 ∧
      (sh1 = sh2 ∨ ∃ sh line, sh1 = pushError sh (oneLine (line ++ t1)) ∧ sh2 = pushError sh (oneLine (line ++ t2)))
  | .panic p, .panic q => p = q
  | .oof, .oof => True
  | _, _ => False

theorem cut_parts {src c : Str} {p : Option Str} (h : Parts src p c) : cut (trim src) = (p.isSome, p.getD [], c) := by
  obtain ⟨h1, h2⟩ := splitSrc_parts h { BifS.new with src := trim src } rfl
  rw [splitSrc_cut] at h1
  simp only [BifS.mk.injEq] at h1
  rw [← cut_found] at h2
  have := h1.2.2.2
  exact Prod.ext h2 (Prod.ext this.2.1 this.1)

theorem parts_none {src c : Str} (h : Parts src none c) : c = trim src := by
  cases h with
  | code _ => rfl

/-- The same outside of a cache, or anywhere when `C`. -/
def RSC (C : Prop) (K : Str → Str → Prop) {α : Type} (p : Prog α) : Prop :=
  ∀ R q r s t, Sim K q r s t → (C ∨ s.inh.inCache = false) → ResSim K q r (run R p s) (run R p t)

theorem rsc_of {C : Prop} {K : Str → Str → Prop} {α : Type} {p : Prog α} (h : RS K p) : RSC C K p :=
  fun R q r s t hs _ => h R q r s t hs

theorem rsc_ite {C : Prop} {K : Str → Str → Prop} {α : Type} {c : Prop} [Decidable c] {p q : Prog α} (h1 : c → RSC C K p)
    (h2 : ¬ c → RSC C K q) : RSC C K (if c then p else q) := by
  by_cases h : c
  · rw [if_pos h]; exact h1 h
  · rw [if_neg h]; exact h2 h

theorem rsc_body (env : Env) (name : Str) {C : Prop} (hC : C → name ∉ copiers) (hn : name ≠ c!"neutral") {K : Str → Str → Prop} [Keys K]
    (hw : K = Eq ∨ (name ∉ wholes ∧ name ≠ c!"obj")) : RSC C K (bifBody env name) := by
  have whole : ∀ {n : Str} {p : Prog Unit}, name = n → (n ∈ wholes ∨ n = c!"obj") → RS Eq p → RSC C K p := by
    intro n p h hm hp
    rcases hw with rfl | hw
    · exact rsc_of hp
    · subst h
      rcases hm with hm | hm
      · exact absurd hm hw.1
      · exact absurd hm hw.2
  have copier : ∀ {n : Str} {p : Prog Unit}, name = n → n ∈ copiers → RS0 K p → RSC C K p := by
    intro n p h hm hp R q r s t hs hc
    refine hp R q r s t hs (hc.resolve_left (fun h' => ?_))
    exact hC h' (h ▸ hm)
  unfold bifBody
  refine rsc_ite (fun h => whole h (.inl (by decide)) (rs_var env)) (fun n0 => ?_)
  refine rsc_ite (fun _ => rsc_of (rs_allow env)) (fun n1 => ?_)
  refine rsc_ite (fun _ => rsc_of (rs_cond _)) (fun n2 => ?_)
  refine rsc_ite (fun _ => rsc_of (rs_cond _)) (fun n3 => ?_)
  refine rsc_ite (fun h => copier h (by decide) (rs0_cache env)) (fun n4 => ?_)
  refine rsc_ite (fun h => whole h (.inl (by decide)) rs_coalesce) (fun n5 => ?_)
  refine rsc_ite (fun _ => rsc_of rs_code) (fun n6 => ?_)
  refine rsc_ite (fun _ => rsc_of (rs_cmp _)) (fun n7 => ?_)
  refine rsc_ite (fun _ => rsc_of (rs_count env)) (fun n8 => ?_)
  refine rsc_ite (fun _ => rsc_of (rs_data env)) (fun n9 => ?_)
  refine rsc_ite (fun h => whole h (.inl (by decide)) (rs_date env)) (fun n10 => ?_)
  refine rsc_ite (fun _ => rsc_of rs_declare) (fun n11 => ?_)
  refine rsc_ite (fun _ => rsc_of (rs_cond _)) (fun n12 => ?_)
  refine rsc_ite (fun _ => rsc_of rs_each) (fun n13 => ?_)
  refine rsc_ite (fun _ => rsc_of rs_else) (fun n14 => ?_)
  refine rsc_ite (fun _ => rsc_of (rs_eval env)) (fun n15 => ?_)
  refine rsc_ite (fun h => copier h (by decide) rs0_exit) (fun n16 => ?_)
  refine rsc_ite (fun _ => rsc_of (rs_fetch env)) (fun n17 => ?_)
  refine rsc_ite (fun _ => rsc_of (rs_cond _)) (fun n18 => ?_)
  refine rsc_ite (fun _ => rsc_of rs_flg) (fun n19 => ?_)
  refine rsc_ite (fun _ => rsc_of (rs_for env)) (fun n20 => ?_)
  refine rsc_ite (fun h => whole h (.inl (by decide)) (rs_hash env)) (fun n21 => ?_)
  refine rsc_ite (fun _ => rsc_of (rs_include env)) (fun n22 => ?_)
  refine rsc_ite (fun h => whole h (.inl (by decide)) (rs_join env)) (fun n23 => ?_)
  refine rsc_ite (fun _ => rsc_of rs_lang) (fun n24 => ?_)
  refine rsc_ite (fun _ => rsc_of (rs_locale env)) (fun n25 => ?_)
  refine rsc_ite (fun h => copier h (by decide) (rs0_moveto env)) (fun n26 => ?_)
  refine rsc_ite (fun h => absurd h hn) (fun n27 => ?_)
  refine rsc_ite (fun _ => rsc_of (rs_param env)) (fun n28 => ?_)
  refine rsc_ite (fun h => whole h (.inl (by decide)) (rs_rand env)) (fun n29 => ?_)
  refine rsc_ite (fun h => copier h (by decide) rs0_redirect) (fun n30 => ?_)
  refine rsc_ite (fun _ => rsc_of rs_replace) (fun n31 => ?_)
  refine rsc_ite (fun _ => rsc_of (rs_cmp _)) (fun n32 => ?_)
  refine rsc_ite (fun _ => rsc_of (rs_snippet env)) (fun n33 => ?_)
  refine rsc_ite (fun _ => rsc_of (rs_snippet env)) (fun n34 => ?_)
  refine rsc_ite (fun h => whole h (.inl (by decide)) (rs_sum env)) (fun n35 => ?_)
  refine rsc_ite (fun h => whole h (.inl (by decide)) (rs_trans env)) (fun n36 => ?_)
  refine rsc_ite (fun h => whole h (.inr rfl) (rs_obj env)) (fun n37 => ?_)
  refine rsc_ite (fun _ => rsc_of (rs_debug env)) (fun n38 => ?_)
  exact rsc_of rs_unknown

theorem sim_answer (env : Env) {K : Str → Str → Prop} {q r : Str} {x y : Res Unit} (h : ResSim K q r x y) :
    SameAnswer q r (bifResult env x) (bifResult env y) := by
  cases x with
  | ok a s =>
    cases y with
    | ok b t =>
      obtain ⟨_, _, z, _, rfl⟩ := h
      exact ⟨rfl, rfl, .inl rfl⟩
    | err e t => exact h.elim
    | panic p => exact h.elim
    | oof => exact h.elim
  | err e s =>
    cases y with
    | err e' t =>
      obtain ⟨hq, he, _, z, _, rfl⟩ := h
      unfold bifResult
      dsimp only
      have e1 : (s.rewrite r z).sh = s.sh := rfl
      rw [e1]
      cases showErrors s.sh with
      | none => exact rfl
      | some b =>
        refine ⟨rfl, rfl, .inr ⟨{ s.sh with w := { s.sh.w with tick := s.sh.w.tick + 1 } },
          c!"[" ++ env.localTime s.sh.w.tick ++ c!"] Error (" ++ e.name ++ c!") " ++ e.msg ++ c!" file~: (" ++ e.file
            ++ c!") src: ", ?_, ?_⟩⟩
        · change pushError _ (errorLine _ e) = _
          rw [← hq]; rfl
        · change pushError _ (errorLine _ e') = _
          rw [he]; rfl
    | ok b t => exact h.elim
    | panic p => exact h.elim
    | oof => exact h.elim
  | panic p =>
    cases y with
    | panic p' => exact h
    | ok b t => exact h.elim
    | err e t => exact h.elim
    | oof => exact h.elim
  | oof =>
    cases y with
    | oof => trivial
    | ok b t => exact h.elim
    | err e t => exact h.elim
    | panic p => exact h.elim

/-- **C105** The order and the repetition of the modifiers of a BIF, the white space around its source and the white
space around its parameters and its code do not matter: every such way of writing it gives the same output and the same
effects (the text at the end of an error line aside).  Inside of a cache this is claimed only of the BIFs that are not
copied into it: see `C105_refuted`. -/
theorem C105_written_partial (env : Env) (R : Rec) (sh : Shared) (inh : Inherit) (m1 m2 name s1 s2 only : Str) (hm1 : Mods m1)
    (hm2 : Mods m2) (hn : Named name) (hsame : ∀ c, c ∈ m1 ↔ c ∈ m2) (hsrc : SameSource name s1 s2)
    (honly : only = [] ∨ inh.inOnly = true) (hcache : inh.inCache = false ∨ name ∉ copiers) (hneutral : name ≠ c!"neutral") :
    SameAnswer (bifText m1 name s1) (bifText m2 name s2) (runBif env R sh inh (bifText m1 name s1) only)
      (runBif env R sh inh (bifText m2 name s2) only) := by
  by_cases hmax : sh.count < sh.max
  · have sel : ∀ m, Selected inh m name only := fun m => honly.elim .inl (fun h => .inr (.inl h))
    rw [runBif_text env R sh inh m1 name s1 only hm1 hn hmax (sel _),
      runBif_text env R sh inh m2 name s2 only hm2 hn hmax (sel _)]
    have hst : start sh inh m2 name s2 only = (start sh inh m1 name s1 only).rewrite (bifText m2 name s2) (trim s2) := by
      simp only [start, St.rewrite, hsame]
    have hsim : ∀ K : Str → Str → Prop, K (trim s1) (trim s2) →
        Sim K (bifText m1 name s1) (bifText m2 name s2) (start sh inh m1 name s1 only) (start sh inh m2 name s2 only) :=
      fun K hk => ⟨rfl, _, hk, hst⟩
    have eqCase : trim s1 = trim s2 → SameAnswer (bifText m1 name s1) (bifText m2 name s2)
        (bifResult env (run R (bifBody env name) (start sh inh m1 name s1 only)))
        (bifResult env (run R (bifBody env name) (start sh inh m2 name s2 only))) :=
      fun h => sim_answer env (rsc_body env name (C := name ∉ copiers) id hneutral (.inl rfl) R _ _ _ _ (hsim Eq h) hcache.symm)
    rcases hsrc with h | ⟨hw, p, c, h1, h2⟩
    · exact eqCase h
    · have hc : SameCut (trim s1) (trim s2) := (cut_parts h1).trans (cut_parts h2).symm
      by_cases ho : name = c!"obj"
      · cases p with
        | none =>
          exact eqCase ((parts_none h1).symm.trans (parts_none h2))
        | some p =>
          have hb : bifBody env name = bifObj env := by rw [ho]; rfl
          rw [hb]
          refine sim_answer env (rs_objP env R _ _ _ _ (hsim SameCut hc) ?_)
          change (cut (trim s1)).1 = true
          rw [cut_parts h1]; rfl
      · exact sim_answer env (rsc_body env name (C := name ∉ copiers) id hneutral (K := SameCut) (.inr ⟨hw, ho⟩) R _ _ _ _ (hsim SameCut hc) hcache.symm)
  · unfold runBif
    rw [if_pos (by omega), if_pos (by omega)]
    exact rfl

/-- **C105** (inside of a cache) The claim is false of the code: `^!` and `!^` are the same modifiers, but in a cached block with
another `{:!cache;` the page of the first is finished, the page of the second shows the source of the BIF. -/
theorem C105_refuted :
    Sample.outOf (Sample.go [(c!"x", .str c!"X")]
      c!"{:cache; /300/ >> {:^!cache; {:;x:} :}{:!cache; {:;x:} :} :}") = some (c!"XX", c!"200") ∧
    Sample.outOf (Sample.go [(c!"x", .str c!"X")]
      c!"{:cache; /300/ >> {:!^cache; {:;x:} :}{:!cache; {:;x:} :} :}") = some (c!"{:!^cache; {:;x:} :}X", c!"200") := by
  decide +kernel

/-- Non-vacuity: `{:^!defined; y >> {:;x:} :}` and `{:!^!defined;y>>{:;x:}:}` on every page. -/
example (env : Env) (R : Rec) (sh : Shared) (inh : Inherit) :
    SameAnswer (bifText c!"^!" c!"defined" c!" y >> {:;x:} ") (bifText c!"!^!" c!"defined" c!"y>>{:;x:}")
      (runBif env R sh inh (bifText c!"^!" c!"defined" c!" y >> {:;x:} ") [])
      (runBif env R sh inh (bifText c!"!^!" c!"defined" c!"y>>{:;x:}") []) :=
  C105_written_partial env R sh inh c!"^!" c!"!^!" c!"defined" c!" y >> {:;x:} " c!"y>>{:;x:}" [] (by unfold Mods; decide)
    (by unfold Mods; decide) (by refine ⟨by decide, fun c r h => ?_⟩; injection h with h _; subst h; decide) (by intro c; simp; exact .inr)
    (.inr ⟨by decide, some c!"y", c!"{:;x:}", .both (a := c!"y ") (r := c!" {:;x:}") (noSep_plain _ _ (by decide)) (by decide),
      .both (a := c!"y") (r := c!"{:;x:}") (noSep_plain _ _ (by decide)) (by decide)⟩)
    (.inl rfl) (.inr (by decide)) (by decide)

end Nts
