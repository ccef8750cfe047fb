import Verif.Lemmas.Ops
import Verif.Lemmas.Value
import Verif.Spec.Sample
import Verif.Props.Invariants
/-
C43: which panics a template can cause.
-/
set_option autoImplicit false
namespace Nts
open Spec

/-! ### specification -/

/-- `null` (or missing) or an object. -/
def Spec.ObjOrNull (v : Value) : Prop := v = .null ∨ ∃ o, v = .obj o

/-- The definitions of a block have the expected shape. -/
structure Spec.SaneBlock (v : Value) : Prop where
  obj : ObjOrNull v
  params : ObjOrNull (v.index c!"params")
  declare : ObjOrNull (v.index c!"declare")
  snippets : ObjOrNull (v.index c!"snippets")
  dirs : ObjOrNull (v.index c!"snippets_set_dir")

/-- A schema of the documented shape: an object, whose settings have the documented types. -/
structure Spec.SaneSchema (v : Value) : Prop where
  obj : ∃ o, v = .obj o
  maxBifs : (((v.index c!"config").index c!"infinite_loop_max_bifs").asU64?).isSome = true
  expire : (((v.index c!"config").index c!"debug_expire").asU64?).isSome = true
  show_ : ((((v.index c!"config").index c!"error").index c!"show").asBool?).isSome = true
  data : ObjOrNull (v.index c!"data")
  inherit : SaneBlock (v.index c!"inherit")

/-- What the environment must not refuse: date formats are accepted, the names of existing files can be resolved, integer
overflow is not checked (release builds), and JSON objects given to `obj` name their template by a string. -/
structure Spec.Obliging (env : Env) : Prop where
  date : ∀ t f, env.utcFormat t f ≠ none
  canon : ∀ p, ∃ c, env.canon p = .ok c
  release : env.overflowChecks = false
  template : ∀ t v, env.jsonParse t = some v → (∃ s, v.index c!"template" = .str s) ∨ isEmptyKey v c!"template" = true

/-- The panics that remain. -/
def Spec.Known (p : Panic) : Prop := p = .budget ∨ p = .bounds

/-! ### the panics in the bodies -/

/-- The program panics by itself only with `S`, and its result satisfies `T`. -/
def PanicsIn (S : Panic → Prop) {α : Type} (T : α → Prop) : Prog α → Prop
  | .pure a => T a
  | .throw _ => True
  | .panic p => S p
  | .op _ k => ∀ r, PanicsIn S T (k r)

/-- Any result. -/
abbrev AnyR {α : Type} : α → Prop := fun _ => True

/-- Only known panics. -/
abbrev Fine {α : Type} (p : Prog α) : Prop := PanicsIn Known AnyR p

theorem pan_bind' {S : Panic → Prop} {α β : Type} {T : α → Prop} {U : β → Prop} {p : Prog α} {f : α → Prog β}
    (hp : PanicsIn S T p) (hf : ∀ a, T a → PanicsIn S U (f a)) : PanicsIn S U (p.bind f) := by
  induction p with
  | pure a => exact hf a hp
  | op o k ih => exact fun r => ih r (hp r)
  | throw e => trivial
  | panic p => exact hp

theorem fine_bind {α β : Type} {p : Prog α} {f : α → Prog β} (hp : Fine p) (hf : ∀ a, Fine (f a)) : Fine (p >>= f) :=
  pan_bind' hp (fun a _ => hf a)
theorem fine_bind' {α β : Type} {p : Prog α} {f : α → Prog β} (hp : Fine p) (hf : ∀ a, Fine (f a)) : Fine (p.bind f) :=
  pan_bind' hp (fun a _ => hf a)
theorem fine_op (o : Op) : Fine (perform o) := fun _ => trivial
theorem fine_pure {α : Type} (a : α) : Fine (Prog.pure a) := trivial
theorem fine_pure' {α : Type} (a : α) : Fine (pure a : Prog α) := trivial
theorem fine_get : Fine getSt := fun _ => trivial
theorem fine_modB (f : BifS → BifS) : Fine (modB f) := fun _ => trivial
theorem fine_bounds {α : Type} : Fine (.panic .bounds : Prog α) := .inr rfl
theorem fine_error {α : Type} (msg : Str) : Fine (bifError msg : Prog α) := fun _ => trivial
theorem fine_child (x : Str) (b : Bool) : Fine (childParse x b) := fun _ => trivial
theorem fine_setCode (x : Str) : Fine (setCode x) := fun _ => trivial
theorem fine_setParams (x : Str) : Fine (setParams x) := fun _ => trivial
theorem fine_setOut (x : Str) : Fine (setOut x) := fun _ => trivial
theorem fine_setSrc (x : Str) : Fine (setSrc x) := fun _ => trivial
theorem fine_setAlias (x : Str) : Fine (setAlias x) := fun _ => trivial
theorem fine_setFilePath (x : Str) : Fine (setFilePath x) := fun _ => trivial
theorem fine_setDir (x : Str) : Fine (setDir x) := fun _ => trivial
theorem fine_setData (a b : Str) : Fine (setData a b) := fun _ => trivial
theorem fine_outCode : Fine outCode := fun _ => trivial
theorem fine_tick : Fine tick := fun _ => trivial

macro "fine_step" : tactic => `(tactic| first
  | with_reducible refine fine_bind ?_ (fun _ => ?_)
  | with_reducible refine fine_bind' ?_ (fun _ => ?_)
  | with_reducible exact fine_get
  | with_reducible exact fine_modB _
  | with_reducible exact fine_pure _
  | with_reducible exact fine_pure' _
  | with_reducible exact fine_bounds
  | with_reducible exact fine_error _
  | with_reducible exact fine_child _ _
  | with_reducible exact fine_setCode _
  | with_reducible exact fine_setParams _
  | with_reducible exact fine_setOut _
  | with_reducible exact fine_setSrc _
  | with_reducible exact fine_setAlias _
  | with_reducible exact fine_setFilePath _
  | with_reducible exact fine_setDir _
  | with_reducible exact fine_setData _ _
  | with_reducible exact fine_outCode
  | with_reducible exact fine_tick
  | with_reducible exact fine_op _
  | split
  | dsimp only)

theorem fine_denyMods (f : BifS → Bool) : Fine (denyMods f) := by unfold denyMods; repeat' fine_step
theorem fine_denyFlags : Fine denyFlags := by unfold denyFlags; repeat' fine_step
theorem fine_denyFlgParams : Fine denyFlgParams := by unfold denyFlgParams; repeat' fine_step
theorem fine_checkFlags (l : List Str) : Fine (checkFlags l) := by unfold checkFlags; repeat' fine_step
theorem fine_extract (b : Bool) : Fine (extractParamsCode b) := by unfold extractParamsCode; repeat' fine_step
theorem fine_parseCode (b : Bool) : Fine (parseCode b) := by unfold parseCode; repeat' fine_step
theorem fine_argLoop (l : List Str) : Fine (argLoop l) := by
  induction l with
  | nil => trivial
  | cons a r ih => unfold argLoop; repeat' (first | exact ih | fine_step)
theorem fine_extractArgs : Fine extractArgs := by
  unfold extractArgs; repeat' (first | exact fine_argLoop _ | fine_step)
theorem fine_argReq (l : List Str) (i : Nat) (m : Str) : Fine (argReq l i m) := by unfold argReq; repeat' fine_step
theorem fine_requireAllow (a b : Str) : Fine (requireAllow a b) := by unfold requireAllow; repeat' fine_step
theorem fine_outUncached : Fine outUncached := by unfold outUncached; repeat' fine_step
theorem fine_resolve : Fine resolveFilePath := by
  unfold resolveFilePath; repeat' (first | with_reducible exact fine_requireAllow _ _ | fine_step)
theorem fine_canon {env : Env} (he : Obliging env) (p : Str) : Fine (canonUnwrap env p) := by
  unfold canonUnwrap
  obtain ⟨c, hc⟩ := he.canon p
  rw [hc]
  trivial
theorem fine_forList {β : Type} (l : List β) (f : β → Prog Unit) (h : ∀ x, Fine (f x)) : Fine (forList l f) := by
  induction l with
  | nil => trivial
  | cons a r ih => exact fine_bind' (h a) (fun _ => ih)

macro "fine_mid" : tactic => `(tactic| first
  | with_reducible exact fine_denyMods _
  | with_reducible exact fine_denyFlags
  | with_reducible exact fine_denyFlgParams
  | with_reducible exact fine_checkFlags _
  | with_reducible exact fine_extract _
  | with_reducible exact fine_parseCode _
  | with_reducible exact fine_extractArgs
  | with_reducible exact fine_argReq _ _ _
  | with_reducible exact fine_requireAllow _ _
  | with_reducible exact fine_outUncached
  | with_reducible exact fine_resolve
  | with_reducible refine fine_forList _ _ (fun _ => ?_)
  | fine_step)

theorem fine_cond (t : Value → Str → Bool) : Fine (condBif t) := by unfold condBif; repeat' fine_mid
theorem fine_cmp (t : Str → Str → Bool) : Fine (cmpBif t) := by unfold cmpBif; repeat' fine_mid
theorem fine_debugEnable (env : Env) : Fine (debugEnable env) := by unfold debugEnable; repeat' fine_mid
theorem fine_mergeJson (env : Env) (sec : Str) (part : Value → Value) (text : Str) : Fine (mergeJson env sec part text) := by
  unfold mergeJson; repeat' fine_mid
theorem fine_var (env : Env) : Fine (bifVar env) := by unfold bifVar; repeat' fine_mid
theorem fine_allow (env : Env) : Fine (bifAllow env) := by unfold bifAllow; repeat' fine_mid
theorem fine_coalesce : Fine bifCoalesce := by unfold bifCoalesce; repeat' fine_mid
theorem fine_code : Fine bifCode := by unfold bifCode; repeat' fine_mid
theorem i32Add_some {env : Env} (he : Obliging env) (a b : Int) : i32Add env a b ≠ none := by
  unfold i32Add
  simp only [he.release, Bool.false_eq_true, if_false]
  split <;> simp
theorem fine_count {env : Env} (he : Obliging env) : Fine (bifCount env) := by
  unfold bifCount
  repeat' (first
    | fine_mid
    | (next h => exact absurd h (i32Add_some he _ _)))
theorem fine_data {env : Env} (he : Obliging env) : Fine (bifData env) := by
  unfold bifData; repeat' (first | with_reducible exact fine_mergeJson _ _ _ _ | with_reducible exact fine_canon he _ | fine_mid)
theorem fine_locale {env : Env} (he : Obliging env) : Fine (bifLocale env) := by
  unfold bifLocale; repeat' (first | with_reducible exact fine_mergeJson _ _ _ _ | with_reducible exact fine_canon he _ | fine_mid)
theorem fine_date {env : Env} (he : Obliging env) : Fine (bifDate env) := by
  unfold bifDate; repeat' (first | fine_mid | (next h => exact absurd h (he.date _ _)))
theorem fine_debug (env : Env) : Fine (bifDebug env) := by
  unfold bifDebug; repeat' (first | with_reducible exact fine_debugEnable _ | fine_mid)
theorem fine_declare : Fine bifDeclare := by unfold bifDeclare; repeat' fine_mid
theorem fine_each : Fine bifEach := by unfold bifEach eachIter; repeat' fine_mid
theorem fine_else : Fine bifElse := by unfold bifElse; repeat' fine_mid
theorem fine_eval (env : Env) : Fine (bifEval env) := by unfold bifEval; repeat' fine_mid
theorem fine_exit : Fine bifExit := by unfold bifExit; repeat' fine_mid
theorem fine_fetch (env : Env) : Fine (bifFetch env) := by unfold bifFetch; repeat' fine_mid
theorem fine_flg : Fine bifFlg := by unfold bifFlg; repeat' fine_mid
theorem fine_for (env : Env) : Fine (bifFor env) := by unfold bifFor forIter; repeat' fine_mid
theorem fine_hash (env : Env) : Fine (bifHash env) := by unfold bifHash; repeat' fine_mid
theorem fine_include {env : Env} (he : Obliging env) : Fine (bifInclude env) := by
  unfold bifInclude; repeat' (first | with_reducible exact fine_canon he _ | fine_mid)
theorem fine_join (env : Env) : Fine (bifJoin env) := by unfold bifJoin; repeat' fine_mid
theorem fine_lang : Fine bifLang := by unfold bifLang; repeat' fine_mid
theorem fine_moveto (env : Env) : Fine (bifMoveto env) := by unfold bifMoveto; repeat' fine_mid
theorem fine_neutral : Fine bifNeutral := by unfold bifNeutral; repeat' fine_mid
theorem fine_param (env : Env) : Fine (bifParam env) := by unfold bifParam; repeat' fine_mid
theorem fine_rand (env : Env) : Fine (bifRand env) := by unfold bifRand; repeat' fine_mid
theorem fine_redirect : Fine bifRedirect := by unfold bifRedirect; repeat' fine_mid
theorem fine_replace : Fine bifReplace := by unfold bifReplace; repeat' fine_mid
theorem fine_snippet (env : Env) : Fine (bifSnippet env) := by unfold bifSnippet; repeat' fine_mid
theorem fine_sum (env : Env) : Fine (bifSum env) := by unfold bifSum; repeat' fine_mid
theorem fine_trans (env : Env) : Fine (bifTrans env) := by unfold bifTrans; repeat' fine_mid
theorem fine_cacheParse (b : Bool) (f : Str → Prog Unit) (h : ∀ x, Fine (f x)) : Fine (cacheParse b f) := by
  unfold cacheParse; repeat' (first | exact h _ | fine_mid)
theorem fine_cacheStore (env : Env) (b : Bool) (d f : Str) : Fine (cacheStore env b d f) := by
  unfold cacheStore; repeat' (first | with_reducible exact fine_cacheParse _ _ (fun _ => fine_setCode _) | fine_mid)
theorem cacheExpired_some {env : Env} (he : Obliging env) (a b c : Nat) : cacheExpired env a b c ≠ none := by
  unfold cacheExpired
  simp only [he.release, Bool.false_eq_true, if_false]
  split <;> simp
theorem fine_cacheLookup {env : Env} (he : Obliging env) (b : Bool) (d f e : Str) : Fine (cacheLookup env b d f e) := by
  unfold cacheLookup
  repeat' (first
    | with_reducible exact fine_cacheStore _ _ _ _
    | with_reducible exact fine_cacheParse _ _ (fun _ => fine_setOut _)
    | fine_mid
    | (next h => exact absurd h (cacheExpired_some he _ _ _)))
theorem fine_cache {env : Env} (he : Obliging env) : Fine (bifCache env) := by
  unfold bifCache; repeat' (first | with_reducible exact fine_cacheLookup he _ _ _ _ | fine_mid)
theorem fine_unknown : Fine bifUnknown := by unfold bifUnknown; repeat' fine_mid
theorem fine_objSource (env : Env) : Fine (objSource env) := by unfold objSource; repeat' fine_mid
theorem fine_objVenv (o : Value) (d : Str) : Fine (objVenv o d) := by unfold objVenv; repeat' fine_mid
theorem fine_objCall (env : Env) (o : Value) (p : Bool) (f : Str) : Fine (objCall env o p f) := by
  unfold objCall ensureBridge; repeat' (first | with_reducible exact fine_objVenv _ _ | fine_mid)


/-! ### obj -/

/-- The template entry is a string afterwards if it was one before, and unchanged otherwise. -/
def TemplateKept (a b : Option Value) : Prop :=
  (∃ s t, a = some (.str s) ∧ b = some (.str t)) ∨ b = a

mutual
theorem fine_objEntry (r : Bool) (k : Str) : ∀ v, Fine (objEntry r k v)
  | .str x => by unfold objEntry objString; repeat' fine_mid
  | .obj o => by unfold objEntry; repeat' (first | exact fine_objEntries _ _ | fine_mid)
  | .null => by unfold objEntry; trivial
  | .bool _ => by unfold objEntry; trivial
  | .num _ => by unfold objEntry; trivial
  | .arr _ => by unfold objEntry; trivial
theorem fine_objEntries (r : Bool) : ∀ o, Fine (objEntries r o)
  | [] => trivial
  | (k, v) :: rest => by
    unfold objEntries
    exact fine_bind' (fine_objEntry r k v) (fun _ => fine_bind' (fine_objEntries r rest) (fun _ => trivial))
end

theorem template_entry (v : Value) :
    PanicsIn Known (fun w => TemplateKept (some v) (some w)) (objEntry false c!"template" v) := by
  cases v with
  | str x =>
    unfold objEntry objString
    have h : ((c!"template" : Str) = c!"file" || c!"template" = c!"template" || c!"template" = c!"venv" ||
      c!"template" = c!"schema_data" || c!"template" = c!"fpm" || c!"template" = c!"params" || false) = true := by decide
    rw [if_pos h]
    split
    · exact fun r => .inl ⟨x, r, rfl, rfl⟩
    · exact .inr rfl
  | obj o =>
    unfold objEntry
    have h : ((c!"template" : Str) = c!"file" || c!"template" = c!"template" || c!"template" = c!"venv" ||
      c!"template" = c!"schema_data" || c!"template" = c!"fpm") = true := by decide
    rw [if_pos h]
    exact .inr rfl
  | _ => exact .inr rfl

theorem pan_weaken {S : Panic → Prop} {α : Type} {T U : α → Prop} {p : Prog α} (h : PanicsIn S T p)
    (hTU : ∀ a, T a → U a) : PanicsIn S U p := by
  induction p with
  | pure a => exact hTU a h
  | op o k ih => exact fun r => ih r (h r)
  | throw e => trivial
  | panic p => exact h

theorem template_entries (o : List (Str × Value)) :
    PanicsIn Known (fun o' => TemplateKept (Obj.get? c!"template" o) (Obj.get? c!"template" o')) (objEntries false o) := by
  induction o with
  | nil => exact .inr rfl
  | cons e rest ih =>
    obtain ⟨k, v⟩ := e
    unfold objEntries
    by_cases hk : k = c!"template"
    · subst hk
      refine pan_bind' (template_entry v) (fun w hw => pan_bind' (fine_objEntries false rest) (fun r' _ => ?_))
      simp only [PanicsIn, Obj.get?, if_true]
      exact hw
    · refine pan_bind' (fine_objEntry false k v) (fun w _ => pan_bind' ih (fun r' hr => ?_))
      simp only [PanicsIn, Obj.get?, if_neg hk]
      exact hr

/-- The template of the object is a string, or there is none. -/
def TemplateOk (v : Value) : Prop := (∃ s, v.index c!"template" = .str s) ∨ isEmptyKey v c!"template" = true

theorem isEmptyKey_template (v : Value) : isEmptyKey v c!"template" =
    match v.get? c!"template" with
    | some x => emptyVal x
    | none => true := by
  unfold isEmptyKey resolvePointer
  have : (!contains c!"->" c!"template" && !contains c!"/" c!"template") = true := by decide
  rw [if_pos this]
  cases v.get? c!"template" <;> rfl

theorem template_kept {o o' : List (Str × Value)} (h : TemplateOk (.obj o))
    (hk : TemplateKept (Obj.get? c!"template" o) (Obj.get? c!"template" o')) : TemplateOk (.obj o') := by
  rcases hk with ⟨s, t, _, h2⟩ | he
  · exact .inl ⟨t, by simp [Value.index, Value.get?, h2]⟩
  · rcases h with ⟨s, hs⟩ | h
    · refine .inl ⟨s, ?_⟩
      simp only [Value.index, Value.get?] at hs ⊢
      rw [he]
      exact hs
    · refine .inr ?_
      rw [isEmptyKey_template] at h ⊢
      simp only [Value.get?] at h ⊢
      rw [he]
      exact h

theorem pan_parseObj {v : Value} (h : TemplateOk v) : PanicsIn Known TemplateOk (parseObjValues v) := by
  cases v with
  | obj o => exact pan_bind' (template_entries o) (fun o' ho => template_kept h ho)
  | _ => exact h

theorem objCode_some {env : Env} {obj result : Value} {code : Str} (h : TemplateOk obj) :
    objCode env obj result code ≠ none := by
  unfold objCode
  dsimp only
  split
  · next hne =>
    rcases h with ⟨s, hs⟩ | h
    · rw [hs]; simp [Value.asStr?]
    · rw [h] at hne; simp at hne
  · simp

theorem fine_obj {env : Env} (he : Obliging env) : Fine (bifObj env) := by
  unfold bifObj
  refine fine_bind (fine_denyMods _) fun _ => ?_
  refine fine_bind fine_get fun s => ?_
  refine fine_bind (by repeat' fine_mid) fun _ => ?_
  refine fine_bind fine_denyFlags fun _ => ?_
  refine fine_bind (fine_objSource env) fun raw => ?_
  split
  · exact fine_error _
  · next obj0 hj =>
    dsimp only
    split
    · exact fine_error _
    · refine pan_bind' (pan_parseObj (he.template _ _ hj)) fun obj hobj => ?_
      refine fine_bind fine_get fun s => ?_
      split
      · exact fine_error _
      · split
        · exact fine_error _
        · refine fine_bind (fine_objCall _ _ _ _) fun result => ?_
          refine fine_bind fine_get fun s => ?_
          split
          · next h => exact absurd h (objCode_some hobj)
          · repeat' fine_mid

theorem fine_ite {α : Type} {c : Prop} [Decidable c] {p q : Prog α} (h1 : Fine p) (h2 : Fine q) : Fine (if c then p else q) := by
  by_cases h : c
  · rw [if_pos h]; exact h1
  · rw [if_neg h]; exact h2

theorem fine_body {env : Env} (he : Obliging env) (name : Str) : Fine (bifBody env name) := by
  unfold bifBody
  refine fine_ite (fine_var env) ?_
  refine fine_ite (fine_allow env) ?_
  refine fine_ite (fine_cond _) ?_
  refine fine_ite (fine_cond _) ?_
  refine fine_ite (fine_cache he) ?_
  refine fine_ite (fine_coalesce) ?_
  refine fine_ite (fine_code) ?_
  refine fine_ite (fine_cmp _) ?_
  refine fine_ite (fine_count he) ?_
  refine fine_ite (fine_data he) ?_
  refine fine_ite (fine_date he) ?_
  refine fine_ite (fine_declare) ?_
  refine fine_ite (fine_cond _) ?_
  refine fine_ite (fine_each) ?_
  refine fine_ite (fine_else) ?_
  refine fine_ite (fine_eval env) ?_
  refine fine_ite (fine_exit) ?_
  refine fine_ite (fine_fetch env) ?_
  refine fine_ite (fine_cond _) ?_
  refine fine_ite (fine_flg) ?_
  refine fine_ite (fine_for env) ?_
  refine fine_ite (fine_hash env) ?_
  refine fine_ite (fine_include he) ?_
  refine fine_ite (fine_join env) ?_
  refine fine_ite (fine_lang) ?_
  refine fine_ite (fine_locale he) ?_
  refine fine_ite (fine_moveto env) ?_
  refine fine_ite (fine_neutral) ?_
  refine fine_ite (fine_param env) ?_
  refine fine_ite (fine_rand env) ?_
  refine fine_ite (fine_redirect) ?_
  refine fine_ite (fine_replace) ?_
  refine fine_ite (fine_cmp _) ?_
  refine fine_ite (fine_snippet env) ?_
  refine fine_ite (fine_snippet env) ?_
  refine fine_ite (fine_sum env) ?_
  refine fine_ite (fine_trans env) ?_
  refine fine_ite (fine_obj he) ?_
  refine fine_ite (fine_debug env) ?_
  exact fine_unknown


/-! ### the state keeps its shape -/

/-- The moved texts are strings. -/
def MovetoOk (v : Value) : Prop :=
  ObjOrNull v ∧ ∀ o, v = .obj o → ∀ e ∈ o, ∀ oo, e.2 = .obj oo → ∀ f ∈ oo, ∃ t, f.2 = .str t

/-- The shared state has the expected shape. -/
structure Sane (sh : Shared) : Prop where
  obj : ∃ o, sh.schema = .obj o
  show_ : (showErrors sh).isSome = true
  data : ObjOrNull (sh.schema.index c!"data")
  moveto : MovetoOk (sh.schema.index c!"__moveto")
  blocks : ∀ k v, sh.indir k = some v → SaneBlock v

/-- The operations that keep the shape. -/
def SaneOp : Op → Prop
  | .setMoveto _ v => ∃ a b, v = .obj [(a, .str b)]
  | .setIndir sec _ _ => sec = c!"params" ∨ sec = c!"declare" ∨ sec = c!"snippets" ∨ sec = c!"snippets_set_dir"
  | .mergeIndir sec _ => sec = c!"data" ∨ sec = c!"locale"
  | _ => True

theorem saneOp_of {n : Str} (hn : n ≠ c!"moveto") {o : Op} (h : Effects n o) : SaneOp o := by
  cases o with
  | setMoveto a b => exact absurd h hn
  | setIndir sec key v =>
    rcases h with h | h | ⟨_, h | h⟩
    · exact .inr (.inl h.2)
    · exact .inl h.2
    · exact .inr (.inr (.inl h))
    · exact .inr (.inr (.inr h))
  | mergeIndir sec v => rcases h with h | h; exact .inl h.2; exact .inr h.2
  | _ => trivial

theorem saneOp_code {α : Type} {p : Prog α} (h : OpsIn (Effects c!"code") p) : OpsIn SaneOp p :=
  OpsIn_mono (fun _ => saneOp_of (by decide)) h

theorem saneOp_body (env : Env) (name : Str) : OpsIn SaneOp (bifBody env name) := by
  by_cases hn : name = c!"moveto"
  · subst hn
    change OpsIn SaneOp (bifMoveto env)
    unfold bifMoveto
    refine OpsIn_bind (saneOp_code (eff_denyMods _)) fun _ => ?_
    refine OpsIn_bind (saneOp_code eff_outUncached) fun _ => ?_
    refine OpsIn_bind (saneOp_code (eff_extract _)) fun _ => ?_
    refine OpsIn_bind (saneOp_code eff_denyFlags) fun _ => ?_
    refine OpsIn_bind (saneOp_code (eff_parseCode _)) fun _ => ?_
    refine OpsIn_bind (saneOp_code eff_get) fun _ => ?_
    exact ⟨⟨_, _, rfl⟩, fun _ => trivial⟩
  · exact OpsIn_mono (fun _ => saneOp_of hn) (effects env name)

theorem objOrNull_set {v w : Value} {k : Str} {x : Value} (h : v.setIndex k x = some w) : ObjOrNull w := by
  unfold Value.setIndex at h
  split at h
  · simp only [Option.some.injEq] at h; exact .inr ⟨_, h.symm⟩
  · simp only [Option.some.injEq] at h; exact .inr ⟨_, h.symm⟩
  · simp at h

theorem objOrNull_mod {v w : Value} {k : Str} {f : Value → Option Value} (h : v.modIndex k f = some w) : ∃ o, w = .obj o := by
  unfold Value.modIndex at h
  split at h
  · obtain ⟨x, _, rfl⟩ := Option.map_eq_some_iff.1 h; exact ⟨_, rfl⟩
  · obtain ⟨x, _, rfl⟩ := Option.map_eq_some_iff.1 h; exact ⟨_, rfl⟩
  · simp at h

theorem setIndex_ok {v : Value} (h : ObjOrNull v) (k : Str) (x : Value) : ∃ w, v.setIndex k x = some w := by
  rcases h with rfl | ⟨o, rfl⟩
  · exact ⟨_, rfl⟩
  · exact ⟨_, rfl⟩

theorem modIndex_ok {v : Value} (h : ObjOrNull v) {k : Str} {f : Value → Option Value} (hf : ∃ w, f (v.index k) = some w) :
    ∃ w, v.modIndex k f = some w := by
  obtain ⟨w, hw⟩ := hf
  rcases h with rfl | ⟨o, rfl⟩
  · simp only [Value.index, Value.get?, Option.getD_none] at hw
    exact ⟨_, by simp only [Value.modIndex, hw]; rfl⟩
  · simp only [Value.index, Value.get?] at hw
    exact ⟨_, by simp only [Value.modIndex, hw]; rfl⟩

theorem saneBlock_empty : SaneBlock (.obj []) := ⟨.inr ⟨_, rfl⟩, .inl rfl, .inl rfl, .inl rfl, .inl rfl⟩

/-- A write to a section of a block's definitions that keeps the section an object. -/
theorem saneBlock_mod {v w : Value} {sec : Str} {f : Value → Option Value} (h : SaneBlock v) (hw : v.modIndex sec f = some w)
    (hf : ∀ x y, f x = some y → ObjOrNull y) : SaneBlock w := by
  have key : ∀ k, ObjOrNull (v.index k) → ObjOrNull (w.index k) := by
    intro k hk
    by_cases hs : sec = k
    · subst hs
      have := index_modIndex_self hw
      exact hf _ _ this
    · rw [index_modIndex_ne hw hs]; exact hk
  exact ⟨.inr (objOrNull_mod hw), key _ h.params, key _ h.declare, key _ h.snippets, key _ h.dirs⟩

theorem saneBlock_merge {v w : Value} {sec : Str} {f : Value → Option Value} (h : SaneBlock v) (hw : v.modIndex sec f = some w)
    (hs : sec = c!"data" ∨ sec = c!"locale") : SaneBlock w := by
  have key : ∀ k, sec ≠ k → ObjOrNull (v.index k) → ObjOrNull (w.index k) := by
    intro k hne hk
    rw [index_modIndex_ne hw hne]; exact hk
  refine ⟨.inr (objOrNull_mod hw), key _ ?_ h.params, key _ ?_ h.declare, key _ ?_ h.snippets, key _ ?_ h.dirs⟩ <;>
    (rcases hs with rfl | rfl <;> decide)

theorem sane_frame {sh sh' : Shared} (h : Sane sh) (h1 : sh'.schema = sh.schema) (h2 : ∀ k v, sh'.indir k = some v → SaneBlock v) :
    Sane sh' := by
  refine ⟨?_, ?_, ?_, ?_, h2⟩
  · rw [h1]; exact h.obj
  · unfold showErrors; rw [h1]; exact h.show_
  · rw [h1]; exact h.data
  · rw [h1]; exact h.moveto

theorem sane_same {sh sh' : Shared} (h : Sane sh) (h1 : sh'.schema = sh.schema) (h2 : sh'.indir = sh.indir) : Sane sh' :=
  sane_frame h h1 (by rw [h2]; exact h.blocks)

theorem sane_create {sh : Shared} (h : Sane sh) (inh : Inherit) : Sane (createBlockSchema sh inh).1 := by
  unfold createBlockSchema
  dsimp only
  generalize (if inh.blockCount < 1 then c!"block_1" else blockId inh.blockCount) = bid
  split
  · split
    · next v hv =>
      refine sane_frame h rfl ?_
      intro k x hx
      dsimp only at hx
      split at hx
      · simp only [Option.some.injEq] at hx; subst hx; exact h.blocks _ _ hv
      · exact h.blocks _ _ hx
    · exact h
  · exact h

theorem sane_update {sh : Shared} (h : Sane sh) (a b : Str) : Sane (updateIndir sh a b) := by
  unfold updateIndir
  split
  · next v hv =>
    refine sane_frame h rfl ?_
    intro k x hx
    dsimp only at hx
    split at hx
    · simp only [Option.some.injEq] at hx; subst hx; exact h.blocks _ _ hv
    · exact h.blocks _ _ hx
  · exact h

theorem sane_drop {sh : Shared} (h : Sane sh) (inh : Inherit) : Sane (dropBlock sh inh) := by
  unfold dropBlock
  dsimp only
  split
  · refine sane_frame h rfl ?_
    intro k x hx
    dsimp only at hx
    split at hx
    · simp at hx
    · exact h.blocks _ _ hx
  · exact h

theorem sane_getIndir {sh : Shared} (h : Sane sh) (k : Str) : SaneBlock ((sh.indir k).getD (.obj [])) := by
  cases hk : sh.indir k with
  | none => exact saneBlock_empty
  | some v => exact h.blocks _ _ hk

theorem sane_modIndir {sh sh' : Shared} (h : Sane sh) {k : Str} {f : Value → Option Value} (hm : sh.modIndir k f = some sh')
    (hf : ∀ v w, SaneBlock v → f v = some w → SaneBlock w) : Sane sh' := by
  unfold Shared.modIndir at hm
  obtain ⟨v, hv, rfl⟩ := Option.map_eq_some_iff.1 hm
  refine sane_frame h rfl ?_
  intro j x hx
  dsimp only at hx
  split at hx
  · simp only [Option.some.injEq] at hx; subst hx; exact hf _ _ (sane_getIndir h k) hv
  · exact h.blocks _ _ hx

theorem pushError_obj {sh : Shared} {line : Str} (h : ∃ o, sh.schema = .obj o) : ∃ o, (pushError sh line).schema = .obj o := by
  obtain ⟨o, ho⟩ := h
  unfold pushError
  rw [ho]
  dsimp only
  split <;> exact ⟨_, rfl⟩

theorem sane_err {sh : Shared} (h : Sane sh) (line : Str) : Sane (pushError sh line) := by
  refine ⟨pushError_obj h.obj, ?_, ?_, ?_, h.blocks⟩
  · unfold showErrors
    rw [pushError_index (by decide)]
    exact h.show_
  · rw [pushError_index (by decide)]; exact h.data
  · rw [pushError_index (by decide)]; exact h.moveto

theorem sane_schema {sh : Shared} (h : Sane sh) {sec : Str} {f : Value → Option Value} {sc : Value}
    (hm : sh.schema.modIndex sec f = some sc) (hs : sec = c!"data" ∨ sec = c!"__moveto")
    (hd : sec = c!"data" → ∀ y, f (sh.schema.index c!"data") = some y → ObjOrNull y)
    (hv : sec = c!"__moveto" → ∀ y, f (sh.schema.index c!"__moveto") = some y → MovetoOk y) :
    Sane { sh with schema := sc } := by
  have hne : sec ≠ c!"config" := by rcases hs with rfl | rfl <;> decide
  refine ⟨objOrNull_mod hm, ?_, ?_, ?_, h.blocks⟩
  · unfold showErrors
    dsimp only
    rw [index_modIndex_ne hm hne]
    exact h.show_
  · dsimp only
    by_cases hc : sec = c!"data"
    · subst hc; exact hd rfl _ (index_modIndex_self hm)
    · rw [index_modIndex_ne hm hc]; exact h.data
  · dsimp only
    by_cases hc : sec = c!"__moveto"
    · subst hc; exact hv rfl _ (index_modIndex_self hm)
    · rw [index_modIndex_ne hm hc]; exact h.moveto

theorem movetoOk_set {v w : Value} {k a b : Str} (h : MovetoOk v) (hw : v.setIndex k (.obj [(a, .str b)]) = some w) :
    MovetoOk w := by
  refine ⟨objOrNull_set hw, ?_⟩
  intro o ho e he oo heq f hf
  have new : e.2 = .obj [(a, .str b)] → ∃ t, f.2 = .str t := by
    intro h2
    rw [heq] at h2
    injection h2 with h2
    subst h2
    simp only [List.mem_singleton] at hf
    exact ⟨b, by rw [hf]⟩
  unfold Value.setIndex at hw
  split at hw
  · simp only [Option.some.injEq] at hw
    subst hw
    injection ho with ho
    subst ho
    simp only [List.mem_singleton] at he
    exact new (by rw [he])
  · next o0 =>
    simp only [Option.some.injEq] at hw
    subst hw
    injection ho with ho
    subst ho
    rcases mem_insert he with h1 | h1
    · exact new (by rw [h1])
    · exact h.2 o0 rfl e h1 oo heq f hf
  · simp at hw

/-! ### no other panics -/

/-- A block ends with a state of the expected shape, or with a known panic. -/
def PRes.Safe : PRes → Prop
  | .ok _ sh _ => Sane sh
  | .panic p => Known p
  | .oof => True

def Res.Safe {α : Type} : Res α → Prop
  | .ok _ s => Sane s.sh
  | .err _ s => Sane s.sh
  | .panic p => Known p
  | .oof => True

def ORes.Safe {α : Type} : ORes α → Prop
  | .ok _ s => Sane s.sh
  | .panic p => Known p
  | .oof => True

def RecSafe (R : Rec) : Prop := ∀ sh inh src bs only, Sane sh → (R sh inh src bs only).Safe

theorem parseSrc_psafe {R : Rec} (hR : RecSafe R) {sh : Shared} (h : Sane sh) (inh : Inherit) (src only : Str) :
    (parseSrc R sh inh src only).Safe := by
  unfold parseSrc
  split
  · exact sane_same h rfl rfl
  · exact hR _ _ _ _ _ h

theorem runChild_psafe {f : Shared → Inherit → PRes} (hf : ∀ sh inh, Sane sh → (f sh inh).Safe) {s : St} (h : Sane s.sh)
    (scope : Bool) : (runChild s scope f).Safe := by
  unfold runChild
  dsimp only
  have h0 : Sane (if scope then createBlockSchema s.sh s.inh else (s.sh, s.inh)).1 := by
    cases scope
    · exact h
    · exact sane_create h s.inh
  have h1 := hf _ (childInherit s) h0
  revert h1
  cases f (if scope then createBlockSchema s.sh s.inh else (s.sh, s.inh)).1 (childInherit s) with
  | ok o sh2 ci2 =>
    intro h1
    have h1 : Sane sh2 := h1
    simp only [ORes.Safe]
    apply sane_drop
    cases scope
    · exact h1
    · exact sane_update h1 _ _
  | panic p => exact fun h => h
  | oof => exact fun _ => trivial

theorem oresOpt_psafe {o : Option St} (h1 : ∃ x, o = some x) (h2 : ∀ x, o = some x → Sane x.sh) : (oresOpt o).Safe := by
  obtain ⟨x, rfl⟩ := h1
  exact h2 x rfl

theorem step_psafe {R : Rec} (hR : RecSafe R) {o : Op} (ho : SaneOp o) {s : St} (h : Sane s.sh) : (step R o s).Safe := by
  cases o with
  | setData name v =>
    simp only [step]
    apply oresOpt_psafe
    · obtain ⟨x, hx⟩ := setIndex_ok h.data name v
      obtain ⟨ob, hob⟩ := h.obj
      obtain ⟨w, hw⟩ := modIndex_ok (v := s.sh.schema) (.inr ⟨ob, hob⟩) (k := c!"data")
        (f := fun d => d.setIndex name v) ⟨x, hx⟩
      exact ⟨_, by rw [hw]; rfl⟩
    · intro x hx
      obtain ⟨sc, hsc, rfl⟩ := Option.map_eq_some_iff.1 hx
      exact sane_schema h hsc (.inl rfl) (fun _ y hy => objOrNull_set hy) (fun hc => absurd hc (by decide))
  | setMoveto name v =>
    obtain ⟨a, b, rfl⟩ := ho
    simp only [step]
    apply oresOpt_psafe
    · obtain ⟨x, hx⟩ := setIndex_ok h.moveto.1 name (.obj [(a, .str b)])
      obtain ⟨ob, hob⟩ := h.obj
      obtain ⟨w, hw⟩ := modIndex_ok (v := s.sh.schema) (.inr ⟨ob, hob⟩) (k := c!"__moveto")
        (f := fun d => d.setIndex name (.obj [(a, .str b)])) ⟨x, hx⟩
      exact ⟨_, by rw [hw]; rfl⟩
    · intro x hx
      obtain ⟨sc, hsc, rfl⟩ := Option.map_eq_some_iff.1 hx
      exact sane_schema h hsc (.inr rfl) (fun hc => absurd hc (by decide)) (fun _ y hy => movetoOk_set h.moveto hy)
  | setIndir sec key v =>
    simp only [step]
    have hb := sane_getIndir h s.inh.indir
    apply oresOpt_psafe
    · have hsec : ObjOrNull (((s.sh.indir s.inh.indir).getD (.obj [])).index sec) := by
        rcases ho with rfl | rfl | rfl | rfl
        · exact hb.params
        · exact hb.declare
        · exact hb.snippets
        · exact hb.dirs
      obtain ⟨x, hx⟩ := setIndex_ok hsec key v
      obtain ⟨w, hw⟩ := modIndex_ok hb.obj (k := sec) (f := fun y => y.setIndex key v) ⟨x, hx⟩
      exact ⟨_, by simp only [Shared.modIndir, hw]; rfl⟩
    · intro x hx
      obtain ⟨sh1, hs1, rfl⟩ := Option.map_eq_some_iff.1 hx
      exact sane_modIndir h hs1 (fun v w hv hw => saneBlock_mod hv hw (fun _ _ hy => objOrNull_set hy))
  | mergeIndir sec v =>
    simp only [step]
    have hb := sane_getIndir h s.inh.indir
    apply oresOpt_psafe
    · obtain ⟨w, hw⟩ := modIndex_ok hb.obj (k := sec) (f := fun y => some (mergeSchemaOwned y v)) ⟨_, rfl⟩
      exact ⟨_, by simp only [Shared.modIndir, hw]; rfl⟩
    · intro x hx
      obtain ⟨sh1, hs1, rfl⟩ := Option.map_eq_some_iff.1 hx
      exact sane_modIndir h hs1 (fun v w hv hw => saneBlock_merge hv hw ho)
  | createBlockSchema => exact sane_create h s.inh
  | child src scope => exact runChild_psafe (fun sh inh hs => parseSrc_psafe hR hs inh src s.only) h scope
  | childBlocks src bs scope => exact runChild_psafe (fun sh inh hs => hR sh inh src bs s.only hs) h scope
  | pushFile k p => cases k <;> exact sane_same h rfl rfl
  | _ => exact sane_same h rfl rfl

theorem run_psafe {R : Rec} (hR : RecSafe R) {α : Type} (p : Prog α) :
    OpsIn SaneOp p → Fine p → ∀ s, Sane s.sh → (run R p s).Safe := by
  induction p with
  | pure a => exact fun _ _ _ h => h
  | throw e => exact fun _ _ _ h => h
  | panic p => exact fun _ h _ _ => h
  | op o k ih =>
    intro ho hf s h
    simp only [run]
    have h1 := step_psafe hR ho.1 h
    cases hs : step R o s with
    | ok r s' => rw [hs] at h1; exact ih r (ho.2 r) (hf r) s' h1
    | panic p => rw [hs] at h1; exact h1
    | oof => trivial

theorem runBif_psafe {env : Env} (he : Obliging env) {R : Rec} (hR : RecSafe R) {sh : Shared} (h : Sane sh) (inh : Inherit)
    (raw only : Str) : (runBif env R sh inh raw only).Safe := by
  unfold runBif
  split
  · exact .inl rfl
  · have h0 : Sane { sh with count := sh.count + 1 } := sane_same h rfl rfl
    unfold bifParse
    split
    · split
      · exact h0
      · split
        · next hn => have := h0.show_; rw [hn] at this; simp at this
        · exact sane_err h0 _
    · split
      · exact h0
      · split
        · exact .inr rfl
        · next b name' _ =>
          have := run_psafe hR (bifBody env name') (saneOp_body env name') (fine_body he name')
            { sh := { sh with count := sh.count + 1 }, inh := { { inh with bifCount := sh.count + 1 } with inOnly := true },
              b := { b with name := name', alias := name' }, raw := raw, only := only } h0
          revert this
          generalize run R (bifBody env name') _ = res
          intro this
          cases res with
          | ok a s => exact this
          | err e s =>
            have this : Sane s.sh := this
            simp only [bifResult]
            split
            · next hn => have := this.show_; rw [hn] at this; simp at this
            · exact sane_err (sh := { s.sh with w := { s.sh.w with tick := s.sh.w.tick + 1 } }) (sane_same this rfl rfl) _
          | panic p => exact this
          | oof => trivial

theorem blocksGo_psafe {env : Env} (he : Obliging env) {R : Rec} (hR : RecSafe R) (src only : Str) (bs : List (Nat × Nat)) :
    ∀ prevEnd out sh inh, Sane sh → (blocksGo env R src only prevEnd out bs sh inh).Safe := by
  induction bs with
  | nil => intro _ _ sh inh h; exact h
  | cons b r ih =>
    intro prevEnd out sh inh h
    obtain ⟨s, e⟩ := b
    simp only [blocksGo]
    split
    · exact h
    · split
      · exact ih _ _ _ _ h
      · have h1 := runBif_psafe he hR h inh (slice src s e) only
        cases hx : runBif env R sh inh (slice src s e) only with
        | ok x sh' inh' => rw [hx] at h1; exact ih _ _ _ _ h1
        | panic p => rw [hx] at h1; exact h1
        | oof => trivial

theorem runBlocks_psafe {env : Env} (he : Obliging env) (n : Nat) : RecSafe (runBlocks env n) := by
  induction n with
  | zero => intro _ _ _ _ _ _; trivial
  | succ n ih => intro sh inh src bs only h; exact blocksGo_psafe he ih src only bs 0 [] sh inh h

theorem pass_psafe {env : Env} (he : Obliging env) {sh : Shared} (h : Sane sh) (inh : Inherit) (text only : Str) :
    (pass env sh inh text only).Safe := by
  unfold pass
  have := parseSrc_psafe (runBlocks_psafe he (sh.max + 1)) h { inh with blockCount := inh.blockCount + 1 } text only
  revert this
  cases parseSrc (runBlocks env (sh.max + 1)) sh { inh with blockCount := inh.blockCount + 1 } text only with
  | ok o sh' inh' => exact fun h => sane_drop h _
  | panic p => exact fun h => h
  | oof => exact fun h => h

theorem cacheLoop_psafe {env : Env} (he : Obliging env) (inh : Inherit) (n : Nat) :
    ∀ sh out, Sane sh → (cacheLoop env inh n sh out).Safe := by
  induction n with
  | zero => intro sh out h; simp only [cacheLoop]; split; trivial; exact h
  | succ n ih =>
    intro sh out h
    simp only [cacheLoop]
    split
    · have h1 := pass_psafe he h inh out c!"!cache"
      cases hx : pass env sh inh out c!"!cache" with
      | ok o sh' inh' => rw [hx] at h1; exact ih _ _ h1
      | panic p => rw [hx] at h1; exact h1
      | oof => trivial
    · exact h

theorem initShared_psafe {env : Env} {filePath raw : Str} {w : World} {sc : Value} {sh : Shared} (hs : SaneSchema sc)
    (hsh : Shared.new env w sc = some sh) :
    (∃ raw' sh1 inh, initShared env filePath raw sh = .ok (raw', sh1, inh) ∧ Sane sh1) ∨
      initShared env filePath raw sh = .error .bounds := by
  have hsc : sh.schema = sc ∧ sh.indir = fun _ => none := by
    unfold Shared.new at hsh
    dsimp only at hsh
    split at hsh
    · simp only [Option.some.injEq] at hsh; rw [← hsh]; exact ⟨rfl, rfl⟩
    · simp at hsh
  obtain ⟨o, ho⟩ := hs.obj
  unfold initShared
  split
  · exact .inr rfl
  · left
    dsimp only
    obtain ⟨f, hf⟩ := createBlockSchema_sh sh Inherit.new
    have e1 : (createBlockSchema sh Inherit.new).1.schema = .obj o := by rw [hf]; exact hsc.1.trans ho
    rw [e1]
    simp only [Value.setIndex, Option.bind_some]
    have key : ∀ k, k ≠ c!"__moveto" → k ≠ c!"__error" →
        (Value.obj (Obj.insert c!"__error" (.arr []) (Obj.insert c!"__moveto" (.obj []) o))).index k = sc.index k := by
      intro k h1 h2
      rw [ho]
      simp only [Value.index, Value.get?]
      rw [Obj.get?_insert_ne _ _ (Ne.symm h2), Obj.get?_insert_ne _ _ (Ne.symm h1)]
    have hmv : (Value.obj (Obj.insert c!"__error" (.arr []) (Obj.insert c!"__moveto" (.obj []) o))).index c!"__moveto" =
        .obj [] := by
      simp only [Value.index, Value.get?]
      rw [Obj.get?_insert_ne _ _ (by decide), Obj.get?_insert_self]
      rfl
    generalize hsc1 : Value.obj (Obj.insert c!"__error" (.arr []) (Obj.insert c!"__moveto" (.obj []) o)) = sc1 at key hmv
    have hd : ObjOrNull (sc1.index c!"data") := by rw [key _ (by decide) (by decide)]; exact hs.data
    obtain ⟨d, hd1⟩ := modIndex_ok hd (k := c!"CONTEXT") (f := fun c => some (filterValueKeys (filterValue c))) ⟨_, rfl⟩
    obtain ⟨sc2, hsc2⟩ := modIndex_ok (v := sc1) (.inr ⟨_, hsc1.symm⟩) (k := c!"data")
      (f := fun d => d.modIndex c!"CONTEXT" (fun c => some (filterValueKeys (filterValue c)))) ⟨d, hd1⟩
    have hfc : filterContext sc1 = some sc2 := hsc2
    rw [hfc]
    refine ⟨_, _, _, rfl, ?_⟩
    have hother : ∀ k, k ≠ c!"data" → sc2.index k = sc1.index k := fun k hk => index_modIndex_ne hsc2 (Ne.symm hk)
    refine ⟨objOrNull_mod hsc2, ?_, ?_, ?_, ?_⟩
    · unfold showErrors
      dsimp only
      rw [hother _ (by decide), key _ (by decide) (by decide)]
      exact hs.show_
    · dsimp only
      obtain ⟨o3, ho3⟩ := objOrNull_mod (index_modIndex_self hsc2)
      exact .inr ⟨o3, ho3⟩
    · dsimp only
      rw [hother _ (by decide), hmv]
      exact ⟨.inr ⟨_, rfl⟩, by intro o4 h4; injection h4 with h4; subst h4; intro e he; simp at he⟩
    · intro k v hv
      dsimp only at hv
      split at hv
      · simp only [Option.some.injEq] at hv
        subst hv
        rw [key _ (by decide) (by decide)]
        exact hs.inherit
      · simp at hv

theorem movetoInner_some (o : List (Str × Value)) (h : ∀ f ∈ o, ∃ t, f.2 = .str t) : ∀ out, movetoInner o out ≠ none := by
  induction o with
  | nil => intro out; simp [movetoInner]
  | cons e r ih =>
    intro out
    obtain ⟨k, v⟩ := e
    obtain ⟨t, ht⟩ := h (k, v) (by simp)
    simp only at ht
    subst ht
    simp only [movetoInner]
    split
    · exact ih (fun f hf => h f (by simp [hf])) _
    · exact ih (fun f hf => h f (by simp [hf])) _

theorem movetoOuter_some (o : List (Str × Value)) (h : ∀ e ∈ o, ∀ oo, e.2 = .obj oo → ∀ f ∈ oo, ∃ t, f.2 = .str t) :
    ∀ out, movetoOuter o out ≠ none := by
  induction o with
  | nil => intro out; simp [movetoOuter]
  | cons e r ih =>
    intro out
    have ihr := ih (fun f hf => h f (by simp [hf]))
    obtain ⟨k, v⟩ := e
    cases v with
    | obj oo =>
      simp only [movetoOuter]
      cases hi : movetoInner oo out with
      | none => exact absurd hi (movetoInner_some oo (h (k, .obj oo) (by simp) oo rfl) out)
      | some x => exact ihr x
    | _ => exact ihr out

theorem endsRender_some {sh : Shared} (h : Sane sh) (out : Str) : endsRender sh out ≠ none := by
  unfold endsRender
  intro hn
  rw [Option.map_eq_none_iff] at hn
  unfold applyMoveto at hn
  split at hn
  · next o ho => exact movetoOuter_some o (h.moveto.2 o ho) out hn
  · simp at hn

theorem renderWith_psafe {env : Env} (he : Obliging env) {n : Nat} {w : World} {t : Tpl} {sc0 : Value} {p : Panic}
    (hs : SaneSchema t.schema) (h : renderWith env n t sc0 (Shared.new env w t.schema) = .panic p) : Known p := by
  unfold renderWith at h
  split at h
  · next hn =>
    unfold Shared.new at hn
    have h1 := hs.maxBifs
    have h2 := hs.expire
    revert h1 h2 hn
    dsimp only
    cases ((t.schema.index c!"config").index c!"infinite_loop_max_bifs").asU64? with
    | none => intro _ h1; simp at h1
    | some a =>
      cases ((t.schema.index c!"config").index c!"debug_expire").asU64? with
      | none => intro _ _ h2; simp at h2
      | some b => intro hn; simp at hn
  next sh hsh =>
  rcases initShared_psafe (filePath := t.filePath) (raw := t.raw) hs hsh with ⟨raw', sh1, inh, hi, hsane⟩ | hi
  · rw [hi] at h
    dsimp only at h
    have h1 := pass_psafe he hsane inh raw' []
    cases hx : pass env sh1 inh raw' [] with
    | panic q => rw [hx] at h1 h; simp only [RRes.panic.injEq] at h; rw [← h]; exact h1
    | oof => rw [hx] at h; simp at h
    | ok o sh2 inh2 =>
      rw [hx] at h1 h
      dsimp only at h
      have h2 := cacheLoop_psafe he inh n sh2 o h1
      cases hy : cacheLoop env inh n sh2 o with
      | panic q => rw [hy] at h2 h; simp only [RRes.panic.injEq] at h; rw [← h]; exact h2
      | oof => rw [hy] at h; simp at h
      | ok o2 sh3 inh3 =>
        rw [hy] at h2 h
        dsimp only at h
        cases hz : endsRender sh3 o2 with
        | none => exact absurd hz (endsRender_some h2 o2)
        | some x => rw [hz] at h; simp at h
  · rw [hi] at h
    simp only [RRes.panic.injEq] at h
    exact .inr h.symm

/-- **C43 (partial).** With a schema of the documented shape and an obliging environment, no template - whatever it
contains, includes or obtains from its data, JSON files, the cache or scripts - makes `render` panic other than by
exceeding the BIF budget (`budget`) or with a text slice outside of its bounds (`bounds`).  Missing from C43: the latter
can happen, see `C43_refuted`. -/
theorem C43_partial (env : Env) (n : Nat) (w : World) (t : Tpl) (p : Panic) (he : Obliging env) (hs : SaneSchema t.schema)
    (h : t.render env n w = .panic p) : p = .budget ∨ p = .bounds := by
  unfold Tpl.render at h
  split at h
  · simp at h
  · exact renderWith_psafe he hs h

/-- ... and likewise for `render_once`. -/
theorem C43_once_partial (env : Env) (n : Nat) (w : World) (t : Tpl) (p : Panic) (he : Obliging env)
    (hs : SaneSchema t.schema) (h : t.renderOnce env n w = .panic p) : p = .budget ∨ p = .bounds := by
  unfold Tpl.renderOnce at h
  split at h
  · simp at h
  · exact renderWith_psafe he hs h

/-- **C43 (refuted).** A template with a BIF whose name starts with a character outside of ASCII makes `render` panic. -/
theorem C43_refuted : Sample.panicOf (Sample.go [] c!"{:ñ;:}") = some .bounds := by decide +kernel

/-- ... and so does an unclosed comment ending with a colon. -/
theorem C43_refuted_comment : Sample.panicOf (Sample.go [] c!"a {:* b :") = some .bounds := by decide +kernel

/-- The hypotheses can be met: the schema of the examples and the default schema have the documented shape, and the
environment of the examples is obliging in a release build. -/
example : SaneSchema (Sample.schema 1000 [(c!"x", .str c!"X")] Sample.inherit) where
  obj := ⟨_, rfl⟩
  maxBifs := by decide +kernel
  expire := by decide +kernel
  show_ := by decide +kernel
  data := .inr ⟨_, rfl⟩
  inherit := ⟨.inr ⟨_, rfl⟩, .inr ⟨_, rfl⟩, .inr ⟨_, rfl⟩, .inr ⟨_, rfl⟩, .inr ⟨_, rfl⟩⟩

theorem C43_default : SaneSchema defaultSchema where
  obj := ⟨_, rfl⟩
  maxBifs := by decide +kernel
  expire := by decide +kernel
  show_ := by decide +kernel
  data := .inr ⟨_, rfl⟩
  inherit := ⟨.inr ⟨_, rfl⟩, .inr ⟨_, rfl⟩, .inr ⟨_, rfl⟩, .inr ⟨_, rfl⟩, .inr ⟨_, rfl⟩⟩

example : Obliging { Sample.env with overflowChecks := false } where
  date := by intro t f h; simp [Sample.env] at h
  canon := fun p => ⟨p, rfl⟩
  release := rfl
  template := by intro t v h; simp [Sample.env] at h

end Nts
