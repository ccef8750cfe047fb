import Verif.Props.Panic
import Verif.Props.Exit
import Verif.Props.AllowName
/-
C43, C19: which BIF makes a render panic.
-/
set_option autoImplicit false
namespace Nts
open Spec

/-! ### specification -/

/-- `Evaluates env n src only bs sh inh m raw sh1 inh1`: while the blocks `bs` of `src` are evaluated from the state `sh`, `inh`,
the BIF `raw` - one of them, or one in a block nested in them, at any depth - is evaluated, in the state `sh1`, `inh1`. -/
inductive Spec.Evaluates (env : Env) : Nat → Str → Str → List (Nat × Nat) → Shared → Inherit →
    Nat → Str → Shared → Inherit → Prop
  | here {n : Nat} {src only : Str} {b e : Nat} {bs : List (Nat × Nat)} {sh : Shared} {inh : Inherit} :
      sh.exit = false →
      (startsWith c!"{:*" (slice src b e) || (inh.lastCoalesceOut && inh.alias = c!"coalesce")) = false →
      Evaluates env n src only ((b, e) :: bs) sh inh n (slice src b e) sh inh
  | skip {n m : Nat} {src only raw : Str} {b e : Nat} {bs : List (Nat × Nat)} {sh sh1 : Shared} {inh inh1 : Inherit} :
      sh.exit = false →
      (startsWith c!"{:*" (slice src b e) || (inh.lastCoalesceOut && inh.alias = c!"coalesce")) = true →
      Evaluates env n src only bs sh inh m raw sh1 inh1 → Evaluates env n src only ((b, e) :: bs) sh inh m raw sh1 inh1
  | later {n m : Nat} {src only raw x : Str} {b e : Nat} {bs : List (Nat × Nat)} {sh sh' sh1 : Shared}
      {inh inh' inh1 : Inherit} :
      sh.exit = false →
      (startsWith c!"{:*" (slice src b e) || (inh.lastCoalesceOut && inh.alias = c!"coalesce")) = false →
      runBif env (runBlocks env n) sh inh (slice src b e) only = .ok x sh' inh' →
      Evaluates env n src only bs sh' inh' m raw sh1 inh1 → Evaluates env n src only ((b, e) :: bs) sh inh m raw sh1 inh1
  | nested {n m : Nat} {src only name raw : Str} {b e : Nat} {bs : List (Nat × Nat)} {sh sh1 : Shared} {inh inh1 : Inherit}
      {s s1 : St} {o : Op} {k : o.Resp → Prog Unit} {csrc : Str} {cbs : List (Nat × Nat)} :
      sh.exit = false →
      (startsWith c!"{:*" (slice src b e) || (inh.lastCoalesceOut && inh.alias = c!"coalesce")) = false →
      Started sh inh (slice src b e) only name s →
      Moment (runBlocks env (n + 1)) (bifBody env name) s (.op o k) s1 →
      childOf o = some (csrc, cbs) →
      Evaluates env n csrc only cbs (childStart s1 o) (childInherit s1) m raw sh1 inh1 →
      Evaluates env (n + 1) src only ((b, e) :: bs) sh inh m raw sh1 inh1

/-- The name of a BIF begins, modifiers apart, with a character outside of ASCII. -/
def Spec.OddName (name : Str) : Prop :=
  ∃ mods c r, name = mods ++ c :: r ∧ (∀ x ∈ mods, x = '&' ∨ x = '!' ∨ x = '^' ∨ x = '+') ∧ 128 ≤ c.toNat

/-- A text that ends with a colon and has a comment that is never closed. -/
def Spec.Broken (t : Str) : Prop := c!":" <:+ t ∧ ¬ AllClosed t

/-- The BIF called `name`, in the state `s`, is about to look at a broken text: a variable or file name to be computed, without
`allow`, or the content of a file to be included when comments are removed. -/
def Spec.Looks (name : Str) (s : St) : Prop :=
  (name = [] ∧ c!"{:" <:+: s.b.src ∧ ¬ HasAllow s.b.src ∧ Broken s.b.src) ∨
  ((name = c!"include" ∨ name = c!"data" ∨ name = c!"locale") ∧ c!"{:" <:+: s.b.code ∧ ¬ HasAllow s.b.code ∧ Broken s.b.code) ∨
  (name = c!"obj" ∧ c!"{:" <:+: s.b.params ∧ ¬ HasAllow s.b.params ∧ Broken s.b.params) ∨
  (name = c!"include" ∧ c!"remove" <:+: s.sh.comments ∧ ∃ f t, s.sh.w.fs s.b.filePath = some f ∧ f.content = some t ∧ Broken t)

/-- The BIF `raw` itself cuts a text outside of its bounds: its name is odd, or it looks at a broken text. -/
def Spec.Cuts (env : Env) (R : Rec) (raw : Str) (sh : Shared) (inh : Inherit) (only : Str) : Prop :=
  sh.count < sh.max ∧ ∃ full src, bifSplit raw = some (full, src) ∧
    (only = [] ∨ contains only full = true ∨ inh.inOnly = true) ∧
    (OddName full ∨
      ∃ name s s1, Started sh inh raw only name s ∧ Moment R (bifBody env name) s (.panic .bounds) s1 ∧ Looks name s1)

/-- `PassOf env inh sh0 raw k sh text only`: the pass number `k` of a render evaluates `text` from the state `sh`.  The first one (`0`)
evaluates the template, the others what is left as long as it has `{:!cache;`. -/
inductive Spec.PassOf (env : Env) (inh : Inherit) (sh0 : Shared) (raw : Str) : Nat → Shared → Str → Str → Prop
  | first : PassOf env inh sh0 raw 0 sh0 raw []
  | next {k : Nat} {sh sh' : Shared} {inh' : Inherit} {text only out : Str} : PassOf env inh sh0 raw k sh text only →
      pass env sh inh text only = .ok out sh' inh' → c!"{:!cache;" <:+: out →
      PassOf env inh sh0 raw (k + 1) sh' out c!"!cache"

/-- During the evaluation of `text` from `sh`, `inh`, a BIF satisfying `P` is evaluated. -/
def Spec.Somewhere (P : Rec → Str → Shared → Inherit → Str → Prop) (env : Env) (n : Nat) (sh : Shared) (inh : Inherit)
    (text only : Str) : Prop :=
  ∃ bs, extractBlocks text = .ok bs ∧ ∃ m raw sh1 inh1, Evaluates env n text only bs sh inh m raw sh1 inh1 ∧
    P (runBlocks env m) raw sh1 inh1 only

/-- During one of the first `n + 1` passes of a render, a BIF satisfying `P` is evaluated. -/
def Spec.InSomePass (P : Rec → Str → Shared → Inherit → Str → Prop) (env : Env) (n : Nat) (t : Tpl) (sh : Shared) : Prop :=
  ∃ raw sh0 inh, initShared env t.filePath t.raw sh = .ok (raw, sh0, inh) ∧ ∃ k sh1 text only, k ≤ n ∧
    PassOf env inh sh0 raw k sh1 text only ∧
    Somewhere P env sh1.max sh1 { inh with blockCount := inh.blockCount + 1 } text only

/-! ### panics of the bodies, whatever the environment -/

/-- The program panics by itself only with `S`. -/
abbrev NoOther (S : Panic → Prop) {α : Type} (p : Prog α) : Prop := PanicsIn S AnyR p

section
variable {S : Panic → Prop}

theorem nb_bind {α β : Type} {p : Prog α} {f : α → Prog β} (hp : NoOther S p) (hf : ∀ a, NoOther S (f a)) :
    NoOther S (p >>= f) := pan_bind' hp (fun a _ => hf a)
theorem nb_bind' {α β : Type} {p : Prog α} {f : α → Prog β} (hp : NoOther S p) (hf : ∀ a, NoOther S (f a)) :
    NoOther S (p.bind f) := pan_bind' hp (fun a _ => hf a)
theorem nb_op (o : Op) : NoOther S (perform o) := fun _ => trivial
theorem nb_pure {α : Type} (a : α) : NoOther S (Prog.pure a) := trivial
theorem nb_pure' {α : Type} (a : α) : NoOther S (pure a : Prog α) := trivial
theorem nb_get : NoOther S getSt := fun _ => trivial
theorem nb_modB (f : BifS → BifS) : NoOther S (modB f) := fun _ => trivial
theorem nb_panic {α : Type} {p : Panic} (h : S p) : NoOther S (.panic p : Prog α) := h
theorem nb_error {α : Type} (msg : Str) : NoOther S (bifError msg : Prog α) := fun _ => trivial
theorem nb_child (x : Str) (b : Bool) : NoOther S (childParse x b) := fun _ => trivial
theorem nb_setCode (x : Str) : NoOther S (setCode x) := fun _ => trivial
theorem nb_setParams (x : Str) : NoOther S (setParams x) := fun _ => trivial
theorem nb_setOut (x : Str) : NoOther S (setOut x) := fun _ => trivial
theorem nb_setSrc (x : Str) : NoOther S (setSrc x) := fun _ => trivial
theorem nb_setAlias (x : Str) : NoOther S (setAlias x) := fun _ => trivial
theorem nb_setFilePath (x : Str) : NoOther S (setFilePath x) := fun _ => trivial
theorem nb_setDir (x : Str) : NoOther S (setDir x) := fun _ => trivial
theorem nb_setData (a b : Str) : NoOther S (setData a b) := fun _ => trivial
theorem nb_outCode : NoOther S outCode := fun _ => trivial
theorem nb_tick : NoOther S tick := fun _ => trivial

macro "nb_step" : tactic => `(tactic| first
  | with_reducible refine nb_bind ?_ (fun _ => ?_)
  | with_reducible refine nb_bind' ?_ (fun _ => ?_)
  | with_reducible exact nb_get
  | with_reducible exact nb_modB _
  | with_reducible exact nb_pure _
  | with_reducible exact nb_pure' _
  | with_reducible exact nb_panic (by assumption)
  | with_reducible exact nb_error _
  | with_reducible exact nb_child _ _
  | with_reducible exact nb_setCode _
  | with_reducible exact nb_setParams _
  | with_reducible exact nb_setOut _
  | with_reducible exact nb_setSrc _
  | with_reducible exact nb_setAlias _
  | with_reducible exact nb_setFilePath _
  | with_reducible exact nb_setDir _
  | with_reducible exact nb_setData _ _
  | with_reducible exact nb_outCode
  | with_reducible exact nb_tick
  | with_reducible exact nb_op _
  | split
  | dsimp only)

theorem nb_denyMods (f : BifS → Bool) : NoOther S (denyMods f) := by unfold denyMods; repeat' nb_step
theorem nb_denyFlags : NoOther S denyFlags := by unfold denyFlags; repeat' nb_step
theorem nb_denyFlgParams : NoOther S denyFlgParams := by unfold denyFlgParams; repeat' nb_step
theorem nb_checkFlags (l : List Str) : NoOther S (checkFlags l) := by unfold checkFlags; repeat' nb_step
theorem nb_extract (b : Bool) : NoOther S (extractParamsCode b) := by unfold extractParamsCode; repeat' nb_step
theorem nb_parseCode (b : Bool) : NoOther S (parseCode b) := by unfold parseCode; repeat' nb_step
theorem nb_argLoop (l : List Str) : NoOther S (argLoop l) := by
  induction l with
  | nil => trivial
  | cons a r ih => unfold argLoop; repeat' (first | exact ih | nb_step)
theorem nb_extractArgs : NoOther S extractArgs := by
  unfold extractArgs; repeat' (first | exact nb_argLoop _ | nb_step)
theorem nb_argReq (l : List Str) (i : Nat) (m : Str) : NoOther S (argReq l i m) := by unfold argReq; repeat' nb_step
theorem nb_outUncached : NoOther S outUncached := by unfold outUncached; repeat' nb_step
theorem nb_canon (h : S .unwrap) (env : Env) (p : Str) : NoOther S (canonUnwrap env p) := by
  unfold canonUnwrap; repeat' nb_step
theorem nb_forList {β : Type} (l : List β) (f : β → Prog Unit) (h : ∀ x, NoOther S (f x)) : NoOther S (forList l f) := by
  induction l with
  | nil => trivial
  | cons a r ih => exact nb_bind' (h a) (fun _ => ih)

macro "nb_mid" : tactic => `(tactic| first
  | with_reducible exact nb_denyMods _
  | with_reducible exact nb_denyFlags
  | with_reducible exact nb_denyFlgParams
  | with_reducible exact nb_checkFlags _
  | with_reducible exact nb_extract _
  | with_reducible exact nb_parseCode _
  | with_reducible exact nb_extractArgs
  | with_reducible exact nb_argReq _ _ _
  | with_reducible exact nb_outUncached
  | with_reducible exact nb_canon (by assumption) _ _
  | with_reducible refine nb_forList _ _ (fun _ => ?_)
  | nb_step)

theorem nb_cond (t : Value → Str → Bool) : NoOther S (condBif t) := by unfold condBif; repeat' nb_mid
theorem nb_cmp (t : Str → Str → Bool) : NoOther S (cmpBif t) := by unfold cmpBif; repeat' nb_mid
theorem nb_debugEnable (env : Env) : NoOther S (debugEnable env) := by unfold debugEnable; repeat' nb_mid
theorem nb_mergeJson (env : Env) (sec : Str) (part : Value → Value) (text : Str) :
    NoOther S (mergeJson env sec part text) := by
  unfold mergeJson; repeat' nb_mid
theorem nb_allow (env : Env) : NoOther S (bifAllow env) := by unfold bifAllow; repeat' nb_mid
theorem nb_coalesce : NoOther S bifCoalesce := by unfold bifCoalesce; repeat' nb_mid
theorem nb_code : NoOther S bifCode := by unfold bifCode; repeat' nb_mid
theorem nb_count (h : S .overflow) (env : Env) : NoOther S (bifCount env) := by unfold bifCount; repeat' nb_mid
theorem nb_date (h : S .fmt) (env : Env) : NoOther S (bifDate env) := by unfold bifDate; repeat' nb_mid
theorem nb_debug (env : Env) : NoOther S (bifDebug env) := by
  unfold bifDebug; repeat' (first | with_reducible exact nb_debugEnable _ | nb_mid)
theorem nb_declare : NoOther S bifDeclare := by unfold bifDeclare; repeat' nb_mid
theorem nb_each : NoOther S bifEach := by unfold bifEach eachIter; repeat' nb_mid
theorem nb_else : NoOther S bifElse := by unfold bifElse; repeat' nb_mid
theorem nb_eval (env : Env) : NoOther S (bifEval env) := by unfold bifEval; repeat' nb_mid
theorem nb_exit : NoOther S bifExit := by unfold bifExit; repeat' nb_mid
theorem nb_fetch (env : Env) : NoOther S (bifFetch env) := by unfold bifFetch; repeat' nb_mid
theorem nb_flg : NoOther S bifFlg := by unfold bifFlg; repeat' nb_mid
theorem nb_for (env : Env) : NoOther S (bifFor env) := by unfold bifFor forIter; repeat' nb_mid
theorem nb_hash (env : Env) : NoOther S (bifHash env) := by unfold bifHash; repeat' nb_mid
theorem nb_join (env : Env) : NoOther S (bifJoin env) := by unfold bifJoin; repeat' nb_mid
theorem nb_lang : NoOther S bifLang := by unfold bifLang; repeat' nb_mid
theorem nb_moveto (env : Env) : NoOther S (bifMoveto env) := by unfold bifMoveto; repeat' nb_mid
theorem nb_neutral : NoOther S bifNeutral := by unfold bifNeutral; repeat' nb_mid
theorem nb_param (env : Env) : NoOther S (bifParam env) := by unfold bifParam; repeat' nb_mid
theorem nb_rand (env : Env) : NoOther S (bifRand env) := by unfold bifRand; repeat' nb_mid
theorem nb_redirect : NoOther S bifRedirect := by unfold bifRedirect; repeat' nb_mid
theorem nb_replace : NoOther S bifReplace := by unfold bifReplace; repeat' nb_mid
theorem nb_snippet (env : Env) : NoOther S (bifSnippet env) := by unfold bifSnippet; repeat' nb_mid
theorem nb_sum (env : Env) : NoOther S (bifSum env) := by unfold bifSum; repeat' nb_mid
theorem nb_trans (env : Env) : NoOther S (bifTrans env) := by unfold bifTrans; repeat' nb_mid
theorem nb_cacheParse (b : Bool) (f : Str → Prog Unit) (h : ∀ x, NoOther S (f x)) : NoOther S (cacheParse b f) := by
  unfold cacheParse; repeat' (first | exact h _ | nb_mid)
theorem nb_cacheStore (env : Env) (b : Bool) (d f : Str) : NoOther S (cacheStore env b d f) := by
  unfold cacheStore; repeat' (first | with_reducible exact nb_cacheParse _ _ (fun _ => nb_setCode _) | nb_mid)
theorem nb_cacheLookup (h : S .overflow) (env : Env) (b : Bool) (d f e : Str) : NoOther S (cacheLookup env b d f e) := by
  unfold cacheLookup
  repeat' (first
    | with_reducible exact nb_cacheStore _ _ _ _
    | with_reducible exact nb_cacheParse _ _ (fun _ => nb_setOut _)
    | nb_mid)
theorem nb_cache (h : S .overflow) (env : Env) : NoOther S (bifCache env) := by
  unfold bifCache; repeat' (first | with_reducible exact nb_cacheLookup h _ _ _ _ _ | nb_mid)
theorem nb_unknown : NoOther S bifUnknown := by unfold bifUnknown; repeat' nb_mid
theorem nb_objVenv (o : Value) (d : Str) : NoOther S (objVenv o d) := by unfold objVenv; repeat' nb_mid
theorem nb_objCall (env : Env) (o : Value) (p : Bool) (f : Str) : NoOther S (objCall env o p f) := by
  unfold objCall ensureBridge; repeat' (first | with_reducible exact nb_objVenv _ _ | nb_mid)
mutual
theorem nb_objEntry (r : Bool) (k : Str) : ∀ v, NoOther S (objEntry r k v)
  | .str x => by unfold objEntry objString; repeat' nb_mid
  | .obj o => by unfold objEntry; repeat' (first | exact nb_objEntries _ _ | nb_mid)
  | .null => by unfold objEntry; trivial
  | .bool _ => by unfold objEntry; trivial
  | .num _ => by unfold objEntry; trivial
  | .arr _ => by unfold objEntry; trivial
theorem nb_objEntries (r : Bool) : ∀ o, NoOther S (objEntries r o)
  | [] => trivial
  | (k, v) :: rest => by
    unfold objEntries
    exact nb_bind' (nb_objEntry r k v) (fun _ => nb_bind' (nb_objEntries r rest) (fun _ => trivial))
end
theorem nb_parseObj (v : Value) : NoOther S (parseObjValues v) := by
  cases v with
  | obj o => exact nb_bind' (nb_objEntries false o) (fun _ => trivial)
  | _ => trivial
end

/-! ### where the bodies stop -/

/-- Wherever `p`, run from `s`, cuts a text outside of its bounds, `T` holds. -/
def Stops (T : St → Prop) {α : Type} (p : Prog α) (s : St) : Prop := ∀ R s1, Moment R p s (.panic .bounds) s1 → T s1

theorem moment_bind {α β : Type} {R : Rec} {q : Panic} {p : Prog α} {f : α → Prog β} {s s1 : St}
    (h : Moment R (p.bind f) s (.panic q) s1) :
    Moment R p s (.panic q) s1 ∨ ∃ a s', Moment R p s (.pure a) s' ∧ Moment R (f a) s' (.panic q) s1 := by
  induction p generalizing s with
  | pure a => exact .inr ⟨a, s, .now _ _, h⟩
  | throw e => exact absurd h (by intro h; cases h)
  | panic p =>
    generalize hx : (Prog.panic p : Prog α).bind f = x at h
    cases h with
    | now =>
      simp only [Prog.bind, Prog.panic.injEq] at hx
      subst hx
      exact .inl (.now _ _)
    | step => simp [Prog.bind] at hx
  | op o k ih =>
    generalize hx : (Prog.op o k).bind f = x at h
    cases h with
    | now => simp [Prog.bind] at hx
    | @step o' k' _ s2 _ r _ hst hm =>
      simp only [Prog.bind, Prog.op.injEq] at hx
      obtain ⟨rfl, hk⟩ := hx
      have hk := eq_of_heq hk
      subst hk
      rcases ih r hm with h | ⟨a, s', h1, h2⟩
      · exact .inl (.step hst h)
      · exact .inr ⟨a, s', .step hst h1, h2⟩

theorem moment_noOther {S : Panic → Prop} {α : Type} {R : Rec} {q : Panic} {p : Prog α} {s s1 : St} (h : NoOther S p)
    (hm : Moment R p s (.panic q) s1) : S q := by
  generalize hq : (Prog.panic q : Prog α) = x at hm
  induction hm with
  | now => subst hq; exact h
  | step _ _ ih => exact ih (h _) hq

theorem stops_none {T : St → Prop} {α : Type} {p : Prog α} (h : NoOther (fun q => q ≠ .bounds) p) (s : St) : Stops T p s := by
  exact fun R s1 hm => absurd rfl (moment_noOther h hm)

theorem stops_bind {T : St → Prop} {α β : Type} {p : Prog α} {f : α → Prog β} {s : St} (hp : Stops T p s)
    (hf : ∀ R a s', Moment R p s (.pure a) s' → Stops T (f a) s') : Stops T (p >>= f) s := by
  intro R s1 hm
  rcases moment_bind hm with h | ⟨a, s', h1, h2⟩
  · exact hp R s1 h
  · exact hf R a s' h1 R s1 h2

theorem stops_seq {T : St → Prop} {α β : Type} {p : Prog α} {f : α → Prog β} {s : St} (hp : NoOther (fun q => q ≠ .bounds) p)
    (hf : ∀ a s', Stops T (f a) s') : Stops T (p >>= f) s :=
  stops_bind (stops_none hp s) (fun _ a s' _ => hf a s')

theorem stops_get {T : St → Prop} {β : Type} {f : St → Prog β} {s : St} (hf : Stops T (f s) s) : Stops T (getSt >>= f) s := by
  intro R s1 hm
  cases hm with
  | step hst hm =>
    simp only [step, ORes.ok.injEq] at hst
    obtain ⟨rfl, rfl⟩ := hst
    exact hf R s1 hm

theorem stops_modB {T : St → Prop} {β : Type} {g : BifS → BifS} {f : Unit → Prog β} {s : St}
    (hf : Stops T (f ()) { s with b := g s.b }) : Stops T (modB g >>= f) s := by
  intro R s1 hm
  cases hm with
  | step hst hm =>
    simp only [step, ORes.ok.injEq] at hst
    obtain ⟨_, rfl⟩ := hst
    exact hf R s1 hm

theorem containsAllow_none {c : Str} : containsAllow c = none ↔ ¬ HasAllow c ∧ Broken c := by
  rcases allow_cases c with ⟨h, _, e⟩ | ⟨h, _, e⟩ | ⟨h1, h2, h3, _, _, e⟩
  · rw [e]
    refine ⟨fun h => by simp at h, fun ⟨h1, h2⟩ => ?_⟩
    rcases h with h | ⟨t, ht, _⟩
    · exact absurd h h1
    · have := (C16_panics_exact c).2 h2
      rw [(C16_exact c (some t)).2 ht] at this
      simp at this
  · rw [e]
    refine ⟨fun h => by simp at h, fun ⟨_, h2⟩ => ?_⟩
    obtain ⟨_, t, ht, _⟩ := h
    have := (C16_panics_exact c).2 h2
    rw [(C16_exact c (some t)).2 ht] at this
    simp at this
  · exact ⟨fun _ => ⟨h1, h2, h3⟩, fun _ => e⟩

theorem stops_requireAllow {T : St → Prop} {c msg : Str} {s : St} (h : ¬ HasAllow c → Broken c → T s) :
    Stops T (requireAllow c msg) s := by
  unfold requireAllow
  split
  · next hc =>
    intro R s1 hm
    cases hm
    exact h (containsAllow_none.1 hc).1 (containsAllow_none.1 hc).2
  · exact stops_none (nb_pure _) s
  · exact stops_none (nb_error _) s

theorem stops_var (env : Env) (s : St) :
    Stops (fun s => c!"{:" <:+: s.b.src ∧ ¬ HasAllow s.b.src ∧ Broken s.b.src) (bifVar env) s := by
  unfold bifVar
  refine stops_seq (nb_denyMods _) fun _ s => stops_get ?_
  split
  · exact stops_none (by repeat' nb_mid) _
  · refine stops_modB (stops_bind ?_ fun _ a s' _ => stops_none (by repeat' nb_mid) _)
    split
    · next hc =>
      exact stops_bind (stops_requireAllow fun h1 h2 => ⟨(contains_iff (by decide)).1 hc, h1, h2⟩)
        (fun _ _ _ _ => stops_none (nb_child _ _) _)
    · exact stops_none (nb_pure _) _

/-- What the text of the file name must be. -/
def LooksName (s : St) : Prop := c!"{:" <:+: s.b.code ∧ ¬ HasAllow s.b.code ∧ Broken s.b.code

theorem stops_resolve (s : St) : Stops LooksName resolveFilePath s := by
  unfold resolveFilePath
  refine stops_get (stops_modB (stops_bind ?_ fun _ _ _ _ => stops_none (by repeat' nb_mid) _))
  split
  · next hc =>
    exact stops_bind (stops_requireAllow fun h1 h2 => ⟨(contains_iff (by decide)).1 hc, h1, h2⟩)
      (fun _ _ _ _ => stops_none (by repeat' nb_mid) _)
  · exact stops_none (nb_pure _) _

theorem ne_unwrap : Panic.unwrap ≠ .bounds := by decide

theorem stops_data (env : Env) (s : St) : Stops LooksName (bifData env) s := by
  unfold bifData
  have := ne_unwrap
  refine stops_seq (nb_denyMods _) fun _ s => stops_seq (nb_extract _) fun _ s => stops_get ?_
  split
  · exact stops_none (nb_error _) _
  · split
    · exact stops_none (by repeat' (first | with_reducible exact nb_mergeJson _ _ _ _ | nb_mid)) _
    · exact stops_bind (stops_resolve _) fun _ _ _ _ =>
        stops_none (by repeat' (first | with_reducible exact nb_mergeJson _ _ _ _ | nb_mid)) _

theorem stops_locale (env : Env) (s : St) : Stops LooksName (bifLocale env) s := by
  unfold bifLocale
  have := ne_unwrap
  refine stops_seq (nb_denyMods _) fun _ s => stops_seq (nb_extract _) fun _ s => stops_get ?_
  split
  · exact stops_none (nb_error _) _
  · split
    · exact stops_none (by repeat' (first | with_reducible exact nb_mergeJson _ _ _ _ | nb_mid)) _
    · exact stops_bind (stops_resolve _) fun _ _ _ _ =>
        stops_none (by repeat' (first | with_reducible exact nb_mergeJson _ _ _ _ | nb_mid)) _

theorem broken_nil : ¬ Broken [] := by
  intro h
  exact absurd h.1 (by decide)

/-- What the content of the included file must be. -/
def LooksFile (s : St) : Prop :=
  c!"remove" <:+: s.sh.comments ∧ ∃ f t, s.sh.w.fs s.b.filePath = some f ∧ f.content = some t ∧ Broken t

theorem stops_file {env : Env} {s s' : St} (hc : contains c!"remove" s.sh.comments = true)
    (h1 : s'.sh = s.sh) (h2 : s'.b.filePath = s.b.filePath) (f : Str → Prog Unit)
    (hf : ∀ t, NoOther (fun q => q ≠ .bounds) (f t)) :
    Stops LooksFile (match removeComments ((readFile s s.b.filePath).getD []) with
      | none => .panic .bounds
      | some t => f t) s' := by
  split
  · next hr =>
    have hb : Broken ((readFile s s.b.filePath).getD []) := (C16_panics_exact _).1 hr
    cases hrf : readFile s s.b.filePath with
    | none => rw [hrf] at hb; exact absurd hb broken_nil
    | some t =>
      rw [hrf] at hb
      unfold readFile at hrf
      cases hfs : s.sh.w.fs s.b.filePath with
      | none => rw [hfs] at hrf; simp at hrf
      | some e =>
        rw [hfs] at hrf
        intro R s1 hm
        cases hm
        refine ⟨?_, e, t, ?_, hrf, hb⟩
        · rw [h1]; exact (contains_iff (by decide)).1 hc
        · rw [h1, h2]; exact hfs
  · exact stops_none (hf _) _

theorem stops_include (env : Env) (s : St) : Stops (fun s => LooksName s ∨ LooksFile s) (bifInclude env) s := by
  unfold bifInclude
  have := ne_unwrap
  refine stops_seq (nb_denyMods _) fun _ s => stops_seq (nb_extract _) fun _ s => stops_seq (nb_checkFlags _) fun _ s => ?_
  refine stops_bind (fun R s1 hm => .inl (stops_resolve s R s1 hm)) fun _ _ s _ => stops_get ?_
  split
  · exact stops_none (by repeat' nb_mid) _
  · have hdir : ∀ R (a : Unit) s', Moment R (match env.parent s.b.filePath with
        | some d => setDir d
        | none => .pure ()) s (.pure a) s' → s'.sh = s.sh ∧ s'.b.filePath = s.b.filePath := by
      intro R a s' hm
      split at hm
      · cases hm with
        | step hst hm =>
          simp only [step, ORes.ok.injEq] at hst
          obtain ⟨_, rfl⟩ := hst
          cases hm
          exact ⟨rfl, rfl⟩
      · cases hm
        exact ⟨rfl, rfl⟩
    refine stops_bind (stops_none (by repeat' nb_mid) _) fun R a s' hm => ?_
    obtain ⟨h1, h2⟩ := hdir R a s' hm
    refine stops_bind (stops_none (by repeat' nb_mid) _) fun R a s2 hm => ?_
    have h3 : s2 = s' := by
      unfold canonUnwrap at hm
      split at hm
      · cases hm; rfl
      · cases hm
    subst h3
    split
    · exact stops_none (by repeat' nb_mid) _
    · dsimp only
      split
      · exact stops_none (by repeat' nb_mid) _
      · split
        · exact stops_none (by repeat' nb_mid) _
        · refine stops_bind (stops_none (by repeat' nb_mid) _) fun R a s4 hm => ?_
          have h5 : s4.sh = s.sh ∧ s4.b.filePath = s.b.filePath := by
            cases hm with
            | step hst hm =>
              simp only [step, ORes.ok.injEq] at hst
              obtain ⟨_, rfl⟩ := hst
              cases hm
              exact ⟨h1, h2⟩
          split
          · next hc =>
            intro R s1 hm
            exact .inr (stops_file (env := env) hc h5.1 h5.2 _ (fun t => by repeat' nb_mid) R s1 hm)
          · exact stops_none (by repeat' nb_mid) _

theorem stops_objSource (env : Env) (s : St) :
    Stops (fun s => c!"{:" <:+: s.b.params ∧ ¬ HasAllow s.b.params ∧ Broken s.b.params) (objSource env) s := by
  unfold objSource
  refine stops_get ?_
  split
  · exact stops_none (nb_pure' _) _
  · refine stops_seq (by repeat' nb_mid) fun _ s => stops_get (stops_modB (stops_bind ?_ fun _ _ _ _ => stops_none (by repeat' nb_mid) _))
    split
    · next hc =>
      exact stops_bind (stops_requireAllow fun h1 h2 => ⟨(contains_iff (by decide)).1 hc, h1, h2⟩)
        (fun _ _ _ _ => stops_none (by repeat' nb_mid) _)
    · exact stops_none (nb_pure _) _

theorem stops_obj (env : Env) (s : St) :
    Stops (fun s => c!"{:" <:+: s.b.params ∧ ¬ HasAllow s.b.params ∧ Broken s.b.params) (bifObj env) s := by
  unfold bifObj
  have := ne_unwrap
  refine stops_seq (nb_denyMods _) fun _ s => stops_seq nb_get fun _ s => stops_seq (by repeat' nb_mid) fun _ s =>
    stops_seq nb_denyFlags fun _ s => stops_bind (stops_objSource env _) fun _ _ s _ => stops_none ?_ s
  repeat' (first | with_reducible exact nb_parseObj _ | with_reducible exact nb_objCall _ _ _ _ | nb_mid)

theorem nb_ite {S : Panic → Prop} {α : Type} {c : Prop} [Decidable c] {p q : Prog α} (h1 : c → NoOther S p) (h2 : NoOther S q) :
    NoOther S (if c then p else q) := by
  by_cases h : c
  · rw [if_pos h]; exact h1 h
  · rw [if_neg h]; exact h2

theorem nb_body {S : Panic → Prop} (h2 : S .overflow) (h3 : S .fmt) (env : Env) (name : Str)
    (hv : name = [] → NoOther S (bifVar env)) (hi : name = c!"include" → NoOther S (bifInclude env))
    (hd : name = c!"data" → NoOther S (bifData env)) (hl : name = c!"locale" → NoOther S (bifLocale env))
    (ho : name = c!"obj" → NoOther S (bifObj env)) : NoOther S (bifBody env name) := by
  unfold bifBody
  refine nb_ite hv ?_
  refine nb_ite (fun _ => (nb_allow env)) ?_
  refine nb_ite (fun _ => (nb_cond _)) ?_
  refine nb_ite (fun _ => (nb_cond _)) ?_
  refine nb_ite (fun _ => (nb_cache h2 env)) ?_
  refine nb_ite (fun _ => nb_coalesce) ?_
  refine nb_ite (fun _ => nb_code) ?_
  refine nb_ite (fun _ => (nb_cmp _)) ?_
  refine nb_ite (fun _ => (nb_count h2 env)) ?_
  refine nb_ite hd ?_
  refine nb_ite (fun _ => (nb_date h3 env)) ?_
  refine nb_ite (fun _ => nb_declare) ?_
  refine nb_ite (fun _ => (nb_cond _)) ?_
  refine nb_ite (fun _ => nb_each) ?_
  refine nb_ite (fun _ => nb_else) ?_
  refine nb_ite (fun _ => (nb_eval env)) ?_
  refine nb_ite (fun _ => nb_exit) ?_
  refine nb_ite (fun _ => (nb_fetch env)) ?_
  refine nb_ite (fun _ => (nb_cond _)) ?_
  refine nb_ite (fun _ => nb_flg) ?_
  refine nb_ite (fun _ => (nb_for env)) ?_
  refine nb_ite (fun _ => (nb_hash env)) ?_
  refine nb_ite hi ?_
  refine nb_ite (fun _ => (nb_join env)) ?_
  refine nb_ite (fun _ => nb_lang) ?_
  refine nb_ite hl ?_
  refine nb_ite (fun _ => (nb_moveto env)) ?_
  refine nb_ite (fun _ => nb_neutral) ?_
  refine nb_ite (fun _ => (nb_param env)) ?_
  refine nb_ite (fun _ => (nb_rand env)) ?_
  refine nb_ite (fun _ => nb_redirect) ?_
  refine nb_ite (fun _ => nb_replace) ?_
  refine nb_ite (fun _ => (nb_cmp _)) ?_
  refine nb_ite (fun _ => (nb_snippet env)) ?_
  refine nb_ite (fun _ => (nb_snippet env)) ?_
  refine nb_ite (fun _ => (nb_sum env)) ?_
  refine nb_ite (fun _ => (nb_trans env)) ?_
  refine nb_ite ho ?_
  refine nb_ite (fun _ => (nb_debug env)) ?_
  exact nb_unknown

theorem stops_body (env : Env) (name : Str) (s : St) : Stops (Looks name) (bifBody env name) s := by
  have h1 := ne_unwrap
  have h2 : Panic.overflow ≠ .bounds := by decide
  have h3 : Panic.fmt ≠ .bounds := by decide
  by_cases e1 : name = []
  · subst e1
    intro R s1 hm
    exact .inl ⟨rfl, stops_var env s R s1 hm⟩
  by_cases e2 : name = c!"include"
  · subst e2
    intro R s1 hm
    rcases stops_include env s R s1 hm with h | h
    · exact .inr (.inl ⟨.inl rfl, h⟩)
    · exact .inr (.inr (.inr ⟨rfl, h⟩))
  by_cases e3 : name = c!"data"
  · subst e3
    intro R s1 hm
    exact .inr (.inl ⟨.inr (.inl rfl), stops_data env s R s1 hm⟩)
  by_cases e4 : name = c!"locale"
  · subst e4
    intro R s1 hm
    exact .inr (.inl ⟨.inr (.inr rfl), stops_locale env s R s1 hm⟩)
  by_cases e5 : name = c!"obj"
  · subst e5
    intro R s1 hm
    exact .inr (.inr (.inl ⟨rfl, stops_obj env s R s1 hm⟩))
  exact stops_none (nb_body h2 h3 env name (fun h => absurd h e1) (fun h => absurd h e2) (fun h => absurd h e3)
    (fun h => absurd h e4) (fun h => absurd h e5)) s

/-! ### no body runs out of budget by itself -/

theorem nb_requireAllow {S : Panic → Prop} (h : S .bounds) (a b : Str) : NoOther S (requireAllow a b) := by
  unfold requireAllow; repeat' nb_step
theorem nb_resolve {S : Panic → Prop} (h : S .bounds) : NoOther S resolveFilePath := by
  unfold resolveFilePath; repeat' (first | with_reducible exact nb_requireAllow h _ _ | nb_step)

theorem nb_all {S : Panic → Prop} (h1 : S .unwrap) (h2 : S .overflow) (h3 : S .fmt) (h4 : S .bounds) (env : Env) (name : Str) :
    NoOther S (bifBody env name) := by
  refine nb_body h2 h3 env name (fun _ => ?_) (fun _ => ?_) (fun _ => ?_) (fun _ => ?_) (fun _ => ?_)
  · unfold bifVar; repeat' (first | with_reducible exact nb_requireAllow h4 _ _ | nb_mid)
  · unfold bifInclude; repeat' (first | with_reducible exact nb_resolve h4 | nb_mid)
  · unfold bifData; repeat' (first | with_reducible exact nb_resolve h4 | with_reducible exact nb_mergeJson _ _ _ _ | nb_mid)
  · unfold bifLocale; repeat' (first | with_reducible exact nb_resolve h4 | with_reducible exact nb_mergeJson _ _ _ _ | nb_mid)
  · unfold bifObj objSource
    repeat' (first
      | with_reducible exact nb_requireAllow h4 _ _
      | with_reducible exact nb_parseObj _
      | with_reducible exact nb_objCall _ _ _ _
      | nb_mid)

/-! ### from a BIF to the whole text -/

theorem run_panics {α : Type} {R : Rec} {q : Panic} {p : Prog α} {s : St} : run R p s = .panic q ↔
    (∃ s1, Moment R p s (.panic q) s1) ∨ ∃ (o : Op) (k : o.Resp → Prog α) (s1 : St), Moment R p s (.op o k) s1 ∧ step R o s1 = .panic q := by
  constructor
  · intro h
    induction p generalizing s with
    | pure a => simp [run] at h
    | throw e => simp [run] at h
    | panic p =>
      simp only [run, Res.panic.injEq] at h
      subst h
      exact .inl ⟨s, .now _ _⟩
    | op o k ih =>
      simp only [run] at h
      cases hst : step R o s with
      | ok r s' =>
        rw [hst] at h
        rcases ih r h with ⟨s1, h1⟩ | ⟨o', k', s1, h1, h2⟩
        · exact .inl ⟨s1, .step hst h1⟩
        · exact .inr ⟨o', k', s1, .step hst h1, h2⟩
      | panic p =>
        rw [hst] at h
        simp only [Res.panic.injEq] at h
        subst h
        exact .inr ⟨o, k, s, .now _ _, hst⟩
      | oof => rw [hst] at h; simp at h
  · rintro (⟨s1, h⟩ | ⟨o, k, s1, h, h2⟩)
    · rw [run_moment h]; rfl
    · rw [run_moment h]; simp only [run, h2]

theorem runChild_panics {s : St} {scope : Bool} {f : Shared → Inherit → PRes} {q : Panic} : runChild s scope f = .panic q ↔
    f (if scope then (createBlockSchema s.sh s.inh).1 else s.sh) (childInherit s) = .panic q := by
  unfold runChild
  have e : (if scope then createBlockSchema s.sh s.inh else (s.sh, s.inh)).1 =
      (if scope then (createBlockSchema s.sh s.inh).1 else s.sh) := by cases scope <;> rfl
  dsimp only
  rw [e]
  cases f (if scope then (createBlockSchema s.sh s.inh).1 else s.sh) (childInherit s) with
  | ok => simp
  | panic p => simp
  | oof => simp

theorem oresOpt_panics {o : Option St} {q : Panic} (h : oresOpt o = .panic q) : q = .index := by
  cases o with
  | none => simp only [oresOpt, ORes.panic.injEq] at h; exact h.symm
  | some s => simp [oresOpt] at h

/-- An operation panics (other than by an index) exactly when the child it evaluates does. -/
theorem step_panics {R : Rec} {o : Op} {s : St} {q : Panic} (hq : q ≠ .index) : step R o s = .panic q ↔
    ∃ csrc cbs, childOf o = some (csrc, cbs) ∧ R (childStart s o) (childInherit s) csrc cbs s.only = .panic q := by
  cases o with
  | child src scope =>
    simp only [step]
    rw [runChild_panics]
    have e : childStart s (.child src scope) = (if scope then (createBlockSchema s.sh s.inh).1 else s.sh) := by
      cases scope <;> rfl
    rw [← e]
    unfold parseSrc
    cases hx : extractBlocks src with
    | error p => simp [childOf, hx]
    | ok bs =>
      simp only [childOf, hx, Option.some.injEq, Prod.mk.injEq]
      exact ⟨fun h => ⟨src, bs, ⟨rfl, rfl⟩, h⟩, fun ⟨_, _, ⟨h1, h2⟩, h⟩ => by rw [← h1, ← h2] at h; exact h⟩
  | childBlocks src bs scope =>
    simp only [step]
    rw [runChild_panics]
    have e : childStart s (.childBlocks src bs scope) = (if scope then (createBlockSchema s.sh s.inh).1 else s.sh) := by
      cases scope <;> rfl
    rw [← e]
    simp only [childOf, Option.some.injEq, Prod.mk.injEq]
    exact ⟨fun h => ⟨src, bs, ⟨rfl, rfl⟩, h⟩, fun ⟨_, _, ⟨h1, h2⟩, h⟩ => by rw [← h1, ← h2] at h; exact h⟩
  | setData name v => exact ⟨fun h => absurd (oresOpt_panics h) hq, fun ⟨_, _, h, _⟩ => by simp [childOf] at h⟩
  | setMoveto name v => exact ⟨fun h => absurd (oresOpt_panics h) hq, fun ⟨_, _, h, _⟩ => by simp [childOf] at h⟩
  | setIndir sec key v => exact ⟨fun h => absurd (oresOpt_panics h) hq, fun ⟨_, _, h, _⟩ => by simp [childOf] at h⟩
  | mergeIndir sec v => exact ⟨fun h => absurd (oresOpt_panics h) hq, fun ⟨_, _, h, _⟩ => by simp [childOf] at h⟩
  | pushFile kd p => cases kd <;> exact ⟨fun h => by simp [step] at h, fun ⟨_, _, h, _⟩ => by simp [childOf] at h⟩
  | _ => exact ⟨fun h => by simp [step] at h, fun ⟨_, _, h, _⟩ => by simp [childOf] at h⟩

theorem setModifiers_odd {b : BifS} {name : Str} : setModifiers b name = none ↔ OddName name := by
  induction name generalizing b with
  | nil =>
    refine ⟨fun h => by simp [setModifiers] at h, fun ⟨mods, c, r, h, _⟩ => ?_⟩
    simp at h
  | cons c r ih =>
    have mod : ∀ {b' : BifS}, (c = '&' ∨ c = '!' ∨ c = '^' ∨ c = '+') → (setModifiers b' r = none ↔ OddName (c :: r)) := by
      intro b' hc
      rw [ih]
      constructor
      · rintro ⟨mods, d, t, rfl, hm, hd⟩
        refine ⟨c :: mods, d, t, rfl, ?_, hd⟩
        intro x hx
        rcases List.mem_cons.1 hx with rfl | hx
        · exact hc
        · exact hm x hx
      · rintro ⟨mods, d, t, h, hm, hd⟩
        cases mods with
        | nil =>
          simp only [List.nil_append, List.cons.injEq] at h
          obtain ⟨rfl, rfl⟩ := h
          rcases hc with rfl | rfl | rfl | rfl <;> exact absurd hd (by decide)
        | cons m ms =>
          simp only [List.cons_append, List.cons.injEq] at h
          exact ⟨ms, d, t, h.2, fun x hx => hm x (List.mem_cons_of_mem _ hx), hd⟩
    unfold setModifiers
    split
    · next h => exact mod (.inl h)
    · split
      · next h => exact mod (.inr (.inl h))
      · split
        · next h => exact mod (.inr (.inr (.inl h)))
        · split
          · next h => exact mod (.inr (.inr (.inr h)))
          · next h1 h2 h3 h4 =>
            split
            · next h5 =>
              refine ⟨fun h => by simp at h, ?_⟩
              rintro ⟨mods, d, t, h, hm, hd⟩
              cases mods with
              | nil =>
                simp only [List.nil_append, List.cons.injEq] at h
                rw [← h.1] at hd
                omega
              | cons m ms =>
                simp only [List.cons_append, List.cons.injEq] at h
                have := hm c (by rw [h.1]; simp)
                rcases this with h | h | h | h <;> contradiction
            · next h5 => exact ⟨fun _ => ⟨[], c, r, rfl, by simp, by omega⟩, fun _ => rfl⟩

/-- The BIF `raw` itself makes the render panic with `q`: it is one too many, or it cuts a text outside of its bounds. -/
def Own (env : Env) (R : Rec) (q : Panic) (raw : Str) (sh : Shared) (inh : Inherit) (only : Str) : Prop :=
  (q = .budget ∧ sh.max ≤ sh.count) ∨ (q = .bounds ∧ Cuts env R raw sh inh only)

theorem bifResult_panics {env : Env} {r : Res Unit} {q : Panic} (hq : q ≠ .unwrap) : bifResult env r = .panic q ↔ r = .panic q := by
  cases r with
  | ok a s => simp [bifResult, bifFinish]
  | err e s =>
    simp only [bifResult]
    cases showErrors s.sh with
    | none => simpa using fun h => hq h.symm
    | some b => simp [bifFinish]
  | panic p => simp [bifResult]
  | oof => simp [bifResult]

theorem started_unique {sh : Shared} {inh : Inherit} {raw only full src name : Str} {s : St} (h : Started sh inh raw only name s)
    (hs : bifSplit raw = some (full, src)) : ∃ b, setModifiers { BifS.new with src := src } full = some (b, name) := by
  cases h with
  | mk hmax hsp hsel hset =>
    rw [hsp] at hs
    simp only [Option.some.injEq, Prod.mk.injEq] at hs
    obtain ⟨rfl, rfl⟩ := hs
    exact ⟨_, hset⟩

theorem runBif_own {env : Env} {R : Rec} {q : Panic} {sh : Shared} {inh : Inherit} {raw only : Str}
    (hq : q = .budget ∨ q = .bounds) : runBif env R sh inh raw only = .panic q ↔
    Own env R q raw sh inh only ∨ ∃ name s, Started sh inh raw only name s ∧ ∃ (o : Op) (k : o.Resp → Prog Unit) (s1 : St),
      Moment R (bifBody env name) s (.op o k) s1 ∧ step R o s1 = .panic q := by
  have hu : q ≠ .unwrap := by rcases hq with rfl | rfl <;> decide
  constructor
  · intro h
    by_cases hc : sh.count < sh.max
    · unfold runBif at h
      rw [if_neg (by omega)] at h
      unfold bifParse at h
      cases hsp : bifSplit raw with
      | none =>
        rw [hsp] at h
        dsimp only at h
        split at h
        · simp at h
        · split at h
          · simp only [PRes.panic.injEq] at h
            exact absurd h.symm hu
          · simp at h
      | some fs =>
        obtain ⟨full, src⟩ := fs
        rw [hsp] at h
        dsimp only at h
        split at h
        · simp at h
        · next hsel =>
          have hsel' : only = [] ∨ contains only full = true ∨ inh.inOnly = true := by
            by_cases h1 : only = []
            · exact .inl h1
            · by_cases h2 : contains only full = true
              · exact .inr (.inl h2)
              · refine .inr (.inr ?_)
                have h3 : only.isEmpty = false := by cases only <;> simp_all
                rw [h3, Bool.eq_false_iff.2 h2] at hsel
                simpa using hsel
          cases hset : setModifiers { BifS.new with src := src } full with
          | none =>
            rw [hset] at h
            simp only [PRes.panic.injEq] at h
            exact .inl (.inr ⟨h.symm, hc, full, src, hsp, hsel', .inl (setModifiers_odd.1 hset)⟩)
          | some bn =>
            obtain ⟨b, name⟩ := bn
            have hst := Started.mk hc hsp hsel' hset
            rw [hset] at h
            dsimp only at h
            rw [bifResult_panics hu] at h
            rcases run_panics.1 h with ⟨s1, hm⟩ | ⟨o, k, s1, hm, hs⟩
            · rcases hq with rfl | rfl
              · exact absurd rfl (moment_noOther (nb_all (S := fun q => q ≠ .budget) (by decide) (by decide) (by decide) (by decide) env name) hm)
              · exact .inl (.inr ⟨rfl, hc, full, src, hsp, hsel', .inr ⟨name, _, s1, hst, hm, stops_body env name _ R s1 hm⟩⟩)
            · exact .inr ⟨name, _, hst, o, k, s1, hm, hs⟩
    · unfold runBif at h
      rw [if_pos (by omega)] at h
      simp only [PRes.panic.injEq] at h
      exact .inl (.inl ⟨h.symm, by omega⟩)
  · rintro ((⟨rfl, h⟩ | ⟨rfl, hc, full, src, hsp, hsel, h⟩) | ⟨name, s, hst, o, k, s1, hm, hs⟩)
    · unfold runBif
      rw [if_pos (by omega)]
    · rcases h with h | ⟨name, s, s1, hst, hm, _⟩
      · unfold runBif
        rw [if_neg (by omega)]
        unfold bifParse
        rw [hsp]
        dsimp only
        rw [if_neg (by
          rcases hsel with h | h | h
          · subst h; simp
          · rw [h]; simp
          · rw [h]; simp), setModifiers_odd.2 h]
      · rw [runBif_started hst, bifResult_panics (by decide), run_moment hm]
        rfl
    · rw [runBif_started hst, bifResult_panics hu]
      exact run_panics.2 (.inr ⟨o, k, s1, hm, hs⟩)

theorem step_only {R : Rec} {o : Op} {s s' : St} {r : o.Resp} (h : step R o s = .ok r s') : s'.only = s.only := by
  have child : ∀ (scope : Bool) (f : Shared → Inherit → PRes) (x : Str), runChild s scope f = .ok x s' → s'.only = s.only := by
    intro scope f x h
    unfold runChild at h
    dsimp only at h
    split at h
    · simp only [ORes.ok.injEq] at h
      rw [← h.2]
    · simp at h
    · simp at h
  cases o with
  | child src scope => simp only [step] at h; exact child _ _ _ h
  | childBlocks src bs scope => simp only [step] at h; exact child _ _ _ h
  | setData name v => obtain ⟨x, _, rfl⟩ := oresOpt_map h; rfl
  | setMoveto name v => obtain ⟨x, _, rfl⟩ := oresOpt_map h; rfl
  | setIndir sec key v => obtain ⟨x, _, rfl⟩ := oresOpt_map h; rfl
  | mergeIndir sec v => obtain ⟨x, _, rfl⟩ := oresOpt_map h; rfl
  | pushFile kd p => cases kd <;> (simp only [step, ORes.ok.injEq] at h; obtain ⟨_, rfl⟩ := h; rfl)
  | _ => simp only [step, ORes.ok.injEq] at h; obtain ⟨_, rfl⟩ := h; rfl

theorem moment_only {α : Type} {R : Rec} {p p' : Prog α} {s s' : St} (h : Moment R p s p' s') : s'.only = s.only := by
  induction h with
  | now => rfl
  | step hst _ ih => rw [ih, step_only hst]

/-- Something evaluated in a child of the BIF `raw` makes the render panic with `q`. -/
def Inner (env : Env) (q : Panic) (only : Str) (n : Nat) (raw : Str) (sh : Shared) (inh : Inherit) : Prop :=
  ∃ n', n = n' + 1 ∧ ∃ name s, Started sh inh raw only name s ∧ ∃ (o : Op) (k : o.Resp → Prog Unit) (s1 : St),
    Moment (runBlocks env n) (bifBody env name) s (.op o k) s1 ∧ ∃ csrc cbs, childOf o = some (csrc, cbs) ∧
    ∃ m raw' sh1 inh1, Evaluates env n' csrc only cbs (childStart s1 o) (childInherit s1) m raw' sh1 inh1 ∧
      Own env (runBlocks env m) q raw' sh1 inh1 only

/-- Some BIF of the blocks, or nested in them, makes the render panic with `q`. -/
def OwnIn (env : Env) (q : Panic) (only : Str) (n : Nat) (src : Str) (bs : List (Nat × Nat)) (sh : Shared) (inh : Inherit) : Prop :=
  ∃ m raw sh1 inh1, Evaluates env n src only bs sh inh m raw sh1 inh1 ∧ Own env (runBlocks env m) q raw sh1 inh1 only

theorem ownIn_cons {env : Env} {q : Panic} {only src : Str} {n b e : Nat} {bs : List (Nat × Nat)} {sh : Shared} {inh : Inherit} :
    OwnIn env q only n src ((b, e) :: bs) sh inh ↔ sh.exit = false ∧
      (((startsWith c!"{:*" (slice src b e) || (inh.lastCoalesceOut && inh.alias = c!"coalesce")) = true ∧
          OwnIn env q only n src bs sh inh) ∨
       ((startsWith c!"{:*" (slice src b e) || (inh.lastCoalesceOut && inh.alias = c!"coalesce")) = false ∧
          (Own env (runBlocks env n) q (slice src b e) sh inh only ∨ Inner env q only n (slice src b e) sh inh ∨
            ∃ x sh' inh', runBif env (runBlocks env n) sh inh (slice src b e) only = .ok x sh' inh' ∧
              OwnIn env q only n src bs sh' inh'))) := by
  constructor
  · rintro ⟨m, raw, sh1, inh1, h, ho⟩
    cases h with
    | here h1 h2 => exact ⟨h1, .inr ⟨h2, .inl ho⟩⟩
    | skip h1 h2 h3 => exact ⟨h1, .inl ⟨h2, m, raw, sh1, inh1, h3, ho⟩⟩
    | later h1 h2 h3 h4 => exact ⟨h1, .inr ⟨h2, .inr (.inr ⟨_, _, _, h3, m, raw, sh1, inh1, h4, ho⟩)⟩⟩
    | nested h1 h2 h3 h4 h5 h6 =>
      exact ⟨h1, .inr ⟨h2, .inr (.inl ⟨_, rfl, _, _, h3, _, _, _, h4, _, _, h5, m, raw, sh1, inh1, h6, ho⟩)⟩⟩
  · rintro ⟨h1, (⟨h2, m, raw, sh1, inh1, h3, ho⟩ | ⟨h2, ho | ⟨n', rfl, name, s, h3, o, k, s1, h4, csrc, cbs, h5, m, raw, sh1, inh1, h6, ho⟩ |
      ⟨x, sh', inh', h3, m, raw, sh1, inh1, h4, ho⟩⟩)⟩
    · exact ⟨m, raw, sh1, inh1, .skip h1 h2 h3, ho⟩
    · exact ⟨n, _, sh, inh, .here h1 h2, ho⟩
    · exact ⟨m, raw, sh1, inh1, .nested h1 h2 h3 h4 h5 h6, ho⟩
    · exact ⟨m, raw, sh1, inh1, .later h1 h2 h3 h4, ho⟩

theorem blocks_of_bif {env : Env} {q : Panic} {only : Str} {n : Nat}
    (hb : ∀ sh inh raw, runBif env (runBlocks env n) sh inh raw only = .panic q ↔
      Own env (runBlocks env n) q raw sh inh only ∨ Inner env q only n raw sh inh) :
    ∀ (bs : List (Nat × Nat)) (src out : Str) (prevEnd : Nat) (sh : Shared) (inh : Inherit),
    blocksGo env (runBlocks env n) src only prevEnd out bs sh inh = .panic q ↔ OwnIn env q only n src bs sh inh := by
  intro bs
  induction bs with
  | nil =>
    intro src out prevEnd sh inh
    refine ⟨fun h => by simp [blocksGo] at h, fun ⟨m, raw, sh1, inh1, h, _⟩ => by cases h⟩
  | cons be bs ih =>
    intro src out prevEnd sh inh
    obtain ⟨b, e⟩ := be
    rw [ownIn_cons]
    unfold blocksGo
    cases hx : sh.exit with
    | true => simp
    | false =>
      rw [if_neg (by simp)]
      dsimp only
      cases hk : (startsWith c!"{:*" (slice src b e) || (inh.lastCoalesceOut && inh.alias = c!"coalesce")) with
      | true =>
        rw [if_pos rfl, ih]
        simp
      | false =>
        rw [if_neg (by simp)]
        have hb' := hb sh inh (slice src b e)
        cases hr : runBif env (runBlocks env n) sh inh (slice src b e) only with
        | ok x sh' inh' =>
          dsimp only
          rw [hr] at hb'
          rw [ih]
          constructor
          · intro h; exact ⟨rfl, .inr ⟨rfl, .inr (.inr ⟨x, sh', inh', rfl, h⟩)⟩⟩
          · rintro ⟨_, (⟨h, _⟩ | ⟨_, h | h | ⟨x', sh2, inh2, h1, h2⟩⟩)⟩
            · simp at h
            · exact absurd (hb'.2 (.inl h)) (by simp)
            · exact absurd (hb'.2 (.inr h)) (by simp)
            · simp only [PRes.ok.injEq] at h1
              obtain ⟨_, rfl, rfl⟩ := h1
              exact h2
        | panic p =>
          dsimp only
          rw [hr] at hb'
          rw [hb']
          constructor
          · rintro (h | h)
            · exact ⟨rfl, .inr ⟨rfl, .inl h⟩⟩
            · exact ⟨rfl, .inr ⟨rfl, .inr (.inl h)⟩⟩
          · rintro ⟨_, (⟨h, _⟩ | ⟨_, h | h | ⟨x', sh2, inh2, h1, h2⟩⟩)⟩
            · simp at h
            · exact .inl h
            · exact .inr h
            · simp at h1
        | oof =>
          dsimp only
          rw [hr] at hb'
          refine ⟨fun h => by simp at h, ?_⟩
          rintro ⟨_, (⟨h, _⟩ | ⟨_, h | h | ⟨x', sh2, inh2, h1, h2⟩⟩)⟩
          · simp at h
          · exact absurd (hb'.2 (.inl h)) (by simp)
          · exact absurd (hb'.2 (.inr h)) (by simp)
          · simp at h1

theorem bif_panics {env : Env} {q : Panic} (hq : q = .budget ∨ q = .bounds) (only : Str) (n : Nat) :
    ∀ sh inh raw, runBif env (runBlocks env n) sh inh raw only = .panic q ↔
      Own env (runBlocks env n) q raw sh inh only ∨ Inner env q only n raw sh inh := by
  have hi : q ≠ .index := by rcases hq with rfl | rfl <;> decide
  induction n with
  | zero =>
    intro sh inh raw
    rw [runBif_own hq]
    constructor
    · rintro (h | ⟨name, s, hst, o, k, s1, hm, hs⟩)
      · exact .inl h
      · obtain ⟨csrc, cbs, _, h⟩ := (step_panics hi).1 hs
        simp [runBlocks] at h
    · rintro (h | ⟨n', h, _⟩)
      · exact .inl h
      · simp at h
  | succ n ih =>
    intro sh inh raw
    have hbl := blocks_of_bif ih
    rw [runBif_own hq]
    constructor
    · rintro (h | ⟨name, s, hst, o, k, s1, hm, hs⟩)
      · exact .inl h
      · obtain ⟨csrc, cbs, hc, h⟩ := (step_panics hi).1 hs
        have ho : s1.only = only := (moment_only hm).trans (by cases hst; rfl)
        rw [ho] at h
        exact .inr ⟨n, rfl, name, s, hst, o, k, s1, hm, csrc, cbs, hc, (hbl _ _ _ _ _ _).1 h⟩
    · rintro (h | ⟨n', he, name, s, hst, o, k, s1, hm, csrc, cbs, hc, h⟩)
      · exact .inl h
      · simp only [Nat.add_right_cancel_iff] at he
        subst he
        have ho : s1.only = only := (moment_only hm).trans (by cases hst; rfl)
        refine .inr ⟨name, s, hst, o, k, s1, hm, (step_panics hi).2 ⟨csrc, cbs, hc, ?_⟩⟩
        rw [ho]
        exact (hbl _ _ _ _ _ _).2 h

theorem blocks_panics {env : Env} {q : Panic} (hq : q = .budget ∨ q = .bounds) (only : Str) (n : Nat) (src : Str)
    (bs : List (Nat × Nat)) (sh : Shared) (inh : Inherit) :
    runBlocks env (n + 1) sh inh src bs only = .panic q ↔ OwnIn env q only n src bs sh inh :=
  blocks_of_bif (bif_panics hq only n) bs src [] 0 sh inh

/-! ### whole renders -/

theorem pass_panics {env : Env} {q : Panic} (hq : q = .budget ∨ q = .bounds) (sh : Shared) (inh : Inherit) (text only : Str) :
    pass env sh inh text only = .panic q ↔
      Somewhere (fun R => Own env R q) env sh.max sh { inh with blockCount := inh.blockCount + 1 } text only := by
  unfold pass parseSrc
  cases hx : extractBlocks text with
  | error p =>
    refine ⟨fun h => by simp at h, ?_⟩
    rintro ⟨bs, h, _⟩
    rw [hx] at h
    simp at h
  | ok bs =>
    have hb := blocks_panics hq only sh.max text bs sh { inh with blockCount := inh.blockCount + 1 } (env := env)
    have e : OwnIn env q only sh.max text bs sh { inh with blockCount := inh.blockCount + 1 } ↔
        Somewhere (fun R => Own env R q) env sh.max sh { inh with blockCount := inh.blockCount + 1 } text only := by
      constructor
      · intro h; exact ⟨bs, hx, h⟩
      · rintro ⟨bs', h, h2⟩
        rw [hx] at h
        simp only [Except.ok.injEq] at h
        subst h
        exact h2
    rw [← e, ← hb]
    dsimp only
    cases runBlocks env (sh.max + 1) sh { inh with blockCount := inh.blockCount + 1 } text bs only with
    | ok x sh' inh' => simp
    | panic p => simp
    | oof => simp

theorem passOf_unique {env : Env} {inh : Inherit} {sh0 : Shared} {raw : Str} {k : Nat} {sh sh' : Shared} {text only text' only' : Str}
    (h : PassOf env inh sh0 raw k sh text only) (h' : PassOf env inh sh0 raw k sh' text' only') :
    sh = sh' ∧ text = text' ∧ only = only' := by
  induction h generalizing sh' text' only' with
  | first => cases h'; exact ⟨rfl, rfl, rfl⟩
  | next h1 h2 h3 ih =>
    cases h' with
    | next g1 g2 g3 =>
      obtain ⟨rfl, rfl, rfl⟩ := ih g1
      rw [h2] at g2
      simp only [PRes.ok.injEq] at g2
      exact ⟨g2.2.1, g2.1, rfl⟩

theorem passOf_before {env : Env} {inh : Inherit} {sh0 : Shared} {raw : Str} {j k : Nat} {sh sh' : Shared} {text only text' only' : Str}
    (h' : PassOf env inh sh0 raw k sh' text' only') (h : PassOf env inh sh0 raw j sh text only) (hjk : j < k) :
    ∃ out sh2 inh2, pass env sh inh text only = .ok out sh2 inh2 ∧ c!"{:!cache;" <:+: out ∧
      PassOf env inh sh0 raw (j + 1) sh2 out c!"!cache" := by
  induction h' with
  | first => omega
  | @next k sh2 sh' inh' text2 only2 out g1 g2 g3 ih =>
    by_cases hk : j < k
    · exact ih hk
    · have : j = k := by omega
      subst this
      obtain ⟨rfl, rfl, rfl⟩ := passOf_unique h g1
      exact ⟨_, _, _, g2, g3, .next g1 g2 g3⟩

theorem loop_panics {env : Env} {inh : Inherit} {sh0 : Shared} {raw : Str} {q : Panic} (n : Nat) :
    ∀ (j : Nat) (sh sh2 : Shared) (inh2 : Inherit) (text only out : Str), PassOf env inh sh0 raw j sh text only →
    pass env sh inh text only = .ok out sh2 inh2 →
    (cacheLoop env inh n sh2 out = .panic q ↔ ∃ k sh1 text1 only1, j < k ∧ k ≤ j + n ∧ PassOf env inh sh0 raw k sh1 text1 only1 ∧
      pass env sh1 inh text1 only1 = .panic q) := by
  induction n with
  | zero =>
    intro j sh sh2 inh2 text only out hp h
    unfold cacheLoop
    constructor
    · intro h; split at h <;> simp at h
    · rintro ⟨k, _, _, _, h1, h2, _⟩
      omega
  | succ n ih =>
    intro j sh sh2 inh2 text only out hp h
    unfold cacheLoop
    have hcont := contains_iff (p := c!"{:!cache;") (s := out) (by decide)
    by_cases hc : contains c!"{:!cache;" out = true
    · rw [if_pos hc]
      have hn := PassOf.next hp h (hcont.1 hc)
      cases hr : pass env sh2 inh out c!"!cache" with
      | ok out' sh' inh' =>
        dsimp only
        rw [ih (j + 1) _ _ _ _ _ _ hn hr]
        constructor
        · rintro ⟨k, s1, t1, o1, h1, h2, h3, h4⟩
          exact ⟨k, s1, t1, o1, by omega, by omega, h3, h4⟩
        · rintro ⟨k, s1, t1, o1, h1, h2, h3, h4⟩
          refine ⟨k, s1, t1, o1, ?_, by omega, h3, h4⟩
          rcases Nat.lt_or_ge (j + 1) k with hk | hk
          · exact hk
          · have : k = j + 1 := by omega
            subst this
            obtain ⟨rfl, rfl, rfl⟩ := passOf_unique hn h3
            rw [hr] at h4
            simp at h4
      | panic p =>
        dsimp only
        constructor
        · intro he
          simp only [PRes.panic.injEq] at he
          subst he
          exact ⟨j + 1, _, _, _, by omega, by omega, hn, hr⟩
        · rintro ⟨k, s1, t1, o1, h1, h2, h3, h4⟩
          rcases Nat.lt_or_ge (j + 1) k with hk | hk
          · obtain ⟨_, _, _, h5, _⟩ := passOf_before h3 hn hk
            rw [hr] at h5
            simp at h5
          · have : k = j + 1 := by omega
            subst this
            obtain ⟨rfl, rfl, rfl⟩ := passOf_unique hn h3
            rw [hr] at h4
            exact h4
      | oof =>
        dsimp only
        refine ⟨fun he => by simp at he, ?_⟩
        rintro ⟨k, s1, t1, o1, h1, h2, h3, h4⟩
        rcases Nat.lt_or_ge (j + 1) k with hk | hk
        · obtain ⟨_, _, _, h5, _⟩ := passOf_before h3 hn hk
          rw [hr] at h5
          simp at h5
        · have : k = j + 1 := by omega
          subst this
          obtain ⟨rfl, rfl, rfl⟩ := passOf_unique hn h3
          rw [hr] at h4
          simp at h4
    · rw [if_neg hc]
      refine ⟨fun he => by simp at he, ?_⟩
      rintro ⟨k, s1, t1, o1, h1, h2, h3, h4⟩
      obtain ⟨out', _, _, h5, h6, _⟩ := passOf_before h3 hp h1
      rw [h] at h5
      simp only [PRes.ok.injEq] at h5
      rw [← h5.1] at h6
      exact absurd (hcont.2 h6) hc

theorem initShared_panics {env : Env} {filePath raw : Str} {sh : Shared} : initShared env filePath raw sh = .error .bounds ↔
    c!"remove" <:+: sh.comments ∧ Broken raw := by
  have hcont := contains_iff (p := c!"remove") (s := sh.comments) (by decide)
  unfold initShared
  by_cases hc : contains c!"remove" sh.comments = true
  · rw [if_pos hc]
    cases hr : removeComments raw with
    | none => exact ⟨fun _ => ⟨hcont.1 hc, (C16_panics_exact raw).1 hr⟩, fun _ => rfl⟩
    | some t =>
      have hb : ¬ Broken raw := fun h => by
        have := (C16_panics_exact raw).2 h
        rw [hr] at this
        simp at this
      refine ⟨fun h => ?_, fun h => absurd h.2 hb⟩
      dsimp only at h
      split at h
      · simp at h
      · split at h <;> simp at h
  · rw [if_neg hc]
    refine ⟨fun h => ?_, fun h => absurd (hcont.2 h.1) hc⟩
    dsimp only at h
    split at h
    · simp at h
    · split at h <;> simp at h

theorem initShared_budget {env : Env} {filePath raw : Str} {sh : Shared} : initShared env filePath raw sh ≠ .error .budget := by
  intro h
  unfold initShared at h
  split at h
  · simp at h
  · dsimp only at h
    split at h
    · simp at h
    · split at h <;> simp at h

theorem renderWith_panics {env : Env} {n : Nat} {t : Tpl} {sc : Value} {sh : Shared} {q : Panic} (hq : q = .budget ∨ q = .bounds) :
    renderWith env n t sc (some sh) = .panic q ↔ initShared env t.filePath t.raw sh = .error q ∨
      InSomePass (fun R => Own env R q) env n t sh := by
  have hu : q ≠ .unwrap := by rcases hq with rfl | rfl <;> decide
  unfold renderWith
  dsimp only
  cases hi : initShared env t.filePath t.raw sh with
  | error p =>
    dsimp only
    constructor
    · intro h
      simp only [RRes.panic.injEq] at h
      subst h
      exact .inl rfl
    · rintro (h | ⟨raw, sh0, inh, h, _⟩)
      · simp only [Except.error.injEq] at h
        rw [h]
      · rw [hi] at h; simp at h
  | ok r =>
    obtain ⟨raw, sh0, inh⟩ := r
    dsimp only
    have hf : PassOf env inh sh0 raw 0 sh0 raw [] := .first
    have e : InSomePass (fun R => Own env R q) env n t sh ↔ ∃ k sh1 text only, k ≤ n ∧ PassOf env inh sh0 raw k sh1 text only ∧
        pass env sh1 inh text only = .panic q := by
      constructor
      · rintro ⟨raw', sh', inh', h, k, sh1, text, only, h1, h2, h3⟩
        rw [hi] at h
        simp only [Except.ok.injEq, Prod.mk.injEq] at h
        obtain ⟨rfl, rfl, rfl⟩ := h
        exact ⟨k, sh1, text, only, h1, h2, (pass_panics hq _ _ _ _).2 h3⟩
      · rintro ⟨k, sh1, text, only, h1, h2, h3⟩
        exact ⟨raw, sh0, inh, hi, k, sh1, text, only, h1, h2, (pass_panics hq _ _ _ _).1 h3⟩
    rw [e]
    have key : (∃ k sh1 text only, k ≤ n ∧ PassOf env inh sh0 raw k sh1 text only ∧ pass env sh1 inh text only = .panic q) ↔
        pass env sh0 inh raw [] = .panic q ∨ ∃ k sh1 text only, 0 < k ∧ k ≤ 0 + n ∧ PassOf env inh sh0 raw k sh1 text only ∧
          pass env sh1 inh text only = .panic q := by
      constructor
      · rintro ⟨k, sh1, text, only, h1, h2, h3⟩
        cases k with
        | zero =>
          obtain ⟨rfl, rfl, rfl⟩ := passOf_unique hf h2
          exact .inl h3
        | succ k => exact .inr ⟨k + 1, sh1, text, only, by omega, by omega, h2, h3⟩
      · rintro (h | ⟨k, sh1, text, only, h1, h2, h3, h4⟩)
        · exact ⟨0, _, _, _, by omega, hf, h⟩
        · exact ⟨k, sh1, text, only, by omega, h3, h4⟩
    rw [key]
    have none_after : ∀ {r : PRes}, pass env sh0 inh raw [] = r → (∀ out sh' inh', r ≠ .ok out sh' inh') →
        ¬ ∃ k sh1 text only, 0 < k ∧ k ≤ 0 + n ∧ PassOf env inh sh0 raw k sh1 text only ∧ pass env sh1 inh text only = .panic q := by
      rintro r h hr ⟨k, sh1, text, only, h1, _, h3, _⟩
      obtain ⟨_, _, _, h5, _⟩ := passOf_before h3 hf h1
      exact hr _ _ _ (h.symm.trans h5)
    cases hp : pass env sh0 inh raw [] with
    | panic p =>
      have := none_after hp (by simp)
      dsimp only
      simp only [this, or_false, RRes.panic.injEq, PRes.panic.injEq, reduceCtorEq, false_or]
    | oof =>
      have := none_after hp (by simp)
      dsimp only
      simp only [this, or_false, reduceCtorEq, false_or]
    | ok out sh2 inh2 =>
      dsimp only
      rw [← loop_panics n 0 sh0 sh2 inh2 raw [] out hf hp]
      simp only [reduceCtorEq, false_or]
      cases cacheLoop env inh n sh2 out with
      | panic p => simp
      | oof => simp
      | ok out2 sh3 inh3 =>
        dsimp only
        cases endsRender sh3 out2 with
        | none => simpa using fun h => hu h.symm
        | some o => simp

/-- **C43 (where).** `render` panics with a text slice outside of its bounds exactly when comments are to be removed from a template
that ends with a colon and has a comment that is never closed, or when, in one of its passes, a BIF is evaluated whose name begins
(modifiers apart) with a character outside of ASCII, or which looks at a broken text: a name to be computed, or an included file. -/
theorem C43_where (env : Env) (n : Nat) (w : World) (t : Tpl) : t.render env n w = .panic .bounds ↔
    c!"{:" <:+: t.raw ∧ ∃ sh, Shared.new env w t.schema = some sh ∧
      ((c!"remove" <:+: sh.comments ∧ Broken t.raw) ∨ InSomePass (Cuts env) env n t sh) := by
  have hcont := contains_iff (p := c!"{:") (s := t.raw) (by decide)
  have e : ∀ sh, InSomePass (fun R => Own env R .bounds) env n t sh ↔ InSomePass (Cuts env) env n t sh := by
    intro sh
    have : (fun R => Own env R .bounds) = Cuts env := by
      funext R raw sh inh only
      simp [Own]
    rw [this]
  unfold Tpl.render
  by_cases hc : contains bifOpen t.raw = true
  · rw [if_neg (by rw [hc]; simp)]
    cases hs : Shared.new env w t.schema with
    | none => simp [renderWith]
    | some sh =>
      rw [renderWith_panics (.inr rfl), initShared_panics, e]
      exact ⟨fun h => ⟨hcont.1 hc, sh, rfl, h⟩, fun ⟨_, sh', h, h2⟩ => by
        simp only [Option.some.injEq] at h
        subst h
        exact h2⟩
  · rw [if_pos (by simpa using hc)]
    exact ⟨fun h => by simp at h, fun h => absurd (hcont.2 h.1) hc⟩

/-- **C19 (where).** `render` panics with an exhausted budget exactly when, in one of its passes, a BIF is evaluated although as many
BIFs as the schema allows have been evaluated before. -/
theorem C19_where (env : Env) (n : Nat) (w : World) (t : Tpl) : t.render env n w = .panic .budget ↔
    c!"{:" <:+: t.raw ∧ ∃ sh, Shared.new env w t.schema = some sh ∧
      InSomePass (fun _ _ sh _ _ => sh.max ≤ sh.count) env n t sh := by
  have hcont := contains_iff (p := c!"{:") (s := t.raw) (by decide)
  have e : ∀ sh, InSomePass (fun R => Own env R .budget) env n t sh ↔ InSomePass (fun _ _ sh _ _ => sh.max ≤ sh.count) env n t sh := by
    intro sh
    have : (fun R => Own env R .budget) = fun _ _ sh _ _ => sh.max ≤ sh.count := by
      funext R raw sh inh only
      simp [Own]
    rw [this]
  unfold Tpl.render
  by_cases hc : contains bifOpen t.raw = true
  · rw [if_neg (by rw [hc]; simp)]
    cases hs : Shared.new env w t.schema with
    | none => simp [renderWith]
    | some sh =>
      rw [renderWith_panics (.inl rfl), e]
      exact ⟨fun h => ⟨hcont.1 hc, sh, rfl, h.resolve_left initShared_budget⟩, fun ⟨_, sh', h, h2⟩ => by
        simp only [Option.some.injEq] at h
        subst h
        exact .inr h2⟩
  · rw [if_pos (by simpa using hc)]
    exact ⟨fun h => by simp at h, fun h => absurd (hcont.2 h.1) hc⟩

/-- ... and likewise for `render_once`. -/
theorem C43_where_once (env : Env) (n : Nat) (w : World) (t : Tpl) : t.renderOnce env n w = .panic .bounds ↔
    c!"{:" <:+: t.raw ∧ ∃ sh, Shared.new env w t.schema = some sh ∧
      ((c!"remove" <:+: sh.comments ∧ Broken t.raw) ∨ InSomePass (Cuts env) env n t sh) := by
  rw [← C43_where]
  unfold Tpl.renderOnce Tpl.render
  split
  · simp
  · change renderWith env n t .null _ = _ ↔ _
    cases Shared.new env w t.schema with
    | none => simp [renderWith]
    | some sh => rw [renderWith_panics (.inr rfl), renderWith_panics (.inr rfl)]

/-- **C43 (otherwise).** With a schema of the documented shape and an obliging environment, a render whose budget is enough and in which
nothing is broken does not panic. -/
theorem C43_otherwise (env : Env) (n : Nat) (w : World) (t : Tpl) (he : Obliging env) (hs : SaneSchema t.schema)
    (hbudget : ∀ sh, Shared.new env w t.schema = some sh → ¬ InSomePass (fun _ _ sh _ _ => sh.max ≤ sh.count) env n t sh)
    (hcuts : ∀ sh, Shared.new env w t.schema = some sh → ¬ InSomePass (Cuts env) env n t sh)
    (hraw : ¬ Broken t.raw) (p : Panic) : t.render env n w ≠ .panic p := by
  intro h
  rcases C43_partial env n w t p he hs h with rfl | rfl
  · obtain ⟨_, sh, h1, h2⟩ := (C19_where env n w t).1 h
    exact hbudget sh h1 h2
  · obtain ⟨_, sh, h1, ⟨_, h2⟩ | h2⟩ := (C43_where env n w t).1 h
    · exact hraw h2
    · exact hcuts sh h1 h2


/-! ### examples -/

/-- Render `src`, without removal of comments, with a file `f` that is broken. -/
def Sample.kept (comments src : Str) : RRes :=
  (Sample.tpl (((Sample.schema 1000 [] Sample.inherit).modIndex c!"config" (fun c => c.setIndex c!"comments" (.str comments))).getD .null)
    src).render Sample.env 10 ⟨fun p => if p = c!"f" then some (Sample.file c!"x {:* y :") else none, 0⟩

set_option maxRecDepth 10000 in
/-- All the causes occur: an odd name, at any depth; a broken name of a variable or of a file; a broken file; and a broken file is
harmless when comments are kept. -/
example : Sample.panicOf (Sample.kept c!"keep" c!"a {:code; {:!é;x:} :}") = some .bounds ∧
    Sample.panicOf (Sample.kept c!"keep" c!"{:;{:*a :}::}") = some .bounds ∧
    Sample.panicOf (Sample.kept c!"keep" c!"{:include;{:*a :}::}") = some .bounds ∧
    Sample.panicOf (Sample.kept c!"keep" c!"{:data;{:*a :}::}") = some .bounds ∧
    Sample.panicOf (Sample.kept c!"keep" c!"{:locale;{:*a :}::}") = some .bounds ∧
    Sample.panicOf (Sample.kept c!"remove" c!"{:include;f:}") = some .bounds ∧
    Sample.panicOf (Sample.kept c!"remove" c!"{:;x:} {:* y :") = some .bounds ∧
    Sample.panicOf (Sample.kept c!"keep" c!"{:include;f:}") = none := by
  decide +kernel

/-- Odd names, and names that are not. -/
example : OddName c!"ñ" ∧ OddName c!"!^ñandu" ∧ ¬ OddName c!"año" := by
  refine ⟨⟨[], 'ñ', [], rfl, by simp, by decide⟩, ⟨c!"!^", 'ñ', c!"andu", rfl, by decide, by decide⟩, ?_⟩
  rw [← setModifiers_odd (b := BifS.new)]
  simp [setModifiers]

set_option maxRecDepth 10000 in
/-- The hypotheses of `C43_otherwise` can be met: in a render that ends normally, the budget is enough and nothing is broken. -/
example (sh : Shared) (h : Shared.new Sample.env Sample.world (Sample.schema 1000 [(c!"x", .str c!"X")] Sample.inherit) = some sh) :
    ¬ InSomePass (fun _ _ sh _ _ => sh.max ≤ sh.count) Sample.env 10
      (Sample.tpl (Sample.schema 1000 [(c!"x", .str c!"X")] Sample.inherit) c!"{:code; {:;x:} :}") sh ∧
    ¬ InSomePass (Cuts Sample.env) Sample.env 10
      (Sample.tpl (Sample.schema 1000 [(c!"x", .str c!"X")] Sample.inherit) c!"{:code; {:;x:} :}") sh := by
  have hp : Sample.panicOf (Sample.go [(c!"x", .str c!"X")] c!"{:code; {:;x:} :}") = none := by decide +kernel
  constructor
  · intro hs
    have := (C19_where Sample.env 10 Sample.world _).2 ⟨by decide, sh, h, hs⟩
    rw [show Sample.go [(c!"x", .str c!"X")] c!"{:code; {:;x:} :}" = _ from this] at hp
    simp [Sample.panicOf] at hp
  · intro hs
    have := (C43_where Sample.env 10 Sample.world _).2 ⟨by decide, sh, h, .inr hs⟩
    rw [show Sample.go [(c!"x", .str c!"X")] c!"{:code; {:;x:} :}" = _ from this] at hp
    simp [Sample.panicOf] at hp

end Nts
