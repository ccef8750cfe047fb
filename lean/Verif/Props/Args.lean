import Verif.Props.Written
import Verif.Props.Cond
import Verif.Props.Join
import Verif.Props.Simple
/-
C107: the arguments of a BIF are the texts between the delimiters, whichever character is the delimiter.
-/
set_option autoImplicit false
namespace Nts
open Spec

/-! ### the specification -/

/-- The arguments `l` written with the delimiter `d`: `/a/b`.  (`/a/b/` is the list with an empty last argument.) -/
def Spec.written (d : Char) (l : List Str) : Str := l.flatMap (fun a => d :: a)

/-- The BIFs with arguments before `>>` ... -/
def Spec.argNames : List Str := [c!"same", c!"contains", c!"replace", c!"cache", c!"fetch"]
/-- ... and those with nothing but arguments. -/
def Spec.argOnly : List Str := [c!"sum", c!"join"]

/-! ### what the bodies read of the parameters -/

/-- `Bif::extract_args`: the texts it evaluates. -/
def argsOf : Str → List Str
  | [] => [[]]
  | d :: r => splitChar d (d :: r)

theorem splitGo_written (d : Char) (l : List Str) (h : ∀ a ∈ l, d ∉ a) (acc : Str) :
    splitCharGo d acc (written d l) = acc.reverse :: l := by
  induction l generalizing acc with
  | nil => simp [written, splitCharGo]
  | cons a r ih =>
    have e : written d (a :: r) = d :: (a ++ written d r) := by simp [written]
    rw [e, splitCharGo, if_pos rfl, splitCharGo_append d [] a _ (h a (by simp)), ih (fun b hb => h b (List.mem_cons_of_mem _ hb))]
    simp

theorem argsOf_written (d : Char) (l : List Str) (h : ∀ a ∈ l, d ∉ a) : argsOf (written d l) = [] :: l := by
  cases l with
  | nil => rfl
  | cons a r =>
    have := splitGo_written d (a :: r) h []
    have e : written d (a :: r) = d :: (a ++ written d r) := by simp [written]
    rw [e] at this ⊢
    exact this

/-- Two texts with the same arguments. -/
def SameArgs (p q : Str) : Prop := argsOf p = argsOf q ∧ contains c!"{:flg;" p = contains c!"{:flg;" q

def St.respell (r x p : Str) (s : St) : St := { s with raw := r, b := { s.b with src := x, params := p } }

/-- Two states that differ only in the text, the source and the spelling of the arguments of the BIF. -/
def Spelt (q r : Str) (s t : St) : Prop := s.raw = q ∧ ∃ x p, SameArgs s.b.params p ∧ t = s.respell r x p

def ResSpelt (q r : Str) {α : Type} : Res α → Res α → Prop
  | .ok a s, .ok b t => a = b ∧ Spelt q r s t
  | .err e s, .err e' t => e.src = q ∧ e' = { e with src := r } ∧ Spelt q r s t
  | .panic p, .panic p' => p = p'
  | .oof, .oof => True
  | _, _ => False

/-- The program reads no more of the parameters than the arguments. -/
def RA {α : Type} (p : Prog α) : Prop := ∀ R q r s t, Spelt q r s t → ResSpelt q r (run R p s) (run R p t)

theorem ResSpelt.bind {α β : Type} {q r : Str} {x y : Res α} {f g : α → St → Res β} (h : ResSpelt q r x y)
    (hf : ∀ a s t, Spelt q r s t → ResSpelt q r (f a s) (g a t)) : ResSpelt q r (x.andThen f) (y.andThen g) := by
  cases x <;> cases y <;> first | exact h.elim | skip
  · obtain ⟨rfl, h⟩ := h
    exact hf _ _ _ h
  · exact h
  · exact h
  · trivial

theorem ra_bind {α β : Type} {p : Prog α} {f : α → Prog β} (hp : RA p) (hf : ∀ a, RA (f a)) : RA (p >>= f) := by
  intro R q r s t h
  rw [run_bind, run_bind]
  exact (hp R q r s t h).bind (fun a s t hst => hf a R q r s t hst)
theorem ra_bind' {α β : Type} {p : Prog α} {f : α → Prog β} (hp : RA p) (hf : ∀ a, RA (f a)) : RA (p.bind f) := ra_bind hp hf
theorem ra_get {β : Type} {f : St → Prog β} (he : ∀ s r x p, SameArgs s.b.params p → f (s.respell r x p) = f s) (hf : ∀ s, RA (f s)) :
    RA (getSt >>= f) := by
  intro R q r s t h
  simp only [run_bind, run_getSt, andThen_ok]
  have : f t = f s := by obtain ⟨_, x, p, hp, rfl⟩ := h; exact he s r x p hp
  rw [this]
  exact hf s R q r s t h
theorem ra_pure {α : Type} (a : α) : RA (Prog.pure a) := fun _ _ _ _ _ h => ⟨rfl, h⟩
theorem ra_pure' {α : Type} (a : α) : RA (pure a : Prog α) := fun _ _ _ _ _ h => ⟨rfl, h⟩
theorem ra_panic {α : Type} (p : Panic) : RA (.panic p : Prog α) := fun _ _ _ _ _ _ => rfl
theorem ra_error {α : Type} (msg : Str) : RA (bifError msg : Prog α) := by
  intro R q r s t h
  have h' := h
  obtain ⟨hq, x, p, hp, rfl⟩ := h
  exact ⟨hq, rfl, h'⟩
theorem ra_modB (f : BifS → BifS) (h : ∀ b x p, f { b with src := x, params := p } = { f b with src := x, params := p })
    (h' : ∀ b, (f b).params = b.params) : RA (modB f) := by
  intro R q r s t hs
  obtain ⟨hq, x, p, hp, rfl⟩ := hs
  refine ⟨rfl, hq, x, p, ?_, ?_⟩
  · change SameArgs (f s.b).params p
    rw [h']; exact hp
  · change ({ s with raw := r, b := f { s.b with src := x, params := p } } : St) = _
    rw [h]
    rfl

theorem ra_child (scope : Bool) (f : Shared → Inherit → PRes) (s : St) (q r x p : Str) (hq : s.raw = q) (hp : SameArgs s.b.params p) :
    ResSpelt q r (runChild s scope f).toRes (runChild (s.respell r x p) scope f).toRes := by
  unfold runChild
  dsimp only
  have e : childInherit (s.respell r x p) = childInherit s := rfl
  have e1 : (s.respell r x p).sh = s.sh := rfl
  have e2 : (s.respell r x p).inh = s.inh := rfl
  rw [e, e1, e2]
  cases f (if scope = true then createBlockSchema s.sh s.inh else (s.sh, s.inh)).1 (childInherit s) with
  | ok out sh2 ci2 => exact ⟨rfl, hq, x, p, hp, rfl⟩
  | panic p => rfl
  | oof => trivial

theorem ra_opt (s : St) (q r x p : Str) (hq : s.raw = q) (hp : SameArgs s.b.params p) {β : Type} (o : Option β) (g : St → β → St)
    (hg : ∀ b, g (s.respell r x p) b = (g s b).respell r x p) (hr : ∀ b, (g s b).raw = s.raw) (hb : ∀ b, (g s b).b = s.b) :
    ResSpelt q r (oresOpt (o.map (g s))).toRes (oresOpt (o.map (g (s.respell r x p)))).toRes := by
  cases o with
  | none => rfl
  | some b =>
    refine ⟨rfl, (hr b).trans hq, x, p, ?_, ?_⟩
    · rw [hb]; exact hp
    · exact hg b

theorem ra_op (o : Op) (h : OutsideB o) : RA (perform o) := by
  intro R q r s t hs
  obtain ⟨hq, x, p, hp, rfl⟩ := hs
  rw [run_perform, run_perform]
  cases o with
  | get => exact h.elim
  | modB f => exact h.elim
  | child src scope => exact ra_child scope (fun sh inh => parseSrc R sh inh src s.only) s q r x p hq hp
  | childBlocks src bs scope => exact ra_child scope (fun sh inh => R sh inh src bs s.only) s q r x p hq hp
  | setData name v => exact ra_opt s q r x p hq hp _ (fun s sc => { s with sh := { s.sh with schema := sc } }) (fun _ => rfl) (fun _ => rfl) (fun _ => rfl)
  | setMoveto name v => exact ra_opt s q r x p hq hp _ (fun s sc => { s with sh := { s.sh with schema := sc } }) (fun _ => rfl) (fun _ => rfl) (fun _ => rfl)
  | setIndir sec key v => exact ra_opt s q r x p hq hp _ (fun s sh => { s with sh := sh }) (fun _ => rfl) (fun _ => rfl) (fun _ => rfl)
  | mergeIndir sec v => exact ra_opt s q r x p hq hp _ (fun s sh => { s with sh := sh }) (fun _ => rfl) (fun _ => rfl) (fun _ => rfl)
  | pushFile kd pth => cases kd <;> exact ⟨rfl, hq, x, p, hp, rfl⟩
  | _ => exact ⟨rfl, hq, x, p, hp, rfl⟩

theorem ra_childParse (y : Str) (b : Bool) : RA (childParse y b) := ra_op (.child y b) trivial
theorem ra_setCode (y : Str) : RA (setCode y) := ra_modB _ (fun _ _ _ => rfl) (fun _ => rfl)
theorem ra_setOut (y : Str) : RA (setOut y) := ra_modB _ (fun _ _ _ => rfl) (fun _ => rfl)
theorem ra_outCode : RA outCode := ra_modB _ (fun _ _ _ => rfl) (fun _ => rfl)
theorem ra_tick : RA tick := ra_op .tick trivial

macro "ra_step" : tactic => `(tactic| first
  | with_reducible refine ra_get (fun _ _ _ _ _ => rfl) (fun _ => ?_)
  | with_reducible refine ra_bind ?_ (fun _ => ?_)
  | with_reducible refine ra_bind' ?_ (fun _ => ?_)
  | with_reducible exact ra_pure _
  | with_reducible exact ra_pure' _
  | with_reducible exact ra_panic _
  | with_reducible exact ra_error _
  | with_reducible exact ra_childParse _ _
  | with_reducible exact ra_setCode _
  | with_reducible exact ra_setOut _
  | with_reducible exact ra_outCode
  | with_reducible exact ra_tick
  | ((with_reducible refine ra_op _ ?_); exact trivial)
  | split
  | dsimp only)

theorem ra_denyFlgParams : RA denyFlgParams := by
  unfold denyFlgParams
  refine ra_get (fun s r x p hp => ?_) (fun s => ?_)
  · change (if contains c!"{:flg;" p = true then _ else _) = _
    rw [← hp.2]
  · repeat' ra_step
theorem ra_denyFlags : RA denyFlags := by unfold denyFlags; repeat' ra_step
theorem ra_parseCode (b : Bool) : RA (parseCode b) := by unfold parseCode; repeat' ra_step
theorem ra_argLoop (l : List Str) : RA (argLoop l) := by
  induction l with
  | nil => exact ra_pure _
  | cons a r ih => unfold argLoop; repeat' (first | exact ih | ra_step)
theorem extractArgs_eq : extractArgs = getSt >>= fun s => (if s.b.params = [] then pure [[]] else argLoop (argsOf s.b.params)) := by
  unfold extractArgs
  congr 1
  funext s
  cases h : s.b.params with
  | nil => rfl
  | cons d r => rfl
theorem run_args (R : Rec) (s : St) : run R extractArgs s = run R (argLoop (argsOf s.b.params)) s := by
  simp only [extractArgs, run_bind, run_getSt, andThen_ok]
  cases h : s.b.params with
  | nil =>
    have : contains bifOpen ([] : Str) = false := by decide
    simp [argsOf, argLoop, this, run_bind]
  | cons d r => rfl
theorem ra_extractArgs : RA extractArgs := by
  intro R q r s t h
  rw [run_args, run_args]
  have h' := h
  obtain ⟨hq, x, p, hp, rfl⟩ := h
  have e : (s.respell r x p).b.params = p := rfl
  rw [e, ← hp.1]
  exact ra_argLoop _ R q r _ _ h'
theorem ra_argReq (l : List Str) (i : Nat) (m : Str) : RA (argReq l i m) := by unfold argReq; repeat' ra_step
theorem ra_cacheParse (b : Bool) (f : Str → Prog Unit) (h : ∀ x, RA (f x)) : RA (cacheParse b f) := by
  unfold cacheParse; repeat' (first | exact h _ | ra_step)
theorem ra_cacheStore (env : Env) (b : Bool) (d f : Str) : RA (cacheStore env b d f) := by
  unfold cacheStore; repeat' (first | with_reducible exact ra_cacheParse _ _ (fun _ => ra_setCode _) | ra_step)
theorem ra_cacheLookup (env : Env) (b : Bool) (d f e : Str) : RA (cacheLookup env b d f e) := by
  unfold cacheLookup
  repeat' (first
    | with_reducible exact ra_cacheStore _ _ _ _
    | with_reducible exact ra_cacheParse _ _ (fun _ => ra_setOut _)
    | ra_step)

macro "ra_mid" : tactic => `(tactic| first
  | with_reducible exact ra_denyFlags
  | with_reducible exact ra_denyFlgParams
  | with_reducible exact ra_parseCode _
  | with_reducible exact ra_extractArgs
  | with_reducible exact ra_argReq _ _ _
  | with_reducible exact ra_cacheLookup _ _ _ _ _
  | ra_step)

theorem spelt_answer (env : Env) {q r : Str} {x y : Res Unit} (h : ResSpelt q r x y) :
    SameAnswer q r (bifResult env x) (bifResult env y) := by
  cases x <;> cases y <;> first | exact h.elim | skip
  · obtain ⟨_, _, z, p, _, rfl⟩ := h
    exact ⟨rfl, rfl, .inl rfl⟩
  · rename_i e s e' t
    obtain ⟨hq, he, _, z, p, _, rfl⟩ := h
    unfold bifResult
    dsimp only
    have e1 : (s.respell r z p).sh = s.sh := rfl
    rw [e1]
    cases showErrors s.sh with
    | none => exact rfl
    | some b =>
      refine ⟨rfl, rfl, .inr ⟨{ s.sh with w := { s.sh.w with tick := s.sh.w.tick + 1 } },
        c!"[" ++ env.localTime s.sh.w.tick ++ c!"] Error (" ++ e.name ++ c!") " ++ e.msg ++ c!" file~: (" ++ e.file
          ++ c!") src: ", ?_, ?_⟩⟩
      · change pushError _ (errorLine _ e) = _
        rw [← hq]; rfl
      · change pushError _ (errorLine _ e') = _
        rw [he]; rfl
  · exact h
  · trivial

/-- A body that checks the modifiers, cuts the source and goes on. -/
theorem spell_case (env : Env) (R : Rec) (sh : Shared) (inh : Inherit) (mods name s1 s2 only p1 p2 c : Str) (f : BifS → Bool)
    (parse : Bool) (k : Bool → Prog Unit) (h1 : Parts s1 (some p1) c) (h2 : Parts s2 (some p2) c) (hp : SameArgs p1 p2)
    (hparse : parse = true → ¬ c!"{:" <:+: p1 ∧ ¬ c!"{:" <:+: p2) (hf : ∀ b x, f { b with src := x } = f b)
    (hk : ∀ R q r s t, Spelt q r s t → s.inh.inCache = inh.inCache → (s.b.modNegate = true → '!' ∈ mods) →
      ResSpelt q r (run R (k true) s) (run R (k true) t)) :
    SameAnswer (bifText mods name s1) (bifText mods name s2)
      (bifResult env (run R (denyMods f >>= fun _ => extractParamsCode parse >>= k) (start sh inh mods name s1 only)))
      (bifResult env (run R (denyMods f >>= fun _ => extractParamsCode parse >>= k) (start sh inh mods name s2 only))) := by
  apply spelt_answer
  have hst : start sh inh mods name s2 only = (start sh inh mods name s1 only).rewrite (bifText mods name s2) (trim s2) := rfl
  simp only [run_bind, run_denyMods]
  have hfe : f (start sh inh mods name s2 only).b = f (start sh inh mods name s1 only).b := by
    rw [hst]; exact hf _ _
  rw [hfe]
  by_cases hd : f (start sh inh mods name s1 only).b = true
  · rw [if_pos hd, if_pos hd]
    refine ⟨rfl, rfl, rfl, trim s2, [], ⟨rfl, rfl⟩, rfl⟩
  · rw [if_neg hd, if_neg hd]
    simp only [andThen_ok]
    rw [run_extract_plain R parse h1 _ rfl (fun h => by simpa using (hparse h).1),
      run_extract_plain R parse h2 _ rfl (fun h => by simpa using (hparse h).2)]
    simp only [andThen_ok, Option.getD_some, Option.isSome_some]
    refine hk R _ _ _ _ ⟨rfl, trim s2, p2, hp, rfl⟩ rfl ?_
    intro h
    simpa [start] using h

/-- A body that checks the modifiers and takes the whole source for the parameters. -/
theorem spell_whole (env : Env) (R : Rec) (sh : Shared) (inh : Inherit) (mods name s1 s2 only : Str) (f : BifS → Bool)
    (k : Unit → Prog Unit) (hp : SameArgs (trim s1) (trim s2)) (hf : ∀ b x, f { b with src := x } = f b) (hk : ∀ u, RA (k u)) :
    SameAnswer (bifText mods name s1) (bifText mods name s2)
      (bifResult env (run R (denyMods f >>= fun _ => modB (fun b => { b with params := b.src }) >>= k) (start sh inh mods name s1 only)))
      (bifResult env (run R (denyMods f >>= fun _ => modB (fun b => { b with params := b.src }) >>= k) (start sh inh mods name s2 only))) := by
  apply spelt_answer
  have hst : start sh inh mods name s2 only = (start sh inh mods name s1 only).rewrite (bifText mods name s2) (trim s2) := rfl
  simp only [run_bind, run_denyMods]
  have hfe : f (start sh inh mods name s2 only).b = f (start sh inh mods name s1 only).b := by
    rw [hst]; exact hf _ _
  rw [hfe]
  by_cases hd : f (start sh inh mods name s1 only).b = true
  · rw [if_pos hd, if_pos hd]
    refine ⟨rfl, rfl, rfl, trim s2, [], ⟨rfl, rfl⟩, rfl⟩
  · rw [if_neg hd, if_neg hd]
    simp only [andThen_ok, run_modB]
    exact hk _ R _ _ _ _ ⟨rfl, trim s2, trim s2, hp, rfl⟩

/-! ### C107 -/

theorem same_args {d1 d2 : Char} {l : List Str} (h1 : ∀ a ∈ l, d1 ∉ a) (h2 : ∀ a ∈ l, d2 ∉ a)
    (f1 : ¬ c!"{:flg;" <:+: written d1 l) (f2 : ¬ c!"{:flg;" <:+: written d2 l) : SameArgs (written d1 l) (written d2 l) :=
  ⟨by rw [argsOf_written d1 l h1, argsOf_written d2 l h2], by
    rw [(contains_false_iff (by simp)).2 f1, (contains_false_iff (by simp)).2 f2]⟩

theorem named_args {name : Str} (h : name ∈ argNames ∨ name ∈ argOnly) : Named name := by
  simp only [argNames, argOnly, List.mem_cons, List.not_mem_nil, or_false] at h
  rcases h with (rfl | rfl | rfl | rfl | rfl) | (rfl | rfl)
  all_goals
    refine ⟨by decide, ?_⟩
    intro c r hc
    injection hc with h1 h2
    subst h1
    decide

/-- **C107** (`same`, `contains`, `replace`, `cache`, and `fetch` with literal arguments) The arguments are the texts
between the delimiters: any two characters that occur in none of them serve alike, giving the same output and the same
effects (the text at the end of an error line aside). -/
theorem C107_delimiter_partial (env : Env) (R : Rec) (sh : Shared) (inh : Inherit) (mods name s1 s2 only c : Str) (d1 d2 : Char) (l : List Str)
    (hname : name ∈ argNames) (hm : Mods mods) (honly : only = [] ∨ inh.inOnly = true)
    (hs1 : Parts s1 (some (written d1 l)) c) (hs2 : Parts s2 (some (written d2 l)) c)
    (h1 : ∀ a ∈ l, d1 ∉ a) (h2 : ∀ a ∈ l, d2 ∉ a)
    (f1 : ¬ c!"{:flg;" <:+: written d1 l) (f2 : ¬ c!"{:flg;" <:+: written d2 l)
    (hfetch : name = c!"fetch" → ¬ c!"{:" <:+: written d1 l ∧ ¬ c!"{:" <:+: written d2 l)
    (hcache : name = c!"cache" → inh.inCache = false ∨ '!' ∉ mods) :
    SameAnswer (bifText mods name s1) (bifText mods name s2) (runBif env R sh inh (bifText mods name s1) only)
      (runBif env R sh inh (bifText mods name s2) only) := by
  by_cases hmax : sh.count < sh.max
  · have hn := named_args (.inl hname)
    have sel : Selected inh mods name only := honly.elim .inl (fun h => .inr (.inl h))
    rw [runBif_text env R sh inh mods name s1 only hm hn hmax sel, runBif_text env R sh inh mods name s2 only hm hn hmax sel]
    have hp := same_args h1 h2 f1 f2
    have of : ∀ {p : Prog Unit}, RA p → ∀ R q r s t, Spelt q r s t → s.inh.inCache = inh.inCache → (s.b.modNegate = true → '!' ∈ mods) →
        ResSpelt q r (run R p s) (run R p t) := fun h R q r s t hs _ _ => h R q r s t hs
    simp only [argNames, List.mem_cons, List.not_mem_nil, or_false] at hname
    rcases hname with rfl | rfl | rfl | rfl | rfl
    · refine spell_case env R sh inh mods _ s1 s2 only _ _ c _ false _ hs1 hs2 hp (by simp) (fun _ _ => rfl) (of ?_)
      repeat' ra_mid
    · refine spell_case env R sh inh mods _ s1 s2 only _ _ c _ false _ hs1 hs2 hp (by simp) (fun _ _ => rfl) (of ?_)
      repeat' ra_mid
    · refine spell_case env R sh inh mods _ s1 s2 only _ _ c _ false _ hs1 hs2 hp (by simp) (fun _ _ => rfl) (of ?_)
      repeat' ra_mid
    · refine spell_case env R sh inh mods _ s1 s2 only _ _ c _ false _ hs1 hs2 hp (by simp) (fun _ _ => rfl) ?_
      intro R q r s t hst hc hneg
      rw [run_bind, run_bind]
      have hflg : ∀ u : St, run R denyFlgParams u = .ok () u ∨ ∃ e, run R denyFlgParams u = .err e u := by
        intro u
        rw [run_denyFlgParams]
        split
        · exact .inr ⟨_, rfl⟩
        · exact .inl rfl
      have hx := ra_denyFlgParams R q r s t hst
      rcases hflg s with hs | ⟨e, hs⟩
      · rcases hflg t with ht | ⟨e', ht⟩
        · rw [hs, ht]
          simp only [andThen_ok, run_bind, run_getSt]
          have hst' := hst
          obtain ⟨hq, x, p, hp', rfl⟩ := hst
          have en : (s.respell r x p).b.modNegate = s.b.modNegate := rfl
          have ei : (s.respell r x p).inh = s.inh := rfl
          rw [en, ei]
          cases hmn : s.b.modNegate with
          | true =>
            have : s.inh.inCache = false := by
              rcases hcache rfl with h | h
              · rw [hc]; exact h
              · exact absurd (hneg hmn) h
            rw [this]
            simp only [if_true, Bool.false_eq_true, if_false]
            refine (?_ : RA _) R q r _ _ hst'
            repeat' ra_mid
          | false =>
            simp only [Bool.false_eq_true, if_false]
            refine (?_ : RA _) R q r _ _ hst'
            repeat' ra_mid
        · rw [hs, ht] at hx; exact hx.elim
      · rcases hflg t with ht | ⟨e', ht⟩
        · rw [hs, ht] at hx; exact hx.elim
        · rw [hs, ht] at hx ⊢; exact hx
    · refine spell_case env R sh inh mods _ s1 s2 only _ _ c _ true _ hs1 hs2 hp (fun _ => hfetch rfl) (fun _ _ => rfl) (of ?_)
      repeat' ra_mid
  · unfold runBif
    rw [if_pos (by omega), if_pos (by omega)]
    exact rfl

/-- **C107** (`sum`, `join`) The same for the BIFs with nothing but arguments. -/
theorem C107_delimiter_only (env : Env) (R : Rec) (sh : Shared) (inh : Inherit) (mods name s1 s2 only : Str) (d1 d2 : Char) (l : List Str)
    (hname : name ∈ argOnly) (hm : Mods mods) (honly : only = [] ∨ inh.inOnly = true)
    (hs1 : trim s1 = written d1 l) (hs2 : trim s2 = written d2 l)
    (h1 : ∀ a ∈ l, d1 ∉ a) (h2 : ∀ a ∈ l, d2 ∉ a)
    (f1 : ¬ c!"{:flg;" <:+: written d1 l) (f2 : ¬ c!"{:flg;" <:+: written d2 l) :
    SameAnswer (bifText mods name s1) (bifText mods name s2) (runBif env R sh inh (bifText mods name s1) only)
      (runBif env R sh inh (bifText mods name s2) only) := by
  by_cases hmax : sh.count < sh.max
  · have hn := named_args (.inr hname)
    have sel : Selected inh mods name only := honly.elim .inl (fun h => .inr (.inl h))
    rw [runBif_text env R sh inh mods name s1 only hm hn hmax sel, runBif_text env R sh inh mods name s2 only hm hn hmax sel]
    have hp : SameArgs (trim s1) (trim s2) := by rw [hs1, hs2]; exact same_args h1 h2 f1 f2
    simp only [argOnly, List.mem_cons, List.not_mem_nil, or_false] at hname
    rcases hname with rfl | rfl
    · refine spell_whole env R sh inh mods _ s1 s2 only _ _ hp (fun _ _ => rfl) (fun _ => ?_)
      repeat' ra_mid
    · refine spell_whole env R sh inh mods _ s1 s2 only _ _ hp (fun _ _ => rfl) (fun _ => ?_)
      repeat' ra_mid
  · unfold runBif
    rw [if_pos (by omega), if_pos (by omega)]
    exact rfl

/-! Each argument is evaluated on its own: what it prints, delimiters included, stays in it. -/

theorem argsGive_written {R : Rec} {name only : Str} {d : Char} {l l' : List Str} {sh sh' : Shared} {inh inh' : Inherit}
    {r : Str} (hr : written d l = d :: r) (h : ∀ a ∈ l, d ∉ a) (ha : ArgsGive R name only l sh inh l' sh' inh') :
    ArgsGive R name only (splitChar d (d :: r)) sh inh ([] :: l') sh' inh' := by
  have := argsOf_written d l h
  rw [hr] at this
  rw [show splitChar d (d :: r) = [] :: l from this]
  exact .cons (nested_plain (by simp)) ha

/-- **C107** (`same`, `contains`) With the arguments `a` and `b` between delimiters that occur in neither of the two texts,
the comparison is of what `a` prints with what `b` prints, whatever characters these have. -/
theorem C107_compare (env : Env) (R : Rec) (sh sh1 : Shared) (inh inh1 : Inherit) (mods name src only c a b x y : Str) (d : Char)
    (more more' : List Str) (hname : name ∈ cmpNames) (hm : Mods mods) (hf : '&' ∉ mods) (hmax : sh.count < sh.max)
    (hsel : Selected inh mods name only) (hparts : Parts src (some (written d (a :: b :: more))) c)
    (hd : ∀ t ∈ a :: b :: more, d ∉ t) (hflg : ¬ c!"{:flg;" <:+: written d (a :: b :: more))
    (hargs : ArgsGive R name only (a :: b :: more) (counted sh) (entered sh inh) (x :: y :: more') sh1 inh1) :
    runBif env R sh inh (bifText mods name src) only =
      (open Classical in if Compares name x y ↔ '!' ∉ mods then shown R mods name c only sh1 inh1 else hidden mods sh1 inh1) := by
  have hr : written d (a :: b :: more) = d :: (a ++ written d (b :: more)) := by simp [written]
  have hC := C33_compare env R sh sh1 inh inh1 mods name src only _ c d [] x y more' hname hm hf hmax hsel (hr ▸ hparts)
    (hr ▸ hflg) (argsGive_written hr hd hargs)
  by_cases h1 : Compares name x y
  · by_cases h2 : '!' ∈ mods
    · rw [hC.2.1 h1 h2, if_neg (by simp [h1, h2])]
    · rw [hC.1 h1 h2, if_pos (by simp [h1, h2])]
  · by_cases h2 : '!' ∈ mods
    · rw [hC.2.2.2 h1 h2, if_pos (by simp [h1, h2])]
    · rw [hC.2.2.1 h1 h2, if_neg (by simp [h1, h2])]

/-- **C107** (`sum`) -/
theorem C107_sum (env : Env) (R : Rec) (sh sh1 : Shared) (inh inh1 : Inherit) (mods src only a b ta tb : Str) (d : Char)
    (more more' : List Str) (x y : Nat) (hm : Mods mods) (hf : '&' ∉ mods) (hneg : '!' ∉ mods) (hsc : '+' ∉ mods)
    (hmax : sh.count < sh.max) (hsel : Selected inh mods c!"sum" only) (hsrc : trim src = written d (a :: b :: more))
    (hd : ∀ t ∈ a :: b :: more, d ∉ t) (hflg : ¬ c!"{:flg;" <:+: written d (a :: b :: more))
    (hargs : ArgsGive R c!"sum" only (a :: b :: more) (counted sh) (entered sh inh) (ta :: tb :: more') sh1 inh1)
    (ha : env.f64.parse ta = some x) (hb : env.f64.parse tb = some y) :
    runBif env R sh inh (bifText mods c!"sum" src) only =
      finish (decide ('^' ∈ mods)) (env.f64.show_ (env.f64.add x y)) sh1 inh1 := by
  have hr : written d (a :: b :: more) = d :: (a ++ written d (b :: more)) := by simp [written]
  exact C48_sum env R sh sh1 inh inh1 mods src only _ ta tb [] d more' x y hm hf hneg hsc hmax hsel (hsrc.trans hr) (hr ▸ hflg)
    (argsGive_written hr hd hargs) ha hb

/-- **C107** (`replace`) What the first argument prints is replaced by what the second prints, in what the code prints. -/
theorem C107_replace (env : Env) (R : Rec) (sh sh1 sh2 : Shared) (inh inh1 inh2 : Inherit) (mods src only c a b f t x : Str)
    (d : Char) (more more' : List Str) (hm : Mods mods) (hfm : '&' ∉ mods) (hneg : '!' ∉ mods) (hsc : '+' ∉ mods)
    (hmax : sh.count < sh.max) (hsel : Selected inh mods c!"replace" only)
    (hparts : Parts src (some (written d (a :: b :: more))) c)
    (hd : ∀ t ∈ a :: b :: more, d ∉ t) (hflg : ¬ c!"{:flg;" <:+: written d (a :: b :: more))
    (hargs : ArgsGive R c!"replace" only (a :: b :: more) (counted sh) (entered sh inh) (f :: t :: more') sh1 inh1)
    (hcode : nested R false sh1 inh1 c!"replace" c only = .ok x sh2 inh2) (hf : f ≠ []) :
    ∃ y, Replaced f t x y ∧
      runBif env R sh inh (bifText mods c!"replace" src) only = finish (decide ('^' ∈ mods)) y sh2 inh2 := by
  refine ⟨replaceAll f t x, C49_replace f t x hf, ?_⟩
  have hr : written d (a :: b :: more) = d :: (a ++ written d (b :: more)) := by simp [written]
  rw [runBif_text env R sh inh mods c!"replace" src only hm (named_args (.inl (by decide))) hmax hsel]
  have hbody : bifBody env c!"replace" = bifReplace := rfl
  rw [hbody]
  unfold bifReplace
  simp only [run_bind, run_denyMods]
  rw [if_neg (by simp [start, hfm, hneg, hsc]), andThen_ok, run_extract_plain R false hparts _ rfl (by simp)]
  simp only [andThen_ok, run_denyFlgParams, Option.getD_some]
  rw [if_neg (by simpa using (contains_false_iff (by simp)).2 hflg), andThen_ok]
  rw [run_extractArgs R (argsGive_written hr hd hargs) { start sh inh mods c!"replace" src only with
        b := { (start sh inh mods c!"replace" src only).b with params := written d (a :: b :: more), code := c } }
      hr rfl rfl rfl rfl rfl rfl]
  simp only [andThen_ok, run_argReq, List.getElem?_cons_succ, List.getElem?_cons_zero]
  rw [run_parseCode_nested R false _ rfl rfl]
  simp only [start]
  rw [hcode]
  rfl

/-- **C107** (`fetch`) The claim is false of the code: the arguments of `fetch` are evaluated before they are divided, so that
a `|` in the data ends the argument: here the data choose the event, and the event becomes the wrapper. -/
theorem C107_refuted :
    Sample.outOf (Sample.go [(c!"u", .str c!"/x|none")] c!"{:!cache; {:fetch; |{:;u:}|auto| >> b :} :}") ≠
    Sample.outOf (Sample.go [(c!"u", .str c!"/x|none")] c!"{:!cache; {:fetch; #{:;u:}#auto# >> b :} :}") := by
  decide +kernel

/-- Non-vacuity: `{:same; /a b/{:;x:}/ >> yes :}` and `{:same;|a b|{:;x:}| >> yes :}` on every page, ... -/
example (env : Env) (R : Rec) (sh : Shared) (inh : Inherit) :
    SameAnswer (bifText [] c!"same" c!" /a b/{:;x:}/ >> yes ") (bifText [] c!"same" c!"|a b|{:;x:}| >> yes ")
      (runBif env R sh inh (bifText [] c!"same" c!" /a b/{:;x:}/ >> yes ") [])
      (runBif env R sh inh (bifText [] c!"same" c!"|a b|{:;x:}| >> yes ") []) :=
  C107_delimiter_partial env R sh inh [] c!"same" _ _ [] c!"yes" '/' '|' [c!"a b", c!"{:;x:}", []] (by decide) (by unfold Mods; decide)
    (.inl rfl) (.both (a := c!"/a b/{:;x:}/ ") (r := c!" yes") (by
      refine .chr _ (by decide) (by decide) (by decide) (.chr _ (by decide) (by decide) (by decide) (.chr _ (by decide) (by decide)
        (by decide) (.chr _ (by decide) (by decide) (by decide) (.chr _ (by decide) (by decide) (by decide) (.nest (b := c!";x")
        (.chr _ (by decide) (by decide) (.chr _ (by decide) (by decide) (.nil _))) (noSep_plain _ _ (by decide))))))))
      (by decide))
    (.both (a := c!"|a b|{:;x:}| ") (r := c!" yes") (by
      refine .chr _ (by decide) (by decide) (by decide) (.chr _ (by decide) (by decide) (by decide) (.chr _ (by decide) (by decide)
        (by decide) (.chr _ (by decide) (by decide) (by decide) (.chr _ (by decide) (by decide) (by decide) (.nest (b := c!";x")
        (.chr _ (by decide) (by decide) (.chr _ (by decide) (by decide) (.nil _))) (noSep_plain _ _ (by decide))))))))
      (by decide))
    (by decide) (by decide) (by decide) (by decide) (by decide) (fun h => absurd h (by decide))

/-- ... and `{:sum; /1/2/ :}` and `{:sum; :1:2: :}`. -/
example (env : Env) (R : Rec) (sh : Shared) (inh : Inherit) :
    SameAnswer (bifText [] c!"sum" c!" /1/2/ ") (bifText [] c!"sum" c!" :1:2: ")
      (runBif env R sh inh (bifText [] c!"sum" c!" /1/2/ ") []) (runBif env R sh inh (bifText [] c!"sum" c!" :1:2: ") []) :=
  C107_delimiter_only env R sh inh [] c!"sum" _ _ [] '/' ':' [c!"1", c!"2", []] (by decide) (by unfold Mods; decide)
    (.inl rfl) (by decide) (by decide) (by decide) (by decide) (by decide) (by decide)

/-- The hypotheses of `C107_replace` are met: `{:replace; #a#b# >> banana :}`. -/
example (env : Env) (R : Rec) (sh : Shared) (inh : Inherit) (h : sh.count < sh.max) :
    ∃ y, Replaced c!"a" c!"b" c!"banana" y ∧
      runBif env R sh inh (bifText [] c!"replace" c!" #a#b# >> banana ") [] = finish false y (counted sh) (entered sh inh) :=
  C107_replace env R sh _ _ inh _ _ [] _ [] c!"banana" c!"a" c!"b" c!"a" c!"b" c!"banana" '#' [[]] [[]] (by unfold Mods; decide)
    (by decide) (by decide) (by decide) h (.inl rfl)
    (.both (a := c!"#a#b# ") (r := c!" banana") (noSep_plain _ _ (by decide)) (by decide)) (by decide) (by decide)
    (.cons (nested_plain (by decide)) (.cons (nested_plain (by decide)) (.cons (nested_plain (by decide)) (.nil _ _))))
    (nested_plain (by decide)) (by decide)

/-- What an argument prints stays in it. -/
example :
    Sample.outOf (Sample.go [(c!"u", .str c!"a|b"), (c!"v", .str c!"a")]
      c!"{:same; |{:;u:}|{:;u:}| >> 1 :}{:same; |{:;v:}|b| >> 2 :}{:same; |{:;u:}|b| >> 3 :}{:replace; |{:;u:}|-| >> x{:;u:}y :}")
      = some (c!"1x-y", c!"200") := by
  decide +kernel

end Nts
