import Verif.Props.CacheOff
/-
C75: being inside a cached block ends with the block.
-/
set_option autoImplicit false
namespace Nts
open Spec

/-- Started in a state that is (not) inside a cached block, the program ends in one. -/
def KeepsIn (R : Rec) (c : Bool) {α : Type} (p : Prog α) : Prop :=
  ∀ s, s.inh.inCache = c → (run R p s).Post (fun s' => s'.inh.inCache = c)

theorem step_inCache (R : Rec) (n : Str) (hn : n ≠ c!"cache") (o : Op) (s : St) (r : o.Resp) (s' : St) (he : Effects n o)
    (h : step R o s = .ok r s') : s'.inh.inCache = s.inh.inCache := by
  cases o with
  | setData name v => obtain ⟨x, _, rfl⟩ := oresOpt_map h; rfl
  | setMoveto name v => obtain ⟨x, _, rfl⟩ := oresOpt_map h; rfl
  | setIndir sec key v => obtain ⟨x, _, rfl⟩ := oresOpt_map h; rfl
  | mergeIndir sec v => obtain ⟨x, _, rfl⟩ := oresOpt_map h; rfl
  | child src scope =>
    simp only [step] at h
    rw [(runChild_ok h).2.2.2]
    cases scope <;> rfl
  | childBlocks src bs scope =>
    simp only [step] at h
    rw [(runChild_ok h).2.2.2]
    cases scope <;> rfl
  | createBlockSchema => simp only [step, ORes.ok.injEq] at h; rw [← h.2]; rfl
  | pushFile k p => cases k <;> (simp only [step, ORes.ok.injEq] at h; rw [← h.2])
  | setInCache b => exact absurd he hn
  | _ => simp only [step, ORes.ok.injEq] at h; rw [← h.2]

theorem keeps_ops (R : Rec) (c : Bool) {α : Type} {p : Prog α} {n : Str} (hn : n ≠ c!"cache") (h : OpsIn (Effects n) p) : KeepsIn R c p := by
  intro s hs
  have := run_post R (Rel := fun s s' => s'.inh.inCache = s.inh.inCache) (fun _ => rfl) (fun _ _ _ h1 h2 => h2.trans h1)
    (fun o s r s' ho hst => step_inCache R n hn o s r s' ho hst) p h s
  revert this
  cases run R p s with
  | ok a t => exact fun h => h.trans hs
  | err e t => exact fun h => h.trans hs
  | panic _ => exact fun _ => trivial
  | oof => exact fun _ => trivial

theorem keeps_bind {R : Rec} {c : Bool} {α β : Type} {p : Prog α} {f : α → Prog β} (hp : KeepsIn R c p) (hf : ∀ a, KeepsIn R c (f a)) :
    KeepsIn R c (p >>= f) := by
  intro s hs
  have h := hp s hs
  rw [run_bind]
  revert h
  cases run R p s with
  | ok a t => exact fun h => hf a t h
  | err e t => exact fun h => h
  | panic _ => exact fun _ => trivial
  | oof => exact fun _ => trivial

theorem keeps_get {R : Rec} {c : Bool} {β : Type} {f : St → Prog β} (hf : ∀ t, t.inh.inCache = c → KeepsIn R c (f t)) :
    KeepsIn R c (getSt >>= f) := by
  intro s hs
  rw [run_bind, run_getSt]
  exact hf s hs s hs

/-- Evaluating something inside the cache, and back. -/
theorem keeps_within {R : Rec} {c : Bool} {α : Type} {p : Prog α} (h : ∀ s, ∀ e t, run R p s ≠ .err e t) {β : Type} {f : α → Prog β}
    (hf : ∀ a, KeepsIn R c (f a)) :
    KeepsIn R c (perform (.setInCache true) >>= fun _ => p >>= fun a => perform (.setInCache c) >>= fun _ => f a) := by
  intro s hs
  simp only [run_bind]
  change Res.Post _ (Res.andThen (run R p { s with inh := { s.inh with inCache := true } }) _)
  have h := h { s with inh := { s.inh with inCache := true } }
  cases hr : run R p { s with inh := { s.inh with inCache := true } } with
  | ok a t => exact hf a _ rfl
  | err e t => exact absurd hr (h e t)
  | panic _ => trivial
  | oof => trivial

theorem child_noErr (R : Rec) (x : Str) (b : Bool) (s : St) (e : BifErr) (t : St) : run R (childParse x b) s ≠ .err e t := by
  unfold childParse perform
  simp only [run]
  cases step R (.child x b) s <;> simp

theorem argLoop_noErr (R : Rec) : ∀ (l : List Str) (s : St) (e : BifErr) (t : St), run R (argLoop l) s ≠ .err e t
  | [], s, e, t => by simp [argLoop, run]
  | a :: l, s, e, t => by
    unfold argLoop
    simp only [run_bind]
    intro h
    have hx : ∀ e' t', run R (if contains bifOpen a then childParse a false else .pure a) s ≠ .err e' t' := by
      intro e' t'
      split
      · exact child_noErr R _ _ _ _ _
      · simp [run]
    cases h1 : run R (if contains bifOpen a then childParse a false else .pure a) s with
    | ok x s1 =>
      rw [h1] at h
      simp only [andThen_ok] at h
      cases h2 : run R (argLoop l) s1 with
      | ok y s2 => rw [h2] at h; simp [run] at h
      | err e' t' => exact argLoop_noErr R l s1 e' t' h2
      | panic _ => rw [h2] at h; simp at h
      | oof => rw [h2] at h; simp at h
    | err e' t' => exact hx e' t' h1
    | panic _ => rw [h1] at h; simp at h
    | oof => rw [h1] at h; simp at h

theorem extractArgs_noErr (R : Rec) (s : St) (e : BifErr) (t : St) : run R extractArgs s ≠ .err e t := by
  unfold extractArgs
  rw [run_bind, run_getSt]
  simp only [andThen_ok]
  split
  · simp
  · exact argLoop_noErr R _ s e t

theorem keeps_store {R : Rec} {c : Bool} {store : Str → Prog Unit} (h : ∀ x s, ∀ e t, run R (store x) s ≠ .err e t) :
    KeepsIn R c (cacheParse c store) := by
  unfold cacheParse
  refine keeps_get (fun t ht => ?_)
  split
  · have := keeps_within (R := R) (c := c) (p := childParse t.b.code t.b.modScope >>= store) (f := fun _ => (.pure () : Prog Unit)) (by
      intro s e u
      rw [run_bind]
      cases hc : run R (childParse t.b.code t.b.modScope) s with
      | ok x s1 => exact h x s1 e u
      | err e' t' => exact absurd hc (child_noErr R _ _ _ _ _)
      | panic _ => simp
      | oof => simp) (fun _ s hs => hs)
    intro s hs
    have h2 := this s hs
    simp only [run_bind] at h2 ⊢
    revert h2
    cases run R (perform (.setInCache true)) s with
    | ok a s1 =>
      simp only [andThen_ok]
      cases run R (childParse t.b.code t.b.modScope) s1 with
      | ok x s2 =>
        simp only [andThen_ok]
        cases run R (store x) s2 with
        | ok y s3 =>
          simp only [andThen_ok]
          cases run R (perform (.setInCache c)) s3 with
          | ok z s4 => exact fun h => h
          | err _ _ => exact fun h => h
          | panic _ => exact fun h => h
          | oof => exact fun h => h
        | err _ _ => exact fun h => h
        | panic _ => exact fun h => h
        | oof => exact fun h => h
      | err _ _ => exact fun h => h
      | panic _ => exact fun h => h
      | oof => exact fun h => h
    | err _ _ => exact fun h => h
    | panic _ => exact fun h => h
    | oof => exact fun h => h
  · exact fun s hs => hs

theorem keeps_write {R : Rec} {c : Bool} (f x : Str) (t : Nat) : KeepsIn R c (perform (.writeFile f x t)) := by
  intro s hs
  exact hs

theorem keeps_error {R : Rec} {c : Bool} {α : Type} (m : Str) : KeepsIn R c (bifError m : Prog α) :=
  keeps_ops R c (n := c!"code") (by decide) (eff_error m)

theorem keeps_cacheStore (env : Env) {R : Rec} {c : Bool} (dir file : Str) : KeepsIn R c (cacheStore env c dir file) := by
  unfold cacheStore
  refine keeps_bind (keeps_store (fun x s e t => by simp [setCode, modB, perform, run, step])) (fun _ => ?_)
  refine keeps_bind (keeps_ops R c (n := c!"code") (by decide) eff_outCode) (fun _ => ?_)
  refine keeps_get (fun t ht => ?_)
  refine keeps_bind (keeps_ops R c (n := c!"code") (by decide) eff_tick) (fun k => ?_)
  split
  · exact keeps_error _
  · split
    · exact keeps_error _
    · refine keeps_bind (keeps_write _ _ _) (fun _ => ?_)
      split
      · exact keeps_error _
      · exact keeps_write _ _ _

theorem keeps_cacheLookup (env : Env) {R : Rec} {c : Bool} (dir file expires : Str) : KeepsIn R c (cacheLookup env c dir file expires) := by
  unfold cacheLookup
  refine keeps_get (fun t ht => ?_)
  split
  · exact keeps_cacheStore env dir file
  · refine keeps_bind (keeps_ops R c (n := c!"code") (by decide) eff_tick) (fun k => ?_)
    split
    · exact fun s _ => trivial
    · exact keeps_cacheStore env dir file
    · split
      · exact keeps_ops R c (n := c!"code") (by decide) (eff_setOut _)
      · exact keeps_bind (keeps_store (fun x s e t => by simp [setOut, modB, perform, run, step])) (fun _ => keeps_error _)

theorem keeps_cache (env : Env) (R : Rec) (c : Bool) : KeepsIn R c (bifCache env) := by
  unfold bifCache
  refine keeps_bind (keeps_ops R c (n := c!"code") (by decide) (eff_denyMods _)) (fun _ => ?_)
  refine keeps_bind (keeps_ops R c (n := c!"code") (by decide) (eff_extract _)) (fun _ => ?_)
  refine keeps_bind (keeps_ops R c (n := c!"code") (by decide) eff_denyFlgParams) (fun _ => ?_)
  refine keeps_get (fun t ht => ?_)
  split
  · split
    · exact keeps_ops R c (n := c!"code") (by decide) (eff_setOut _)
    · exact keeps_bind (keeps_ops R c (n := c!"code") (by decide) (eff_child _ _))
        (fun _ => keeps_ops R c (n := c!"code") (by decide) (eff_setOut _))
  · dsimp only
    split
    · exact keeps_bind (keeps_ops R c (n := c!"code") (by decide) (eff_parseCode _))
        (fun _ => keeps_ops R c (n := c!"code") (by decide) eff_outCode)
    · rw [ht]
      refine keeps_within (extractArgs_noErr R) (fun args => ?_)
      refine keeps_bind (keeps_ops R c (n := c!"code") (by decide) (eff_argReq _ _ _)) (fun x => ?_)
      exact keeps_get (fun u _ => keeps_cacheLookup env _ _ _)

/-- **C75 (ends).** Being inside a cached block ends with the block, whatever happens in it (also when it fails, or when the entry
cannot be read or written): after any BIF, what follows is inside a cached block exactly if what was before it is. -/
theorem C75_ends (env : Env) (R : Rec) (sh sh' : Shared) (inh inh' : Inherit) (raw only x : Str)
    (h : runBif env R sh inh raw only = .ok x sh' inh') : inh'.inCache = inh.inCache := by
  unfold runBif at h
  split at h
  · simp at h
  unfold bifParse at h
  split at h
  · split at h
    · simp only [PRes.ok.injEq] at h
      rw [← h.2.2]
    · split at h
      · simp at h
      · simp only [PRes.ok.injEq] at h
        rw [← h.2.2]
  · split at h
    · simp only [PRes.ok.injEq] at h
      rw [← h.2.2]
    · split at h
      · simp at h
      · next b name' hb =>
        generalize hs0 : (St.mk { sh with count := sh.count + 1 } { { inh with bifCount := sh.count + 1 } with inOnly := true }
          { b with name := name', alias := name' } raw only) = s0 at h
        have hi : s0.inh.inCache = inh.inCache := by rw [← hs0]
        have hp : (run R (bifBody env name') s0).Post (fun s' => s'.inh.inCache = inh.inCache) := by
          by_cases hn : name' = c!"cache"
          · rw [hn]
            exact keeps_cache env R _ s0 hi
          · exact keeps_ops R _ hn (effects env name') s0 hi
        cases hr : run R (bifBody env name') s0 with
        | ok a s =>
          rw [hr] at h hp
          simp only [bifResult, bifFinish, PRes.ok.injEq] at h
          rw [← h.2.2]
          exact hp
        | err e s =>
          rw [hr] at h hp
          simp only [bifResult] at h
          split at h
          · simp at h
          · simp only [bifFinish, PRes.ok.injEq] at h
            rw [← h.2.2]
            exact hp
        | panic p => rw [hr] at h; simp [bifResult] at h
        | oof => rw [hr] at h; simp [bifResult] at h

theorem produces_inCache {env : Env} {R : Rec} {only s y : Str} {sh sh' : Shared} {inh inh' : Inherit} {e : Bool}
    (h : Produces env R only s sh inh e y sh' inh') : inh'.inCache = inh.inCache := by
  induction h with
  | nil => rfl
  | stop => rfl
  | chr _ _ _ _ ih => exact ih
  | comment _ _ _ ih => exact ih
  | skipped _ _ _ _ _ ih => exact ih
  | evaluated _ _ _ hr _ ih => exact ih.trans (C75_ends env R _ _ _ _ _ _ _ hr)

end Nts
