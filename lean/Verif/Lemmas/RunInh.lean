import Verif.Lemmas.Inv
import Verif.Lemmas.BifText
import Verif.Lemmas.Ops
/-
What a BIF never changes in the state it inherits.
-/
set_option autoImplicit false
namespace Nts
open Spec

/-- The fields of the inherited state that no operation assigns. -/
structure SameInh (a b : Inherit) : Prop where
  alias : b.alias = a.alias
  blockCount : b.blockCount = a.blockCount
  bifCount : b.bifCount = a.bifCount
  currentFile : b.currentFile = a.currentFile
  lastBifOut : b.lastBifOut = a.lastBifOut
  inOnly : b.inOnly = a.inOnly

theorem SameInh.refl (a : Inherit) : SameInh a a := ⟨rfl, rfl, rfl, rfl, rfl, rfl⟩
theorem SameInh.trans {a b c : Inherit} (h : SameInh a b) (h' : SameInh b c) : SameInh a c :=
  ⟨h'.1.trans h.1, h'.2.trans h.2, h'.3.trans h.3, h'.4.trans h.4, h'.5.trans h.5, h'.6.trans h.6⟩

theorem runChild_sameInh {s s' : St} {scope : Bool} {f : Shared → Inherit → PRes} {out : Str}
    (h : runChild s scope f = .ok out s') : SameInh s.inh s'.inh := by
  have := (runChild_ok h).2.2.2
  rw [this]
  cases scope
  · exact .refl _
  · exact ⟨rfl, rfl, rfl, rfl, rfl, rfl⟩

theorem oresOpt_map {β : Type} {o : Option β} {g : β → St} {s' : St} {r : Unit} (h : oresOpt (o.map g) = .ok r s') :
    ∃ x, o = some x ∧ s' = g x := by
  cases o with
  | none => simp [oresOpt] at h
  | some x => simp only [Option.map_some, oresOpt, ORes.ok.injEq, true_and] at h; exact ⟨x, rfl, h.symm⟩

theorem step_sameInh (R : Rec) (o : Op) (s : St) (r : o.Resp) (s' : St) (h : step R o s = .ok r s') :
    SameInh s.inh s'.inh := by
  cases o with
  | setData name v => obtain ⟨x, _, rfl⟩ := oresOpt_map h; exact .refl _
  | setMoveto name v => obtain ⟨x, _, rfl⟩ := oresOpt_map h; exact .refl _
  | setIndir sec key v => obtain ⟨x, _, rfl⟩ := oresOpt_map h; exact .refl _
  | mergeIndir sec v => obtain ⟨x, _, rfl⟩ := oresOpt_map h; exact .refl _
  | child src scope => simp only [step] at h; exact runChild_sameInh h
  | childBlocks src bs scope => simp only [step] at h; exact runChild_sameInh h
  | createBlockSchema =>
    simp only [step, ORes.ok.injEq] at h; rw [← h.2]; exact ⟨rfl, rfl, rfl, rfl, rfl, rfl⟩
  | pushFile k p =>
    cases k <;> (simp only [step, ORes.ok.injEq] at h; rw [← h.2]; exact ⟨rfl, rfl, rfl, rfl, rfl, rfl⟩)
  | _ =>
    simp only [step, ORes.ok.injEq] at h; rw [← h.2]
    exact ⟨rfl, rfl, rfl, rfl, rfl, rfl⟩

theorem run_sameInh (R : Rec) {α : Type} (p : Prog α) (s : St) : (run R p s).Post (fun s' => SameInh s.inh s'.inh) :=
  run_post R (P := fun _ => True) (Rel := fun s s' => SameInh s.inh s'.inh) (fun _ => .refl _)
    (fun _ _ _ => .trans) (fun o s r s' _ h => step_sameInh R o s r s' h) p (OpsIn_true p) s

/-- What remains of the inherited state of a block after one of its BIFs. -/
theorem runBif_inh {env : Env} {R : Rec} {sh sh' : Shared} {inh inh' : Inherit} {raw only x : Str}
    (h : runBif env R sh inh raw only = .ok x sh' inh') :
    inh'.alias = inh.alias ∧ inh'.blockCount = inh.blockCount ∧ inh'.currentFile = inh.currentFile := by
  unfold runBif at h
  split at h
  · simp at h
  unfold bifParse at h
  split at h
  · split at h
    · simp only [PRes.ok.injEq] at h
      rw [← h.2.2]; exact ⟨rfl, rfl, rfl⟩
    · split at h
      · simp at h
      · simp only [PRes.ok.injEq] at h
        rw [← h.2.2]; exact ⟨rfl, rfl, rfl⟩
  · split at h
    · simp only [PRes.ok.injEq] at h
      rw [← h.2.2]; exact ⟨rfl, rfl, rfl⟩
    · split at h
      · simp at h
      · next b name' hb =>
        generalize hs0 : (St.mk { sh with count := sh.count + 1 } { { inh with bifCount := sh.count + 1 } with inOnly := true }
          { b with name := name', alias := name' } raw only) = s0 at h
        have hp := run_sameInh R (bifBody env name') s0
        have hi : s0.inh = { { inh with bifCount := sh.count + 1 } with inOnly := true } := by rw [← hs0]
        cases hr : run R (bifBody env name') s0 with
        | ok a s =>
          rw [hr] at h hp
          simp only [bifResult, bifFinish, PRes.ok.injEq] at h
          rw [← h.2.2]
          have hp : SameInh s0.inh s.inh := hp
          rw [hi] at hp
          exact ⟨hp.alias, hp.blockCount, hp.currentFile⟩
        | err e s =>
          rw [hr] at h hp
          simp only [bifResult] at h
          split at h
          · simp at h
          · simp only [bifFinish, PRes.ok.injEq] at h
            rw [← h.2.2]
            have hp : SameInh s0.inh s.inh := hp
            rw [hi] at hp
            exact ⟨hp.alias, hp.blockCount, hp.currentFile⟩
        | panic p => rw [hr] at h; simp [bifResult] at h
        | oof => rw [hr] at h; simp [bifResult] at h

/-- What a body never changes: the modifiers, the name, the text of the BIF, the selection. -/
structure SameBif (a b : St) : Prop where
  modFilter : b.b.modFilter = a.b.modFilter
  modNegate : b.b.modNegate = a.b.modNegate
  modUpline : b.b.modUpline = a.b.modUpline
  modScope : b.b.modScope = a.b.modScope
  name : b.b.name = a.b.name
  raw : b.raw = a.raw
  only : b.only = a.only

theorem SameBif.refl (a : St) : SameBif a a := ⟨rfl, rfl, rfl, rfl, rfl, rfl, rfl⟩
theorem SameBif.trans {a b c : St} (h : SameBif a b) (h' : SameBif b c) : SameBif a c :=
  ⟨h'.1.trans h.1, h'.2.trans h.2, h'.3.trans h.3, h'.4.trans h.4, h'.5.trans h.5, h'.6.trans h.6, h'.7.trans h.7⟩

theorem runChild_sameBif {s s' : St} {scope : Bool} {f : Shared → Inherit → PRes} {out : Str}
    (h : runChild s scope f = .ok out s') : SameBif s s' := by
  obtain ⟨h1, h2, h3, _⟩ := runChild_ok h
  exact ⟨by rw [h1], by rw [h1], by rw [h1], by rw [h1], by rw [h1], h2, h3⟩

theorem step_sameBif (R : Rec) (n : Str) (o : Op) (s : St) (r : o.Resp) (s' : St) (he : Effects n o)
    (h : step R o s = .ok r s') : SameBif s s' := by
  cases o with
  | setData name v => obtain ⟨x, _, rfl⟩ := oresOpt_map h; exact ⟨rfl, rfl, rfl, rfl, rfl, rfl, rfl⟩
  | setMoveto name v => obtain ⟨x, _, rfl⟩ := oresOpt_map h; exact ⟨rfl, rfl, rfl, rfl, rfl, rfl, rfl⟩
  | setIndir sec key v => obtain ⟨x, _, rfl⟩ := oresOpt_map h; exact ⟨rfl, rfl, rfl, rfl, rfl, rfl, rfl⟩
  | mergeIndir sec v => obtain ⟨x, _, rfl⟩ := oresOpt_map h; exact ⟨rfl, rfl, rfl, rfl, rfl, rfl, rfl⟩
  | child src scope => simp only [step] at h; exact runChild_sameBif h
  | childBlocks src bs scope => simp only [step] at h; exact runChild_sameBif h
  | modB f =>
    simp only [step, ORes.ok.injEq] at h; rw [← h.2]
    obtain ⟨h1, h2, h3, h4, h5⟩ := he s.b
    exact ⟨h1, h2, h3, h4, h5, rfl, rfl⟩
  | pushFile k p =>
    cases k <;> (simp only [step, ORes.ok.injEq] at h; rw [← h.2]; exact ⟨rfl, rfl, rfl, rfl, rfl, rfl, rfl⟩)
  | _ =>
    simp only [step, ORes.ok.injEq] at h; rw [← h.2]
    exact ⟨rfl, rfl, rfl, rfl, rfl, rfl, rfl⟩

theorem run_sameBif (R : Rec) (env : Env) (name : Str) (s : St) : (run R (bifBody env name) s).Post (SameBif s) :=
  run_post R (P := Effects name) (Rel := SameBif) .refl (fun _ _ _ => .trans)
    (fun o s r s' he h => step_sameBif R name o s r s' he h) _ (effects env name) s

/-- The untrimmed output of a BIF decides what is remembered of it. -/
theorem runBif_remembers {env : Env} {R : Rec} {sh sh1 : Shared} {inh inh1 : Inherit} {mods name src only x : Str}
    (hm : Mods mods) (hn : Named name) (hsel : Selected inh mods name only)
    (h : runBif env R sh inh (bifText mods name src) only = .ok x sh1 inh1) :
    ∃ out, x = trim (if '^' ∈ mods then c!"&#9224" ++ out else out) ∧ inh1.lastBifOut = !out.isEmpty ∧
      inh1.lastCoalesceOut = !out.isEmpty := by
  have hmax : sh.count < sh.max := by
    unfold runBif at h
    split at h
    · simp at h
    · omega
  rw [runBif_text env R sh inh mods name src only hm hn hmax hsel] at h
  have hup := run_sameBif R env name (start sh inh mods name src only)
  have key : ∀ s : St, s.b.modUpline = decide ('^' ∈ mods) → bifFinish s = .ok x sh1 inh1 →
      ∃ out, x = trim (if '^' ∈ mods then c!"&#9224" ++ out else out) ∧ inh1.lastBifOut = !out.isEmpty ∧
      inh1.lastCoalesceOut = !out.isEmpty := by
    intro s hu hs
    simp only [bifFinish, PRes.ok.injEq] at hs
    obtain ⟨h1, _, h3⟩ := hs
    subst h1 h3
    refine ⟨s.b.out, ?_, rfl, rfl⟩
    rw [hu]
    by_cases hc : '^' ∈ mods <;> simp [hc]
  cases hr : run R (bifBody env name) (start sh inh mods name src only) with
  | ok a s =>
    rw [hr] at h hup
    exact key s (SameBif.modUpline hup) h
  | err e s =>
    rw [hr] at h hup
    simp only [bifResult] at h
    split at h
    · simp at h
    · refine key _ ?_ h
      exact SameBif.modUpline hup
  | panic p => rw [hr] at h; simp [bifResult] at h
  | oof => rw [hr] at h; simp [bifResult] at h

end Nts
