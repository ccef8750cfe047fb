import Verif.Spec.Eval
import Verif.Lemmas.BifText
/-
Running BIF bodies in terms of `Spec.nested`.
-/
set_option autoImplicit false
namespace Nts
open Spec

/-- A state put together. -/
theorem runChild_congr (s : St) (scope : Bool) (f : Shared → Inherit → PRes) (hf : s.b.filePath = [])
    (hd : s.b.dir = []) :
    runChild s scope f =
      match runChild ⟨s.sh, s.inh, { BifS.new with alias := s.b.alias }, [], s.only⟩ scope f with
      | .ok x t => .ok x { s with sh := t.sh, inh := t.inh }
      | .panic p => .panic p
      | .oof => .oof := by
  unfold runChild
  have hci : childInherit s = childInherit ⟨s.sh, s.inh, { BifS.new with alias := s.b.alias }, [], s.only⟩ := by
    simp [childInherit, hf, hd, BifS.new]
  rw [hci]
  dsimp only
  cases f (if scope then createBlockSchema s.sh s.inh else (s.sh, s.inh)).1
      (childInherit ⟨s.sh, s.inh, { BifS.new with alias := s.b.alias }, [], s.only⟩) <;> rfl

/-- `new_child_parse!` of a text that contains a BIF. -/
theorem run_child_nested (R : Rec) (src : Str) (scope : Bool) (s : St) (hf : s.b.filePath = []) (hd : s.b.dir = [])
    (hc : contains c!"{:" src = true) :
    run R (childParse src scope) s =
      match nested R scope s.sh s.inh s.b.alias src s.only with
      | .ok x sh' inh' => .ok x { s with sh := sh', inh := inh' }
      | .panic p => .panic p
      | .oof => .oof := by
  rw [run_childParse]
  simp only [step]
  rw [runChild_congr s scope _ hf hd]
  unfold nested
  rw [if_pos hc]
  cases runChild ⟨s.sh, s.inh, { BifS.new with alias := s.b.alias }, [], s.only⟩ scope
      (fun sh' inh' => parseSrc R sh' inh' src s.only) <;> rfl

/-- `if self.code.contains(BIF_OPEN) { ... }`. -/
theorem run_parseCode_nested (R : Rec) (scope : Bool) (s : St) (hf : s.b.filePath = []) (hd : s.b.dir = []) :
    run R (parseCode scope) s =
      match nested R scope s.sh s.inh s.b.alias s.b.code s.only with
      | .ok x sh' inh' => .ok () { s with sh := sh', inh := inh', b := { s.b with code := x } }
      | .panic p => .panic p
      | .oof => .oof := by
  rw [run_parseCode]
  by_cases hc : contains c!"{:" s.b.code = true
  · rw [if_pos hc, run_child_nested R _ _ _ hf hd hc]
    cases nested R scope s.sh s.inh s.b.alias s.b.code s.only <;> rfl
  · rw [if_neg hc]
    unfold nested
    rw [if_neg hc]

/-- Extraction of parameters and code. -/
theorem run_extract (R : Rec) {src c : Str} {p : Option Str} (h : Parts src p c) (s : St)
    (hb : s.b.src = trim src) (hf : s.b.filePath = []) (hd : s.b.dir = []) (hfl : s.b.flags = []) :
    run R (extractParamsCode true) s =
      match evalParams R s.sh s.inh s.b.alias (p.getD []) s.only with
      | .ok x sh' inh' => .ok p.isSome { s with sh := sh', inh := inh',
                                                b := { s.b with params := x, code := c, flags := flagsOf sh' (p.getD []) } }
      | .panic p => .panic p
      | .oof => .oof := by
  by_cases hp : contains c!"{:" (p.getD []) = true
  · cases p with
    | none => exact absurd hp (by decide)
    | some q =>
      rw [Option.getD_some] at hp
      rw [run_extract_parts R h s hb ((contains_iff (by simp)).1 hp)]
      rw [run_child_nested R q false _ (by simp [hf]) (by simp [hd]) hp]
      simp only [evalParams, Option.getD_some, if_pos hp, flagsOf]
      cases nested R false { s.sh with flags := [] } s.inh s.b.alias q s.only <;> rfl
  · have hp' : ¬ c!"{:" <:+: p.getD [] := by
      have : contains c!"{:" (p.getD []) = false := by simpa using hp
      exact (contains_false_iff (by simp)).1 this
    rw [run_extract_plain R true h s hb (fun _ => hp')]
    simp only [evalParams, nested, if_neg hp, flagsOf]
    obtain ⟨sh, inh, b, raw, only⟩ := s
    simp only at hfl
    simp [hfl]

theorem run_extract_ok (R : Rec) {src c x : Str} {p : Option Str} (h : Parts src p c) (s : St) {sh1 : Shared} {inh1 : Inherit}
    (hb : s.b.src = trim src) (hf : s.b.filePath = []) (hd : s.b.dir = []) (hfl : s.b.flags = [])
    (hx : evalParams R s.sh s.inh s.b.alias (p.getD []) s.only = .ok x sh1 inh1) :
    run R (extractParamsCode true) s =
      .ok p.isSome { s with sh := sh1, inh := inh1, b := { s.b with params := x, code := c, flags := flagsOf sh1 (p.getD []) } } := by
  rw [run_extract R h s hb hf hd hfl, hx]

theorem nested_inh {R : Rec} {sh sh' : Shared} {inh inh' : Inherit} {name text only x : Str}
    (h : nested R false sh inh name text only = .ok x sh' inh') : inh' = inh := by
  unfold nested at h
  split at h
  · split at h
    · next hx =>
      have := runChild_ok hx
      simp only [PRes.ok.injEq] at h
      rw [← h.2.2, this.2.2.2]; rfl
    · simp at h
    · simp at h
  · simp only [PRes.ok.injEq] at h; exact h.2.2.symm

theorem nested_plain {R : Rec} {scope : Bool} {sh : Shared} {inh : Inherit} {name text only : Str}
    (h : ¬ c!"{:" <:+: text) : nested R scope sh inh name text only = .ok text sh inh := by
  unfold nested
  rw [if_neg]
  simpa using (contains_false_iff (by simp)).2 h

theorem evalParams_plain {R : Rec} {sh : Shared} {inh : Inherit} {name text only : Str}
    (h : ¬ c!"{:" <:+: text) : evalParams R sh inh name text only = .ok text sh inh := by
  have hc : contains c!"{:" text = false := (contains_false_iff (by simp)).2 h
  unfold evalParams
  rw [hc]
  exact nested_plain h

theorem flagsOf_plain {sh : Shared} {text : Str} (h : ¬ c!"{:" <:+: text) : flagsOf sh text = [] := by
  have hc : contains c!"{:" text = false := (contains_false_iff (by simp)).2 h
  unfold flagsOf
  rw [hc]; rfl

/-- The arguments. -/
theorem run_argLoop (R : Rec) {name only : Str} {l l' : List Str} {sh sh' : Shared} {inh inh' : Inherit}
    (h : ArgsGive R name only l sh inh l' sh' inh') (s : St) (hs : s.sh = sh) (hi : s.inh = inh)
    (ha : s.b.alias = name) (ho : s.only = only) (hf : s.b.filePath = []) (hd : s.b.dir = []) :
    run R (argLoop l) s = .ok l' { s with sh := sh', inh := inh' } := by
  induction h generalizing s with
  | nil sh inh => subst hs hi; rfl
  | @cons a x l l' sh sh1 sh2 inh inh1 inh2 hn _ ih =>
    subst hs hi ha ho
    simp only [argLoop, run_bind, run_ite, run_pure']
    have : (if contains bifOpen a = true then run R (childParse a false) s else Res.ok a s) =
        .ok x { s with sh := sh1, inh := inh1 } := by
      by_cases hc : contains bifOpen a = true
      · rw [if_pos hc, run_child_nested R a false s hf hd hc, hn]
      · rw [if_neg hc]
        unfold nested at hn
        rw [if_neg hc] at hn
        simp only [PRes.ok.injEq] at hn
        obtain ⟨rfl, rfl, rfl⟩ := hn
        rfl
    rw [this, andThen_ok, ih { s with sh := sh1, inh := inh1 } rfl rfl rfl rfl hf hd]
    rfl

theorem run_extractArgs (R : Rec) {name only : Str} {d : Char} {r : Str} {l' : List Str} {sh sh' : Shared}
    {inh inh' : Inherit} (h : ArgsGive R name only (splitChar d (d :: r)) sh inh l' sh' inh') (s : St)
    (hp : s.b.params = d :: r) (hs : s.sh = sh) (hi : s.inh = inh) (ha : s.b.alias = name) (ho : s.only = only)
    (hf : s.b.filePath = []) (hd : s.b.dir = []) :
    run R extractArgs s = .ok l' { s with sh := sh', inh := inh' } := by
  simp only [extractArgs, run_bind, run_getSt, andThen_ok, hp]
  exact run_argLoop R h s hs hi ha ho hf hd

@[simp] theorem run_argReq (R : Rec) (args : List Str) (i : Nat) (msg : Str) (s : St) :
    run R (argReq args i msg) s = match args[i]? with
      | some a => .ok a s
      | none => .err (errOf s msg) s := by
  unfold argReq
  cases args[i]? <;> rfl

/-- Result of a body that showed its code. -/
theorem bifResult_shown (env : Env) (R : Rec) (mods name c only : Str) (sh : Shared) (inh : Inherit) (s : St)
    (hs : s.sh = sh) (hi : s.inh = inh) (ha : s.b.alias = name) (hc : s.b.code = c) (ho : s.only = only)
    (hf : s.b.filePath = []) (hd : s.b.dir = []) (hu : s.b.modUpline = decide ('^' ∈ mods))
    (hsc : s.b.modScope = decide ('+' ∈ mods)) :
    bifResult env ((run R (parseCode s.b.modScope) s).andThen (fun _ s' => run R outCode s')) =
      shown R mods name c only sh inh := by
  subst hs hi ha hc ho
  rw [run_parseCode_nested R _ _ hf hd]
  unfold shown
  rw [hsc]
  cases nested R (decide ('+' ∈ mods)) s.sh s.inh s.b.alias s.b.code s.only with
  | ok x sh' inh' => simp [bifResult, bifFinish, finish, hu]
  | panic p => rfl
  | oof => rfl

/-- Result of a body that failed. -/
theorem bifResult_failed (env : Env) (mods name raw msg : Str) (sh : Shared) (inh : Inherit) (s : St)
    (hs : s.sh = sh) (hi : s.inh = inh) (ha : s.b.alias = name) (hr : s.raw = raw) (ho : s.b.out = [])
    (hu : s.b.modUpline = decide ('^' ∈ mods)) :
    bifResult env (.err (errOf s msg) s) = failed env mods name raw msg sh inh := by
  subst hs hi ha hr
  unfold failed
  simp only [bifResult]
  cases showErrors s.sh with
  | none => rfl
  | some b => simp [bifFinish, finish, hu, ho, errOf]

end Nts
