import Verif.Lemmas.Run
/-
How the common pieces of the BIF bodies run.
-/
set_option autoImplicit false
namespace Nts

@[simp] theorem run_denyMods (R : Rec) (bad : BifS → Bool) (s : St) :
    run R (denyMods bad) s = if bad s.b then .err (errOf s c!"modifier not allowed") s else .ok () s := by
  simp only [denyMods, run_bind, run_getSt, andThen_ok, run_ite, run_bifError, run_pure']

@[simp] theorem run_denyFlags (R : Rec) (s : St) :
    run R denyFlags s = if s.b.flags.isEmpty then .ok () s else .err (errOf s c!"flags not allowed") s := by
  simp only [denyFlags, run_bind, run_getSt, andThen_ok, run_ite, run_bifError, run_pure']

@[simp] theorem run_denyFlgParams (R : Rec) (s : St) :
    run R denyFlgParams s =
      if contains c!"{:flg;" s.b.params then .err (errOf s c!"flags not allowed") s else .ok () s := by
  simp only [denyFlgParams, run_bind, run_getSt, andThen_ok, run_ite, run_bifError, run_pure']

theorem run_checkFlags (R : Rec) (allowed : List Str) (s : St) :
    run R (checkFlags allowed) s = match badFlag s.b.flags allowed with
      | some f => .err (errOf s (f ++ c!" flag not allowed")) s
      | none => .ok () s := by
  simp only [checkFlags, run_bind, run_getSt, andThen_ok]
  cases badFlag s.b.flags allowed <;> simp

@[simp] theorem run_setData (R : Rec) (name value : Str) (s : St) :
    run R (setData name value) s = (step R (.setData name (.str value)) s).toRes := run_perform R _ s

theorem run_parseCode (R : Rec) (scope : Bool) (s : St) :
    run R (parseCode scope) s =
      if contains bifOpen s.b.code then
        (run R (childParse s.b.code scope) s).andThen (fun x s' => .ok () { s' with b := { s'.b with code := x } })
      else .ok () s := by
  simp only [parseCode, run_bind, run_getSt, andThen_ok, run_ite, run_pure', run_setCode]

/-- The fields after splitting at the separator, before evaluating the parameters. -/
def splitSrc (b : BifS) : BifS :=
  match getCodePosition b.src with
  | some p => { b with params := trim (b.src.take p), code := trim (b.src.drop (p + 2)) }
  | none => { b with params := [], code := trim b.src }

theorem run_extractParamsCode (R : Rec) (parse : Bool) (s : St) :
    run R (extractParamsCode parse) s =
      let b := splitSrc s.b
      let found := (getCodePosition s.b.src).isSome
      if parse && contains bifOpen b.params then
        (run R (childParse b.params false) { s with b := b, sh := { s.sh with flags := [] } }).andThen
          (fun x s' => .ok found { s' with b := { s'.b with params := x, flags := s'.sh.flags } })
      else .ok found { s with b := b } := by
  simp only [extractParamsCode, run_bind, run_getSt, andThen_ok, run_modB, run_ite, run_op_setFlags, step, toRes_ok,
    run_setParams, run_pure]
  rfl

/-- What `extract_params_code` leaves alone. -/
theorem extractParamsCode_ok {R : Rec} {parse : Bool} {s s1 : St} {found : Bool}
    (h : run R (extractParamsCode parse) s = .ok found s1) :
    found = (getCodePosition s.b.src).isSome ∧
    s1.b = { splitSrc s.b with params := s1.b.params, flags := s1.b.flags } ∧
    s1.inh = s.inh ∧ s1.raw = s.raw ∧ s1.only = s.only ∧
    (parse = false → s1 = { s with b := splitSrc s.b }) ∧
    (contains bifOpen (splitSrc s.b).params = false → s1 = { s with b := splitSrc s.b }) := by
  rw [run_extractParamsCode] at h
  dsimp only at h
  split at h
  · next hc =>
    obtain ⟨x, s', hx, hs⟩ := andThen_eq_ok h
    simp only [Res.ok.injEq] at hs
    obtain ⟨rfl, rfl⟩ := hs
    obtain ⟨h1, h2, h3, h4⟩ := run_childParse_ok hx
    refine ⟨rfl, ?_, ?_, h2, h3, ?_, ?_⟩
    · simp [h1]
    · simpa using h4
    · intro hp; simp [hp] at hc
    · intro hp; simp [hp] at hc
  · simp only [Res.ok.injEq] at h
    obtain ⟨rfl, rfl⟩ := h
    exact ⟨rfl, rfl, rfl, rfl, rfl, fun _ => rfl, fun _ => rfl⟩

theorem splitSrc_fields (b : BifS) :
    (splitSrc b).src = b.src ∧ (splitSrc b).name = b.name ∧ (splitSrc b).alias = b.alias ∧
    (splitSrc b).flags = b.flags ∧ (splitSrc b).modFilter = b.modFilter ∧ (splitSrc b).modNegate = b.modNegate ∧
    (splitSrc b).modUpline = b.modUpline ∧ (splitSrc b).modScope = b.modScope ∧
    (splitSrc b).filePath = b.filePath ∧ (splitSrc b).dir = b.dir ∧ (splitSrc b).out = b.out := by
  unfold splitSrc; split <;> simp

end Nts
