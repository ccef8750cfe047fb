import Verif.Props.Loop
/-
C58: eval.  C59: join.
-/
set_option autoImplicit false
namespace Nts
open Spec

/-- A nested block that is evaluated. -/
theorem run_child_ok {R : Rec} {scope : Bool} {sh sh1 : Shared} {inh inh1 : Inherit} {name src only x : Str} {b : BifS}
    {raw : Str} (hn : nested R scope sh inh name src only = .ok x sh1 inh1) (hf : b.filePath = []) (hd : b.dir = [])
    (ha : b.alias = name) (hc : contains c!"{:" src = true) :
    run R (childParse src scope) ⟨sh, inh, b, raw, only⟩ = .ok x ⟨sh1, inh1, b, raw, only⟩ := by
  rw [run_child_nested R src scope _ hf hd hc]
  dsimp only
  rw [ha, hn]

/-! ### C58 -/

theorem named_eval : Named c!"eval" := by
  refine ⟨by decide, ?_⟩
  intro c r hc
  injection hc with h1 h2
  subst h1
  decide

/-- The body of `eval` up to the evaluation of the parameters. -/
theorem eval_params (env : Env) (R : Rec) (sh sh1 : Shared) (inh inh1 : Inherit) (mods src only c x : Str)
    (p : Option Str) (hm : Mods mods) (hf : '&' ∉ mods) (hmax : sh.count < sh.max)
    (hsel : Selected inh mods c!"eval" only) (hparts : Parts src p c) (hflg : ¬ c!"{:flg;" <:+: p.getD [])
    (hx : nested R (decide ('+' ∈ mods)) (counted sh) (entered sh inh) c!"eval" (p.getD []) only = .ok x sh1 inh1) :
    ∃ s : St, s = ⟨sh1, inh1, { (start sh inh mods c!"eval" src only).b with params := x, code := c },
        (start sh inh mods c!"eval" src only).raw, only⟩ ∧
      runBif env R sh inh (bifText mods c!"eval" src) only = bifResult env (run R (
        if xor (!s.b.params.isEmpty) s.b.modNegate then do
          (if contains bifOpen s.b.code then do
            let restore := getData env s c!"__eval__"
            setData c!"__eval__" s.b.params
            let x ← childParse s.b.code s.b.modScope
            setCode x
            setData c!"__eval__" restore
          else .pure ())
          outCode
        else setOut []) s) := by
  refine ⟨_, rfl, ?_⟩
  rw [runBif_text env R sh inh mods c!"eval" src only hm named_eval hmax hsel]
  have hbody : bifBody env c!"eval" = bifEval env := rfl
  rw [hbody]
  unfold bifEval
  simp only [run_bind, run_denyMods]
  rw [if_neg (by simp [start, hf]), andThen_ok, run_extract_plain R false hparts _ rfl (by simp)]
  have hflg' : contains c!"{:flg;" (p.getD []) = false := (contains_false_iff (by simp)).2 hflg
  simp only [andThen_ok, run_denyFlgParams, hflg', Bool.false_eq_true, if_false, run_getSt]
  by_cases hc : contains c!"{:" (p.getD []) = true
  · rw [run_ite, if_pos (by exact hc)]
    simp only [run_bind]
    have h1 := run_child_ok (b := { (start sh inh mods c!"eval" src only).b with params := p.getD [], code := c })
      (raw := (start sh inh mods c!"eval" src only).raw) hx rfl rfl rfl hc
    refine (congrArg (fun r => bifResult env (Res.andThen (Res.andThen r _) _)) h1).trans ?_
    rfl
  · rw [run_ite, if_neg (by exact hc)]
    unfold nested at hx
    rw [if_neg hc] at hx
    simp only [PRes.ok.injEq] at hx
    obtain ⟨rfl, rfl, rfl⟩ := hx
    rfl

/-- **C58 (shown).** `{:eval; p >> c :}` whose parameters give the text `x`: when `x` is not empty (is empty, with `!`) the
code is evaluated with the variable `__eval__` set to `x`, and that is the output; afterwards `__eval__` is the text of
the value it had before. -/
theorem C58_shown (env : Env) (R : Rec) (sh sh1 sh2 sh3 sh4 : Shared) (inh inh1 inh3 : Inherit) (mods src only c x y : Str)
    (p : Option Str) (hm : Mods mods) (hf : '&' ∉ mods) (hmax : sh.count < sh.max)
    (hsel : Selected inh mods c!"eval" only) (hparts : Parts src p c) (hflg : ¬ c!"{:flg;" <:+: p.getD [])
    (hx : nested R (decide ('+' ∈ mods)) (counted sh) (entered sh inh) c!"eval" (p.getD []) only = .ok x sh1 inh1)
    (hcond : (x ≠ [] ∧ '!' ∉ mods) ∨ (x = [] ∧ '!' ∈ mods)) (hc : c!"{:" <:+: c)
    (hset : VarSet sh1 c!"__eval__" (.str x) sh2)
    (hy : nested R (decide ('+' ∈ mods)) sh2 inh1 c!"eval" c only = .ok y sh3 inh3)
    (hback : VarSet sh3 c!"__eval__" (.str (shownVar env sh1 c!"__eval__")) sh4) :
    runBif env R sh inh (bifText mods c!"eval" src) only = finish (decide ('^' ∈ mods)) y sh4 inh3 := by
  obtain ⟨s, hs, h⟩ := eval_params env R sh sh1 inh inh1 mods src only c x p hm hf hmax hsel hparts hflg hx
  rw [h]
  have hc' : contains c!"{:" c = true := (contains_iff (by simp)).2 hc
  subst hs
  rw [if_pos (by
    simp only [start]
    rcases hcond with ⟨h1, h2⟩ | ⟨h1, h2⟩
    · cases x with
      | nil => exact absurd rfl h1
      | cons => simp [h2]
    · simp [h1, h2]), if_pos (by exact hc')]
  simp only [run_bind]
  have h1 := step_setData (R := R) (s := ⟨sh1, inh1, { (start sh inh mods c!"eval" src only).b with params := x, code := c },
        (start sh inh mods c!"eval" src only).raw, only⟩) hset
  refine (congrArg (fun r => bifResult env (Res.andThen (Res.andThen r _) _)) h1).trans ?_
  rw [andThen_ok]
  have h2 := run_child_ok (b := { (start sh inh mods c!"eval" src only).b with params := x, code := c })
    (raw := (start sh inh mods c!"eval" src only).raw) hy rfl rfl rfl hc'
  refine (congrArg (fun r => bifResult env (Res.andThen (Res.andThen r _) _)) h2).trans ?_
  dsimp only
  rw [andThen_ok]
  simp only [run_setCode, andThen_ok]
  have h3 := step_setData (R := R) (s := ⟨sh3, inh3, { (start sh inh mods c!"eval" src only).b with params := x, code := y },
        (start sh inh mods c!"eval" src only).raw, only⟩) hback
  refine (congrArg (fun r => bifResult env (Res.andThen r _)) h3).trans ?_
  rfl

/-- **C58 (shown).** A code without BIFs is printed as it is. -/
theorem C58_plain (env : Env) (R : Rec) (sh sh1 : Shared) (inh inh1 : Inherit) (mods src only c x : Str)
    (p : Option Str) (hm : Mods mods) (hf : '&' ∉ mods) (hmax : sh.count < sh.max)
    (hsel : Selected inh mods c!"eval" only) (hparts : Parts src p c) (hflg : ¬ c!"{:flg;" <:+: p.getD [])
    (hx : nested R (decide ('+' ∈ mods)) (counted sh) (entered sh inh) c!"eval" (p.getD []) only = .ok x sh1 inh1)
    (hcond : (x ≠ [] ∧ '!' ∉ mods) ∨ (x = [] ∧ '!' ∈ mods)) (hc : ¬ c!"{:" <:+: c) :
    runBif env R sh inh (bifText mods c!"eval" src) only = finish (decide ('^' ∈ mods)) c sh1 inh1 := by
  obtain ⟨s, hs, h⟩ := eval_params env R sh sh1 inh inh1 mods src only c x p hm hf hmax hsel hparts hflg hx
  rw [h]
  have hc' : contains c!"{:" c = false := (contains_false_iff (by simp)).2 hc
  subst hs
  rw [if_pos (by
    simp only [start]
    rcases hcond with ⟨h1, h2⟩ | ⟨h1, h2⟩
    · cases x with
      | nil => exact absurd rfl h1
      | cons => simp [h2]
    · simp [h1, h2]), if_neg (by simp only; exact fun h => Bool.noConfusion (hc'.symm.trans h))]
  rfl

/-- **C58 (hidden).** Otherwise nothing is printed and the code is not evaluated: the state is the one the parameters
left. -/
theorem C58_hidden (env : Env) (R : Rec) (sh sh1 : Shared) (inh inh1 : Inherit) (mods src only c x : Str)
    (p : Option Str) (hm : Mods mods) (hf : '&' ∉ mods) (hmax : sh.count < sh.max)
    (hsel : Selected inh mods c!"eval" only) (hparts : Parts src p c) (hflg : ¬ c!"{:flg;" <:+: p.getD [])
    (hx : nested R (decide ('+' ∈ mods)) (counted sh) (entered sh inh) c!"eval" (p.getD []) only = .ok x sh1 inh1)
    (hcond : (x = [] ∧ '!' ∉ mods) ∨ (x ≠ [] ∧ '!' ∈ mods)) :
    runBif env R sh inh (bifText mods c!"eval" src) only = hidden mods sh1 inh1 := by
  obtain ⟨s, hs, h⟩ := eval_params env R sh sh1 inh inh1 mods src only c x p hm hf hmax hsel hparts hflg hx
  rw [h]
  subst hs
  rw [if_neg (by
    simp only [start]
    rcases hcond with ⟨h1, h2⟩ | ⟨h1, h2⟩
    · simp [h1, h2]
    · cases x with
      | nil => exact absurd rfl h1
      | cons => simp [h2])]
  rfl

/-- **C58 (flags).** Flags are refused before anything is evaluated. -/
theorem C58_flags (env : Env) (R : Rec) (sh : Shared) (inh : Inherit) (mods src only c : Str)
    (p : Option Str) (hm : Mods mods) (hf : '&' ∉ mods) (hmax : sh.count < sh.max)
    (hsel : Selected inh mods c!"eval" only) (hparts : Parts src p c) (hflg : c!"{:flg;" <:+: p.getD []) :
    runBif env R sh inh (bifText mods c!"eval" src) only =
      failed env mods c!"eval" (bifText mods c!"eval" src) c!"flags not allowed" (counted sh) (entered sh inh) := by
  rw [runBif_text env R sh inh mods c!"eval" src only hm named_eval hmax hsel]
  have hbody : bifBody env c!"eval" = bifEval env := rfl
  rw [hbody]
  unfold bifEval
  simp only [run_bind, run_denyMods]
  rw [if_neg (by simp [start, hf]), andThen_ok, run_extract_plain R false hparts _ rfl (by simp)]
  have hflg' : contains c!"{:flg;" (p.getD []) = true := (contains_iff (by simp)).2 hflg
  simp only [andThen_ok, run_denyFlgParams, hflg', if_true, andThen_err]
  exact bifResult_failed env mods c!"eval" _ _ _ _ _ rfl rfl rfl rfl rfl rfl

set_option maxRecDepth 10000 in
/-- The premises are met: shown with the result, hidden, negated, nested; the number before becomes its text. -/
example : Sample.outOf (Sample.go [(c!"x", .str c!"X"), (c!"e", .str []), (c!"__eval__", .num (.int 7))]
    c!"[{:eval; {:;x:} >> ({:;__eval__:}) :}][{:eval; {:;e:} >> a{:;x:} :}][{:!eval; {:;e:} >> n{:;__eval__:} :}][{:;__eval__:}]") =
      some (c!"[(X)][][n][7]", c!"200") := by
  decide +kernel

end Nts
