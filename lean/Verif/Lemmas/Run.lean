import Verif.Model.Interp
/-
Symbolic execution of BIF bodies: how `run` goes through the monadic operations.
-/
set_option autoImplicit false
namespace Nts

/-- Sequencing of results. -/
def Res.andThen {α β : Type} (r : Res α) (f : α → St → Res β) : Res β :=
  match r with
  | .ok a s => f a s
  | .err e s => .err e s
  | .panic p => .panic p
  | .oof => .oof

theorem run_bind' (R : Rec) {α β : Type} (p : Prog α) (f : α → Prog β) (s : St) :
    run R (p.bind f) s = (run R p s).andThen (fun a s' => run R (f a) s') := by
  induction p generalizing s with
  | pure a => rfl
  | throw e => rfl
  | panic p => rfl
  | op o k ih =>
    simp only [Prog.bind, run]
    cases step R o s with
    | ok r s' => exact ih r s'
    | panic p => rfl
    | oof => rfl

@[simp] theorem run_bind (R : Rec) {α β : Type} (p : Prog α) (f : α → Prog β) (s : St) :
    run R (p >>= f) s = (run R p s).andThen (fun a s' => run R (f a) s') := run_bind' R p f s

@[simp] theorem run_bind'' (R : Rec) {α β : Type} (p : Prog α) (f : α → Prog β) (s : St) :
    run R (Prog.bind p f) s = (run R p s).andThen (fun a s' => run R (f a) s') := run_bind' R p f s

@[simp] theorem andThen_ok {α β : Type} (a : α) (s : St) (f : α → St → Res β) :
    (Res.ok a s).andThen f = f a s := rfl
@[simp] theorem andThen_err {α β : Type} (e : BifErr) (s : St) (f : α → St → Res β) :
    (Res.err e s).andThen f = .err e s := rfl
@[simp] theorem andThen_panic {α β : Type} (p : Panic) (f : α → St → Res β) :
    (Res.panic p : Res α).andThen f = .panic p := rfl
@[simp] theorem andThen_oof {α β : Type} (f : α → St → Res β) : (Res.oof : Res α).andThen f = .oof := rfl

@[simp] theorem run_pure (R : Rec) {α : Type} (a : α) (s : St) : run R (pure a) s = .ok a s := rfl
@[simp] theorem run_pure' (R : Rec) {α : Type} (a : α) (s : St) : run R (Prog.pure a) s = .ok a s := rfl
@[simp] theorem run_throw (R : Rec) {α : Type} (e : BifErr) (s : St) :
    run R (Prog.throw e : Prog α) s = .err e s := rfl
@[simp] theorem run_panic (R : Rec) {α : Type} (p : Panic) (s : St) :
    run R (Prog.panic p : Prog α) s = .panic p := rfl

@[simp] theorem run_getSt (R : Rec) (s : St) : run R getSt s = .ok s s := rfl
@[simp] theorem run_modB (R : Rec) (f : BifS → BifS) (s : St) :
    run R (modB f) s = .ok () { s with b := f s.b } := rfl
@[simp] theorem run_setCode (R : Rec) (x : Str) (s : St) :
    run R (setCode x) s = .ok () { s with b := { s.b with code := x } } := rfl
@[simp] theorem run_setParams (R : Rec) (x : Str) (s : St) :
    run R (setParams x) s = .ok () { s with b := { s.b with params := x } } := rfl
@[simp] theorem run_setOut (R : Rec) (x : Str) (s : St) :
    run R (setOut x) s = .ok () { s with b := { s.b with out := x } } := rfl
@[simp] theorem run_setSrc (R : Rec) (x : Str) (s : St) :
    run R (setSrc x) s = .ok () { s with b := { s.b with src := x } } := rfl
@[simp] theorem run_setAlias (R : Rec) (x : Str) (s : St) :
    run R (setAlias x) s = .ok () { s with b := { s.b with alias := x } } := rfl
@[simp] theorem run_setFilePath (R : Rec) (x : Str) (s : St) :
    run R (setFilePath x) s = .ok () { s with b := { s.b with filePath := x } } := rfl
@[simp] theorem run_setDir (R : Rec) (x : Str) (s : St) :
    run R (setDir x) s = .ok () { s with b := { s.b with dir := x } } := rfl
@[simp] theorem run_outCode (R : Rec) (s : St) :
    run R outCode s = .ok () { s with b := { s.b with out := s.b.code } } := rfl
@[simp] theorem run_tick (R : Rec) (s : St) :
    run R tick s = .ok s.sh.w.tick { s with sh := { s.sh with w := { s.sh.w with tick := s.sh.w.tick + 1 } } } := rfl

/-- The error of a BIF in a state. -/
def errOf (s : St) (msg : Str) : BifErr := { msg := msg, name := s.b.alias, file := s.inh.currentFile, src := s.raw }

@[simp] theorem run_bifError (R : Rec) {α : Type} (msg : Str) (s : St) :
    run R (bifError msg : Prog α) s = .err (errOf s msg) s := rfl

/-- Result of an operation as a result of a program. -/
def ORes.toRes {α : Type} : ORes α → Res α
  | .ok a s => .ok a s
  | .panic p => .panic p
  | .oof => .oof

theorem run_perform (R : Rec) (o : Op) (s : St) : run R (perform o) s = (step R o s).toRes := by
  unfold perform
  simp only [run]
  cases step R o s <;> rfl

/-! Operations without an answer. -/

@[simp] theorem run_op_setInCache (R : Rec) (b : Bool) (s : St) :
    @run R Unit (perform (.setInCache b)) s = @ORes.toRes Unit (step R (.setInCache b) s) := run_perform R (.setInCache b) s

@[simp] theorem run_op_setLastCoalesce (R : Rec) (b : Bool) (s : St) :
    @run R Unit (perform (.setLastCoalesce b)) s = @ORes.toRes Unit (step R (.setLastCoalesce b) s) := run_perform R (.setLastCoalesce b) s

@[simp] theorem run_op_setCurrentDir (R : Rec) (d : Str) (s : St) :
    @run R Unit (perform (.setCurrentDir d)) s = @ORes.toRes Unit (step R (.setCurrentDir d) s) := run_perform R (.setCurrentDir d) s

@[simp] theorem run_op_pushFile (R : Rec) (k : FileKind) (p : Str) (s : St) :
    @run R Unit (perform (.pushFile k p)) s = @ORes.toRes Unit (step R (.pushFile k p) s) := run_perform R (.pushFile k p) s

@[simp] theorem run_op_setFlags (R : Rec) (f : Str) (s : St) :
    @run R Unit (perform (.setFlags f)) s = @ORes.toRes Unit (step R (.setFlags f) s) := run_perform R (.setFlags f) s

@[simp] theorem run_op_setStatus (R : Rec) (code param : Str) (s : St) :
    @run R Unit (perform (.setStatus code param)) s = @ORes.toRes Unit (step R (.setStatus code param) s) := run_perform R (.setStatus code param) s

@[simp] theorem run_op_setExit (R : Rec) (b : Bool) (s : St) :
    @run R Unit (perform (.setExit b)) s = @ORes.toRes Unit (step R (.setExit b) s) := run_perform R (.setExit b) s

@[simp] theorem run_op_setRedirectJs (R : Rec) (x : Str) (s : St) :
    @run R Unit (perform (.setRedirectJs x)) s = @ORes.toRes Unit (step R (.setRedirectJs x) s) := run_perform R (.setRedirectJs x) s

@[simp] theorem run_op_setAlreadyJs (R : Rec)  (s : St) :
    @run R Unit (perform (.setAlreadyJs)) s = @ORes.toRes Unit (step R (.setAlreadyJs) s) := run_perform R (.setAlreadyJs) s

@[simp] theorem run_op_setData (R : Rec) (name : Str) (v : Value) (s : St) :
    @run R Unit (perform (.setData name v)) s = @ORes.toRes Unit (step R (.setData name v) s) := run_perform R (.setData name v) s

@[simp] theorem run_op_setMoveto (R : Rec) (name : Str) (v : Value) (s : St) :
    @run R Unit (perform (.setMoveto name v)) s = @ORes.toRes Unit (step R (.setMoveto name v) s) := run_perform R (.setMoveto name v) s

@[simp] theorem run_op_createBlockSchema (R : Rec)  (s : St) :
    @run R Unit (perform (.createBlockSchema)) s = @ORes.toRes Unit (step R (.createBlockSchema) s) := run_perform R (.createBlockSchema) s

@[simp] theorem run_op_setIndir (R : Rec) (sec key : Str) (v : Value) (s : St) :
    @run R Unit (perform (.setIndir sec key v)) s = @ORes.toRes Unit (step R (.setIndir sec key v) s) := run_perform R (.setIndir sec key v) s

@[simp] theorem run_op_mergeIndir (R : Rec) (sec : Str) (v : Value) (s : St) :
    @run R Unit (perform (.mergeIndir sec v)) s = @ORes.toRes Unit (step R (.mergeIndir sec v) s) := run_perform R (.mergeIndir sec v) s

@[simp] theorem run_op_writeFile (R : Rec) (path content : Str) (mtime : Nat) (s : St) :
    @run R Unit (perform (.writeFile path content mtime)) s = @ORes.toRes Unit (step R (.writeFile path content mtime) s) := run_perform R (.writeFile path content mtime) s

@[simp] theorem run_op_childBlocks (R : Rec) (src : Str) (blocks : List (Nat × Nat)) (scope : Bool) (s : St) :
    @run R Str (perform (.childBlocks src blocks scope)) s = @ORes.toRes Str (step R (.childBlocks src blocks scope) s) :=
  run_perform R (.childBlocks src blocks scope) s

@[simp] theorem toRes_ok {α : Type} (a : α) (s : St) : (ORes.ok a s).toRes = .ok a s := rfl
@[simp] theorem toRes_panic {α : Type} (p : Panic) : (ORes.panic p : ORes α).toRes = .panic p := rfl
@[simp] theorem toRes_oof {α : Type} : (ORes.oof : ORes α).toRes = .oof := rfl

theorem run_childParse (R : Rec) (src : Str) (scope : Bool) (s : St) :
    run R (childParse src scope) s = (step R (.child src scope) s).toRes := run_perform R _ s

@[simp] theorem run_ite (R : Rec) {α : Type} (c : Prop) [Decidable c] (p q : Prog α) (s : St) :
    run R (if c then p else q) s = if c then run R p s else run R q s := by split <;> rfl

theorem andThen_assoc {α β γ : Type} (r : Res α) (f : α → St → Res β) (g : β → St → Res γ) :
    (r.andThen f).andThen g = r.andThen (fun a s => (f a s).andThen g) := by cases r <;> rfl

/-- Inversion of a successful sequence. -/
theorem andThen_eq_ok {α β : Type} {r : Res α} {f : α → St → Res β} {b : β} {s' : St}
    (h : r.andThen f = .ok b s') : ∃ a s, r = .ok a s ∧ f a s = .ok b s' := by
  cases r with
  | ok a s => exact ⟨a, s, rfl, h⟩
  | _ => simp at h

/-- `runChild` keeps the BIF's own fields and constants. -/
theorem runChild_ok {s s' : St} {scope : Bool} {f : Shared → Inherit → PRes} {out : Str}
    (h : runChild s scope f = .ok out s') :
    s'.b = s.b ∧ s'.raw = s.raw ∧ s'.only = s.only ∧
      s'.inh = (if scope then (createBlockSchema s.sh s.inh).2 else s.inh) := by
  unfold runChild at h
  dsimp only at h
  split at h
  · simp only [ORes.ok.injEq] at h
    obtain ⟨_, rfl⟩ := h
    refine ⟨rfl, rfl, rfl, ?_⟩
    cases scope <;> rfl
  · simp at h
  · simp at h

theorem step_child_ok {R : Rec} {s s' : St} {src : Str} {scope : Bool} {out : Str}
    (h : step R (.child src scope) s = .ok out s') :
    s'.b = s.b ∧ s'.raw = s.raw ∧ s'.only = s.only ∧
      s'.inh = (if scope then (createBlockSchema s.sh s.inh).2 else s.inh) := by
  simp only [step] at h
  exact runChild_ok h

theorem run_childParse_ok {R : Rec} {s s' : St} {src : Str} {scope : Bool} {out : Str}
    (h : run R (childParse src scope) s = .ok out s') :
    s'.b = s.b ∧ s'.raw = s.raw ∧ s'.only = s.only ∧
      s'.inh = (if scope then (createBlockSchema s.sh s.inh).2 else s.inh) := by
  rw [run_childParse] at h
  cases hs : step R (.child src scope) s with
  | ok a t =>
    rw [hs] at h
    simp only [ORes.toRes, Res.ok.injEq] at h
    obtain ⟨rfl, rfl⟩ := h
    exact step_child_ok hs
  | panic p => rw [hs] at h; simp [ORes.toRes] at h
  | oof => rw [hs] at h; simp [ORes.toRes] at h

end Nts
