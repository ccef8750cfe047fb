import Verif.Model.Venv
import Verif.Props.Python
/-
C84: virtual environments of Python objects.
-/
set_option autoImplicit false
namespace Nts.Py

/-- **C84 (missing).** An object whose environment is not there, or has no Python, is an error; nothing runs and nothing
changes. -/
theorem C84_missing (S : Scripts) (H : Host) (P : Proc) (c : ObjCall) (venv : Str) (hc : c.venv = some venv)
    (h : H.exists_ venv = false ∨ H.exists_ (venv ++ c!"/bin/python") = false) :
    ∃ e, execIn S H P c = (P, .error e) := by
  unfold execIn
  rw [hc]
  by_cases h1 : H.exists_ venv = false
  · have : setupVenv H P.vars venv = (P.vars, .error (c!"Venv path '" ++ venv ++ c!"' does not exist")) := by
      unfold setupVenv
      rw [if_pos (by simp [h1])]
    simp only [this]
    exact ⟨_, rfl⟩
  · have h2 : H.exists_ (venv ++ c!"/bin/python") = false := h.resolve_left h1
    have : setupVenv H P.vars venv = (P.vars, .error (c!"Python executable not found: " ++ (venv ++ c!"/bin/python"))) := by
      unfold setupVenv
      rw [if_neg (by simpa using h1)]
      simp only
      rw [if_pos (by simp [h2])]
    simp only [this]
    exact ⟨_, rfl⟩

/-- A virtual environment that can be used, and the search path its Python reports. -/
def Usable (H : Host) (venv home path : Str) : Prop :=
  H.exists_ venv = true ∧ H.exists_ (venv ++ c!"/bin/python") = true ∧
    ∃ out rest, H.probe (venv ++ c!"/bin/python") = .ok (true, out) ∧ splitChar '\n' (trim out) = home :: path :: rest

theorem setup_usable {H : Host} {venv home path : Str} (vars : Vars) (h : Usable H venv home path) :
    setupVenv H vars venv = (⟨some (venv ++ c!"/bin/python"), some venv, some home, some path⟩, .ok ()) := by
  obtain ⟨h1, h2, out, rest, h3, h4⟩ := h
  unfold setupVenv
  rw [if_neg (by simp [h1])]
  simp only
  rw [if_neg (by simp [h2]), h3]
  simp only
  rw [if_pos trivial, h4]

theorem tstep_path (S : Scripts) (I : Interp) (t : Thread) :
    (tstep S I t).1.path = if t.pc = .path then I.path ++ [S.dir t.args.file] else I.path := by
  unfold tstep
  split
  · next h => rw [if_pos h]
  · next h =>
    rw [if_neg (by rw [h]; decide)]
    split
    · rfl
    · split
      · rfl
      · next h' => exact import_path h'
  all_goals next h =>
    rw [if_neg (by rw [h]; decide)]
    try rfl
    try (dsimp only; split <;> rfl)
    try (split <;> try rfl)
    try (split <;> rfl)

theorem tstep_left (S : Scripts) (I : Interp) (t : Thread) : (tstep S I t).2.pc ≠ .path := by
  unfold tstep
  split
  · simp
  · split
    · simp [Thread.fail]
    · split <;> simp [Thread.fail]
  · simp
  · simp
  · simp
  · simp
  · split
    · simp [Thread.fail]
    · split <;> simp [Thread.fail]
  · next h => rw [h]; decide

theorem execPy_path (S : Scripts) (I : Interp) (c : ObjCall) : (execPy S I c).1.path = I.path ++ [S.dir c.file] := by
  unfold execPy
  dsimp only
  have h0 : (tstep S I (Thread.new c)).1.path = I.path ++ [S.dir c.file] := by rw [tstep_path]; rfl
  have step : ∀ (p : Interp × Thread), p.2.pc ≠ .path → (tstep S p.1 p.2).1.path = p.1.path := by
    intro p hp
    rw [tstep_path, if_neg hp]
  rw [step _ (tstep_left _ _ _), step _ (tstep_left _ _ _), step _ (tstep_left _ _ _), step _ (tstep_left _ _ _),
    step _ (tstep_left _ _ _), step _ (tstep_left _ _ _), h0]

/-- **C84 (first object).** The first Python object of a process runs with the packages of its environment: the interpreter
is started with the search path the environment's Python reports.  Missing from the property: later objects, see
`C84_ignored` and `C84_refuted`. -/
theorem C84_first_partial (S : Scripts) (H : Host) (P : Proc) (c : ObjCall) (venv home path : Str) (hc : c.venv = some venv)
    (hu : Usable H venv home path) (hn : P.interp = none) :
    ∃ I, (execIn S H P c).1.interp = some I ∧
      I.path = H.startPath ⟨some (venv ++ c!"/bin/python"), some venv, some home, some path⟩ ++ [S.dir c.file] := by
  unfold execIn
  rw [hc]
  simp only [setup_usable _ hu, hn, startUp]
  exact ⟨_, rfl, by rw [execPy_path]⟩

/-- The same call without its environment. -/
def without (c : ObjCall) : ObjCall := { c with venv := none }

/-- The same thread with the arguments of another environment. -/
def Thread.bare (t : Thread) : Thread := { t with args := without t.args }

theorem tstep_bare (S : Scripts) (I : Interp) (t : Thread) :
    tstep S I t.bare = ((tstep S I t).1, (tstep S I t).2.bare) := by
  obtain ⟨args, pc, ran, result⟩ := t
  cases pc
  case load =>
    unfold tstep
    dsimp only [Thread.bare, without]
    cases S.stem args.file with
    | none => rfl
    | some name => dsimp only; cases importModule S I name <;> rfl
  case call =>
    unfold tstep
    dsimp only [Thread.bare, without]
    cases I.modules ((S.stem args.file).getD []) with
    | none => rfl
    | some m =>
      dsimp only
      by_cases hd : S.defines m.file args.callback = true
      · refine (if_pos hd).trans ?_
        rw [if_pos hd]
        rfl
      · refine (if_neg hd).trans ?_
        rw [if_neg hd]
        rfl
  all_goals rfl

theorem execPy_bare (S : Scripts) (I : Interp) (c : ObjCall) :
    execPy S I (without c) = ((execPy S I c).1, (execPy S I c).2.bare) := by
  unfold execPy
  dsimp only
  have h : Thread.new (without c) = (Thread.new c).bare := rfl
  simp only [h, tstep_bare]

/-- **C84 (later objects).** Once an object has run in the process, the environment of an object has no effect: with any
usable environment it gives the same result, and leaves the same interpreter, as without one. -/
theorem C84_ignored (S : Scripts) (H : Host) (P : Proc) (I : Interp) (c : ObjCall) (venv home path : Str)
    (hc : c.venv = some venv) (hu : Usable H venv home path) (hi : P.interp = some I) :
    (execIn S H P c).2 = (execIn S H P (without c)).2 ∧
      (execIn S H P c).1.interp = (execIn S H P (without c)).1.interp := by
  unfold execIn
  rw [hc]
  simp only [setup_usable _ hu, hi, startUp]
  rw [execPy_bare]
  exact ⟨rfl, rfl⟩

/-- **C84 (search path).** After any history of objects that starts with an interpreter, the search path is the one it had,
followed by directories of scripts: no environment adds anything. -/
theorem C84_path (S : Scripts) (H : Host) (calls : List ObjCall) (P : Proc) (I : Interp) (hi : P.interp = some I) :
    ∃ (I' : Interp) (l : List Str), (history S H P calls).interp = some I' ∧ I'.path = I.path ++ l ∧
      ∀ d ∈ l, ∃ c ∈ calls, d = S.dir c.file := by
  induction calls generalizing P I with
  | nil => exact ⟨I, [], hi, by simp, by simp⟩
  | cons c r ih =>
    have key : (execIn S H P c).1.interp = some I ∨
        ∃ I1, (execIn S H P c).1.interp = some I1 ∧ I1.path = I.path ++ [S.dir c.file] := by
      unfold execIn
      dsimp only
      split
      · exact .inl hi
      · refine .inr ⟨_, rfl, ?_⟩
        rw [execPy_path, hi]
        rfl
    rcases key with h | ⟨I1, h, hp⟩
    · obtain ⟨I', l, h1, h2, h3⟩ := ih _ _ h
      exact ⟨I', l, h1, h2, fun d hd => (h3 d hd).imp fun x hx => ⟨List.mem_cons_of_mem _ hx.1, hx.2⟩⟩
    · obtain ⟨I', l, h1, h2, h3⟩ := ih _ _ h
      refine ⟨I', S.dir c.file :: l, h1, by rw [h2, hp]; simp, ?_⟩
      intro d hd
      rcases List.mem_cons.1 hd with rfl | hd
      · exact ⟨c, by simp, rfl⟩
      · exact (h3 d hd).imp fun x hx => ⟨List.mem_cons_of_mem _ hx.1, hx.2⟩

/-! ### examples -/

/-- A host with two environments, `/a` and `/b`, whose packages are in `/a/lib` and `/b/lib`. -/
def exHost : Host where
  exists_ := fun p => p == c!"/a" || p == c!"/b" || p == c!"/a/bin/python" || p == c!"/b/bin/python"
  probe := fun p => .ok (true, p.take 2 ++ ['\n'] ++ p.take 2 ++ c!"/lib" ++ ['\n'])
  startPath := fun v => v.path.toList
  startModules := fun _ => none

/-- Scripts that can be loaded, whose functions return null. -/
def exVenvScripts : Scripts where
  stem := fun f => some f
  dir := fun _ => c!"/s"
  provides := fun d f => if d = c!"/s" then some f else none
  loadErr := fun _ => none
  defines := fun _ _ => true
  call := fun _ _ _ _ _ => .ok .null

/-- An object in the environment. -/
def exObj (venv : Str) : ObjCall := ⟨true, c!"f.py", .null, c!"main", none, none, some venv, []⟩

/-- The process at its start. -/
def exProc : Proc := ⟨⟨none, none, none, none⟩, none⟩

example : Usable exHost c!"/a" c!"/a" c!"/a/lib" ∧ Usable exHost c!"/b" c!"/b" c!"/b/lib" :=
  ⟨⟨rfl, rfl, _, [], rfl, by decide⟩, ⟨rfl, rfl, _, [], rfl, by decide⟩⟩

example : exHost.exists_ c!"/c" = false := rfl

/-- **C84 (refuted).** The second object names the environment `/b` and runs with the packages of `/a`. -/
theorem C84_refuted :
    ((history exVenvScripts exHost exProc [exObj c!"/a", exObj c!"/b"]).interp.map (·.path)) = some [c!"/a/lib", c!"/s", c!"/s"] ∧
    (history exVenvScripts exHost exProc [exObj c!"/a", exObj c!"/b"]).vars.virtualEnv = some c!"/b" := by
  decide

end Nts.Py
