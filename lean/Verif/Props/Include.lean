import Verif.Lemmas.Agree
import Verif.Props.Safe
import Verif.Props.AllowName
/-
C44: include with the safe flag.  C52: include once.
-/
set_option autoImplicit false
namespace Nts
open Spec

/-- The path a file name stands for: a leading `#` is the directory of the current template. -/
def Spec.pathOf (inh : Inherit) (p : Str) : Str :=
  match p with
  | '#' :: r => inh.currentDir ++ r
  | p => p

/-- `FileName R sh inh name c only path sh'`: the code `c` of the BIF `name` denotes the file `path`: either it is
literal, or it is computed by BIFs that are accepted (`Accepted`), which leaves the state `sh'`. -/
inductive Spec.FileName (R : Rec) (sh : Shared) (inh : Inherit) (name c only : Str) : Str → Shared → Prop
  | literal : ¬ c!"{:" <:+: c → FileName R sh inh name c only (pathOf inh c) sh
  | computed {p : Str} {sh' : Shared} {inh' : Inherit} : c!"{:" <:+: c → Accepted c →
      nested R false sh { inh with currentFile := c } name c only = .ok p sh' inh' →
      FileName R sh inh name c only (pathOf inh p) sh'

theorem run_child_file (R : Rec) (src : Str) (s : St) (hf : s.b.filePath ≠ []) (hd : s.b.dir = [])
    (hc : contains c!"{:" src = true) :
    run R (childParse src false) s =
      match nested R false s.sh { s.inh with currentFile := s.b.filePath } s.b.alias src s.only with
      | .ok x sh' _ => .ok x { s with sh := sh' }
      | .panic p => .panic p
      | .oof => .oof := by
  rw [run_childParse]
  simp only [step]
  unfold nested
  rw [if_pos hc]
  have hci : childInherit s =
      childInherit ⟨s.sh, { s.inh with currentFile := s.b.filePath }, { BifS.new with alias := s.b.alias }, [], s.only⟩ := by
    simp [childInherit, hf, hd, BifS.new]
  unfold runChild
  dsimp only
  rw [hci]
  simp only [Bool.false_eq_true, if_false]
  cases parseSrc R s.sh (childInherit ⟨s.sh, { s.inh with currentFile := s.b.filePath }, { BifS.new with alias := s.b.alias }, [], s.only⟩)
    src s.only <;> rfl

theorem hashPath_eq (s : St) (p : Str) : hashPath s p = pathOf s.inh p := by
  unfold hashPath pathOf
  split <;> split <;> simp_all

theorem run_resolveFilePath {R : Rec} {name only c path : Str} {sh' : Shared} (s : St)
    (h : FileName R s.sh s.inh name c only path sh') (hn : s.b.alias = name) (hc : s.b.code = c) (ho : s.only = only)
    (hd : s.b.dir = []) :
    run R resolveFilePath s = .ok () { s with sh := sh', b := { s.b with filePath := path } } := by
  subst hn hc ho
  unfold resolveFilePath
  simp only [run_bind, run_getSt, andThen_ok, run_setFilePath, run_ite]
  cases h with
  | literal h =>
    rw [if_neg (by simpa using (contains_false_iff (by decide)).2 h)]
    simp only [run_pure', andThen_ok, run_getSt, run_setFilePath, hashPath_eq]
  | computed h1 h2 h3 =>
    have hc := (contains_iff (p := c!"{:") (by decide)).2 h1
    rw [if_pos (by exact hc)]
    have ha : containsAllow s.b.code = some true := containsAllow_true h2
    have hra : requireAllow s.b.code c!"insecure file name" = .pure () := by
      unfold requireAllow
      rw [ha]
    simp only [hra, run_pure', andThen_ok]
    rw [run_child_file R s.b.code { s with b := { s.b with filePath := s.b.code } } (by
      intro h
      have h : s.b.code = [] := h
      rw [h] at h1
      exact absurd h1 (by decide)) hd hc]
    dsimp only
    rw [h3]
    simp only [andThen_ok, run_setFilePath, run_getSt, hashPath_eq]

theorem named_include : Named c!"include" := by
  refine ⟨by decide, ?_⟩
  intro c r hc
  injection hc with h1 h2
  subst h1
  decide

/-- The flags of `include`. -/
def Spec.includeFlags : List Str := [c!"require", c!"safe", c!"noparse"]

/-- The evaluation of an existing file by `include`. -/
def includeBody (env : Env) (s : St) (e : FileEntry) (canon : Str) : Prog Unit :=
  if s.b.modNegate && s.inh.includeFiles.contains canon then setOut []
  else
    if hasFlag s.b c!"safe" then do
      setCode (sanitizeBifs (reescape false (e.content.getD [])))
      outCode
    else if hasFlag s.b c!"noparse" then do
      setCode (e.content.getD [])
      outCode
    else do
      perform (.pushFile .incl canon)
      if contains c!"remove" s.sh.comments then
        match removeComments (e.content.getD []) with
        | none => .panic .bounds
        | some t => do
          let x ← childParse t true
          setOut x
      else do
        let x ← childParse (e.content.getD []) true
        setOut x

theorem runBif_include {env : Env} {R : Rec} {sh sh1 sh2 : Shared} {inh inh1 : Inherit} {mods src only c x path canon : Str}
    {p : Option Str} {e : FileEntry}
    (hm : Mods mods) (hf : '&' ∉ mods) (hsc : '+' ∉ mods) (hmax : sh.count < sh.max)
    (hsel : Selected inh mods c!"include" only) (hparts : Parts src p c)
    (hx : evalParams R (counted sh) (entered sh inh) c!"include" (p.getD []) only = .ok x sh1 inh1)
    (hflags : FlagsIn (flagsOf sh1 (p.getD [])) includeFlags)
    (hfile : FileName R sh1 inh1 c!"include" c only path sh2)
    (he : sh2.w.fs path = some e) (hcan : env.canon path = .ok canon) :
    ∃ s : St, runBif env R sh inh (bifText mods c!"include" src) only = bifResult env (run R (includeBody env s e canon) s) ∧
      s = { start sh inh mods c!"include" src only with
        sh := sh2, inh := inh1,
        b := { (start sh inh mods c!"include" src only).b with
          params := x, code := c, flags := flagsOf sh1 (p.getD []), filePath := path, dir := (env.parent path).getD [] } } := by
  refine ⟨_, ?_, rfl⟩
  rw [runBif_text env R sh inh mods c!"include" src only hm named_include hmax hsel]
  have hbody : bifBody env c!"include" = bifInclude env := rfl
  rw [hbody]
  unfold bifInclude
  simp only [run_bind, run_denyMods]
  rw [if_neg (by simp [start, hf, hsc])]
  simp only [andThen_ok]
  rw [run_extract R hparts _ rfl rfl rfl rfl]
  change bifResult env (Res.andThen (match evalParams R (counted sh) (entered sh inh) c!"include" (p.getD []) only with
    | .ok x sh' inh' => _
    | .panic p => _
    | .oof => _) _) = _
  rw [hx]
  simp only [andThen_ok, run_checkFlags]
  have hb := badFlag_none hflags
  unfold includeFlags at hb
  rw [hb]
  simp only [andThen_ok]
  rw [run_resolveFilePath _ hfile rfl rfl rfl rfl]
  simp only [andThen_ok, run_getSt, run_ite]
  rw [if_neg (by simp [fileExists, he])]
  simp only [run_bind, canonUnwrap, hcan]
  cases hpar : env.parent path with
  | none =>
    simp only [run_pure', andThen_ok, run_ite]
    unfold includeBody
    simp only [readFile, he, run_ite]
    rfl
  | some d =>
    simp only [run_setDir, run_pure', andThen_ok, run_ite]
    unfold includeBody
    simp only [readFile, he, run_ite]
    rfl


/-- **C44 (include).** With the flag `safe`, an existing file is not evaluated: the state is the one after the parameters
and the file name, what is printed is inert, and a browser shows the content (with its entities resolved once). -/
theorem C44_include (env : Env) (R : Rec) (sh sh1 sh2 : Shared) (inh inh1 : Inherit) (mods src only c x path canon : Str)
    (p : Option Str) (e : FileEntry) (content : Str)
    (hm : Mods mods) (hf : '&' ∉ mods) (hsc : '+' ∉ mods) (hmax : sh.count < sh.max)
    (hsel : Selected inh mods c!"include" only) (hparts : Parts src p c)
    (hx : evalParams R (counted sh) (entered sh inh) c!"include" (p.getD []) only = .ok x sh1 inh1)
    (hflags : FlagsIn (flagsOf sh1 (p.getD [])) includeFlags)
    (hsafe : Flag (flagsOf sh1 (p.getD [])) c!"safe")
    (hfile : FileName R sh1 inh1 c!"include" c only path sh2)
    (he : sh2.w.fs path = some e) (hcan : env.canon path = .ok canon) (hcont : e.content = some content)
    (honce : '!' ∈ mods → canon ∉ inh1.includeFiles) :
    ∃ y, runBif env R sh inh (bifText mods c!"include" src) only = finish (decide ('^' ∈ mods)) y sh2 inh1 ∧ Inert y ∧
      unescapeChars true y = unescapeChars false content := by
  obtain ⟨s, h1, hs⟩ := runBif_include hm hf hsc hmax hsel hparts hx hflags hfile he hcan
  refine ⟨_, ?_, inert_safe content, safe_shows content⟩
  rw [h1]
  unfold includeBody
  simp only [run_ite]
  rw [if_neg (by
    subst hs
    simp only [start, Bool.and_eq_true, List.contains_iff_mem, not_and]
    intro h
    exact honce (by simpa using h)), if_pos (by subst hs; rw [hasFlag_iff]; exact hsafe)]
  simp only [run_bind, run_setCode, andThen_ok, run_outCode, hcont, Option.getD_some]
  subst hs
  rfl

/-! ### C52 -/

/-- **C52 (skipped).** `{:!include; f :}` of a file already included prints nothing and evaluates nothing: the state is
the one after the parameters and the file name. -/
theorem C52_skipped (env : Env) (R : Rec) (sh sh1 sh2 : Shared) (inh inh1 : Inherit) (mods src only c x path canon : Str)
    (p : Option Str) (e : FileEntry)
    (hm : Mods mods) (hf : '&' ∉ mods) (hsc : '+' ∉ mods) (hneg : '!' ∈ mods) (hmax : sh.count < sh.max)
    (hsel : Selected inh mods c!"include" only) (hparts : Parts src p c)
    (hx : evalParams R (counted sh) (entered sh inh) c!"include" (p.getD []) only = .ok x sh1 inh1)
    (hflags : FlagsIn (flagsOf sh1 (p.getD [])) includeFlags)
    (hfile : FileName R sh1 inh1 c!"include" c only path sh2)
    (he : sh2.w.fs path = some e) (hcan : env.canon path = .ok canon) (hin : canon ∈ inh1.includeFiles) :
    runBif env R sh inh (bifText mods c!"include" src) only = hidden mods sh2 inh1 := by
  obtain ⟨s, h1, hs⟩ := runBif_include hm hf hsc hmax hsel hparts hx hflags hfile he hcan
  rw [h1]
  unfold includeBody
  simp only [run_ite]
  rw [if_pos (by
    subst hs
    simp only [start, Bool.and_eq_true, List.contains_iff_mem]
    exact ⟨by simpa using hneg, hin⟩)]
  subst hs
  rfl

theorem mem_include_step (R : Rec) (f : Str) (o : Op) (s : St) (r : o.Resp) (s' : St) (hi : f ∈ s.inh.includeFiles)
    (h : step R o s = .ok r s') : f ∈ s'.inh.includeFiles := by
  cases o with
  | setData name v => obtain ⟨x, _, rfl⟩ := oresOpt_map h; exact hi
  | setMoveto name v => obtain ⟨x, _, rfl⟩ := oresOpt_map h; exact hi
  | setIndir sec key v => obtain ⟨x, _, rfl⟩ := oresOpt_map h; exact hi
  | mergeIndir sec v => obtain ⟨x, _, rfl⟩ := oresOpt_map h; exact hi
  | child src scope =>
    simp only [step] at h
    rw [(runChild_ok h).2.2.2]
    cases scope <;> exact hi
  | childBlocks src bs scope =>
    simp only [step] at h
    rw [(runChild_ok h).2.2.2]
    cases scope <;> exact hi
  | createBlockSchema => simp only [step, ORes.ok.injEq] at h; rw [← h.2]; exact hi
  | pushFile k p =>
    cases k <;> (simp only [step, ORes.ok.injEq] at h; rw [← h.2]; simp [hi])
  | _ => simp only [step, ORes.ok.injEq] at h; rw [← h.2]; exact hi

/-- The state of a scope that has included the file `f`. -/
def Spec.Included (f : Str) (_ : Shared) (inh : Inherit) : Prop := f ∈ inh.includeFiles

theorem included_stays (R : Rec) (f : Str) : Stays R (fun _ => True) (Included f) where
  step o s r s' _ hi h := mem_include_step R f o s r s' hi h
  child s scope hi := hi

theorem included_books (f : Str) : Books (Included f) where
  count _ _ h _ := h
  only _ _ h := h
  err _ _ _ h := h
  tick _ _ h := h
  out _ _ _ h := h

/-- **C52 (remembered).** After a successful `{:include; f :}` or `{:!include; f :}` (without the flags that print the
file as text) of an existing file, the file counts as included in this scope. -/
theorem C52_remembered (env : Env) (R : Rec) (sh sh1 sh2 sh3 : Shared) (inh inh1 inh3 : Inherit)
    (mods src only c x path canon out : Str) (p : Option Str) (e : FileEntry)
    (hm : Mods mods) (hf : '&' ∉ mods) (hsc : '+' ∉ mods) (hmax : sh.count < sh.max)
    (hsel : Selected inh mods c!"include" only) (hparts : Parts src p c)
    (hx : evalParams R (counted sh) (entered sh inh) c!"include" (p.getD []) only = .ok x sh1 inh1)
    (hflags : FlagsIn (flagsOf sh1 (p.getD [])) includeFlags)
    (hsafe : ¬ Flag (flagsOf sh1 (p.getD [])) c!"safe") (hnop : ¬ Flag (flagsOf sh1 (p.getD [])) c!"noparse")
    (hfile : FileName R sh1 inh1 c!"include" c only path sh2)
    (he : sh2.w.fs path = some e) (hcan : env.canon path = .ok canon)
    (hrun : runBif env R sh inh (bifText mods c!"include" src) only = .ok out sh3 inh3) :
    Included canon sh3 inh3 := by
  obtain ⟨s, h1, hs⟩ := runBif_include hm hf hsc hmax hsel hparts hx hflags hfile he hcan
  rw [h1] at hrun
  have hpost : (run R (includeBody env s e canon) s).Post (fun s' => Included canon s'.sh s'.inh) := by
    unfold includeBody
    simp only [run_ite]
    split
    · next hc =>
      rw [Bool.and_eq_true, List.contains_iff_mem] at hc
      exact hc.2
    · rw [if_neg (by subst hs; rw [hasFlag_iff]; exact hsafe), if_neg (by subst hs; rw [hasFlag_iff]; exact hnop)]
      exact run_stays (included_stays R canon) _ (OpsIn_true _)
        { s with inh := { s.inh with includeFiles := s.inh.includeFiles ++ [canon] } } (by simp [Included])
  revert hrun hpost
  generalize run R (includeBody env s e canon) s = res
  intro hrun hpost
  cases res with
  | ok a s =>
    simp only [bifResult, bifFinish, PRes.ok.injEq] at hrun
    rw [← hrun.2.2]
    exact hpost
  | err e s =>
    simp only [bifResult] at hrun
    split at hrun
    · simp at hrun
    · simp only [bifFinish, PRes.ok.injEq] at hrun
      rw [← hrun.2.2]
      exact hpost
  | panic p => simp [bifResult] at hrun
  | oof => simp [bifResult] at hrun

/-- **C52 (kept).** A file included in a scope counts as included for all the rest of that scope, whatever BIFs follow. -/
theorem C52_kept (env : Env) (n : Nat) (f src only out x : Str) (bs : List (Nat × Nat)) (prevEnd : Nat) (sh sh' : Shared)
    (inh inh' : Inherit) (hi : Included f sh inh)
    (h : blocksGo env (runBlocks env n) src only prevEnd out bs sh inh = .ok x sh' inh') : Included f sh' inh' := by
  have := blocksGo_stays (included_books f) env (R := runBlocks env n)
    (fun name s hi => run_stays (included_stays _ f) _ (OpsIn_true _) s hi) src only bs prevEnd out sh inh hi
  rw [h] at this
  exact this

/-- The recursive evaluation that gives up with the result `z` on any block that is evaluated while `f` does not count as
included. -/
def Spec.checked (env : Env) (f : Str) (z : PRes) : Nat → Rec
  | 0 => fun _ _ _ _ _ => .oof
  | n + 1 => fun sh inh src bs only =>
    if f ∈ inh.includeFiles then blocksGo env (checked env f z n) src only 0 [] bs sh inh else z

/-- **C52 (inherited).** A file included in a scope counts as included in every block nested in the rest of that scope, at
any depth: the evaluation that gives up (in any way) on every block for which `f` is not included is no different. -/
theorem C52_inherited (env : Env) (z : PRes) (n : Nat) (f src only : Str) (bs : List (Nat × Nat)) (sh : Shared) (inh : Inherit)
    (hi : Included f sh inh) : runBlocks env n sh inh src bs only = checked env f z n sh inh src bs only := by
  induction n generalizing sh inh src bs only with
  | zero => rfl
  | succ n ih =>
    simp only [runBlocks, checked]
    rw [if_pos (show f ∈ inh.includeFiles from hi)]
    have hst := included_stays (runBlocks env n) f
    exact blocksGo_agree (included_books f) rfl
      (fun name s hi => run_agree hst (fun sh inh src bs only hi => ih src only bs sh inh hi) _ (OpsIn_true _) s hi)
      (fun name s hi => run_stays hst _ (OpsIn_true _) s hi) src only bs 0 [] sh inh hi

/-- The sample template with two files: `a.ntpl` prints a variable, `b.ntpl` includes `a.ntpl` once. -/
def Sample.files : World :=
  ⟨fun p => if p = c!"a.ntpl" then some (Sample.file c!"<{:;x:}>") else if p = c!"b.ntpl" then some (Sample.file c!"b{:!include; a.ntpl :}") else none, 0⟩

/-- Render with these files. -/
def Sample.goFiles (data : Obj) (src : Str) : RRes :=
  (Sample.tpl (Sample.schema 1000 data Sample.inherit) src).render Sample.env 10 Sample.files

/-- The first inclusion evaluates, the second (also from another file) does not; `include` without `!` evaluates again; with
`safe` the text of the file is printed. -/
example : Sample.outOf (Sample.goFiles [(c!"x", .str c!"X")]
      c!"{:!include; a.ntpl :}|{:!include; a.ntpl :}|{:include; b.ntpl :}|{:include; a.ntpl :}") = some (c!"<X>||b|<X>", c!"200") ∧
    Sample.outOf (Sample.goFiles [(c!"x", .str c!"X")] c!"{:include; {:flg; safe :} >> a.ntpl :}") =
      some (c!"&lt;&#123;:;x:&#125;&gt;", c!"200") := by
  constructor <;> decide +kernel

/-- The hypotheses about file names can be met, literally and by computation. -/
example (R : Rec) (sh : Shared) (inh : Inherit) :
    FileName R sh inh c!"include" c!"#/a.ntpl" [] (inh.currentDir ++ c!"/a.ntpl") sh := .literal (by decide)

/-- What remains: inclusions made inside a nested block are forgotten after that block, so that a file included there is
evaluated again. -/
theorem C52_nested_forgotten :
    Sample.outOf (Sample.goFiles [(c!"x", .str c!"X")] c!"{:code; {:!include; a.ntpl :} :}|{:!include; a.ntpl :}") =
      some (c!"<X>|<X>", c!"200") := by decide +kernel

end Nts
