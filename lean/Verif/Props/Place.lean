import Verif.Props.Defs
import Verif.Props.Flags
import Verif.Props.Scope
/-
C72: include evaluates the file in its place; file names that begin with # belong to the directory of their file.
-/
set_option autoImplicit false
namespace Nts
open Spec

/-- What the evaluation of the file `path` inherits from the block that includes it: it knows that it is included, its path and its
directory. -/
def Spec.placedIn (env : Env) (path canon : Str) (inh : Inherit) : Inherit :=
  { inh with
    includeFiles := inh.includeFiles ++ [canon]
    currentFile := if path = [] then inh.currentFile else path
    currentDir := if (env.parent path).getD [] = [] then inh.currentDir else (env.parent path).getD [] }

/-- The text of the file that is evaluated: comments are removed first if the configuration says so. -/
def Spec.FileText (sh : Shared) (e : FileEntry) (t : Str) : Prop :=
  if c!"remove" <:+: sh.comments then removeComments (e.content.getD []) = some t else t = e.content.getD []

theorem run_child_place (env : Env) (R : Rec) (src : Str) (s : St) (hd : s.b.dir = (env.parent s.b.filePath).getD []) (canon : Str)
    (inh : Inherit) (hs : s.inh = { inh with includeFiles := inh.includeFiles ++ [canon] }) :
    run R (childParse src true) s =
      match evaluated R true s.sh (placedIn env s.b.filePath canon inh) s.b.alias src s.only with
      | .ok x sh' inh' => .ok x { s with sh := sh', inh := { inh' with currentFile := inh.currentFile, currentDir := inh.currentDir } }
      | .panic p => .panic p
      | .oof => .oof := by
  rw [run_childParse]
  simp only [step]
  unfold evaluated runChild
  have hci : childInherit s =
      childInherit ⟨s.sh, placedIn env s.b.filePath canon inh, { BifS.new with alias := s.b.alias }, [], s.only⟩ := by
    unfold childInherit placedIn
    simp only [hs, hd, BifS.new, List.isEmpty_iff, if_true]
  dsimp only
  rw [hci]
  have hcb : ∀ i j : Inherit, i.indir = j.indir → i.blockCount = j.blockCount →
      (createBlockSchema s.sh i).1 = (createBlockSchema s.sh j).1 ∧
      (createBlockSchema s.sh i).2 = { i with indir := (createBlockSchema s.sh j).2.indir } := by
    intro i j h1 h2
    unfold createBlockSchema
    rw [h1, h2]
    exact ⟨rfl, rfl⟩
  obtain ⟨h1, h2⟩ := hcb s.inh (placedIn env s.b.filePath canon inh) (by rw [hs]; rfl) (by rw [hs]; rfl)
  obtain ⟨h3, h4⟩ := hcb (placedIn env s.b.filePath canon inh) (placedIn env s.b.filePath canon inh) rfl rfl
  simp only [if_true]
  rw [h1, h2]
  cases parseSrc R (createBlockSchema s.sh (placedIn env s.b.filePath canon inh)).1
      (childInherit ⟨s.sh, placedIn env s.b.filePath canon inh, { BifS.new with alias := s.b.alias }, [], s.only⟩) src s.only with
  | ok x sh' inh' =>
    simp only [ORes.toRes]
    congr 1
    rw [h4, hs]
    rfl
  | panic p => rfl
  | oof => rfl

/-- **C72 (include).** `{:include; f :}` of an existing file (with `!`: not included yet) prints what the text of the file evaluates to in
the block where it is written, whose definitions it sees and extends. While it is evaluated, its path and directory are those
of the file; afterwards they are those of the including file again. -/
theorem C72_include (env : Env) (R : Rec) (sh sh1 sh2 sh3 : Shared) (inh inh1 inh3 : Inherit) (mods src only c x path canon t y : Str)
    (p : Option Str) (e : FileEntry)
    (hm : Mods mods) (hf : '&' ∉ mods) (hsc : '+' ∉ mods) (hmax : sh.count < sh.max)
    (hsel : Selected inh mods c!"include" only) (hparts : Parts src p c)
    (hx : evalParams R (counted sh) (entered sh inh) c!"include" (p.getD []) only = .ok x sh1 inh1)
    (hflags : FlagsIn (flagsOf sh1 (p.getD [])) includeFlags)
    (hsafe : ¬ Flag (flagsOf sh1 (p.getD [])) c!"safe") (hnop : ¬ Flag (flagsOf sh1 (p.getD [])) c!"noparse")
    (hfile : FileName R sh1 inh1 c!"include" c only path sh2)
    (he : sh2.w.fs path = some e) (hcan : env.canon path = .ok canon)
    (honce : '!' ∈ mods → canon ∉ inh1.includeFiles) (htext : FileText sh2 e t)
    (hy : evaluated R true sh2 (placedIn env path canon inh1) c!"include" t only = .ok y sh3 inh3) :
    runBif env R sh inh (bifText mods c!"include" src) only =
      finish (decide ('^' ∈ mods)) y sh3 { inh3 with currentFile := inh1.currentFile, currentDir := inh1.currentDir } := by
  obtain ⟨s, h1, hs⟩ := runBif_include hm hf hsc hmax hsel hparts hx hflags hfile he hcan
  rw [h1]
  unfold includeBody
  simp only [run_ite]
  rw [if_neg (by
    subst hs
    simp only [start, Bool.and_eq_true, List.contains_iff_mem, not_and]
    intro h
    exact honce (by simpa using h)), if_neg (by subst hs; rw [hasFlag_iff]; exact hsafe),
    if_neg (by subst hs; rw [hasFlag_iff]; exact hnop)]
  simp only [run_bind]
  have hpf : ∀ s : St, run R (perform (.pushFile .incl canon)) s =
      .ok () { s with inh := { s.inh with includeFiles := s.inh.includeFiles ++ [canon] } } := fun _ => rfl
  rw [hpf]
  simp only [andThen_ok, run_ite]
  have key : ∀ t' : Str, t' = t → run R (childParse t' true >>= fun x => setOut x)
      { s with inh := { s.inh with includeFiles := s.inh.includeFiles ++ [canon] } } =
      .ok () { s with
        sh := sh3
        inh := { inh3 with currentFile := inh1.currentFile, currentDir := inh1.currentDir }
        b := { s.b with out := y } } := by
    rintro _ rfl
    rw [run_bind, run_child_place env R _ _ (by subst hs; rfl) canon s.inh rfl]
    subst hs
    dsimp only
    change Res.andThen (match evaluated R true sh2 (placedIn env path canon inh1) c!"include" _ only with
      | .ok x sh' inh' => _
      | .panic p => _
      | .oof => _) _ = _
    rw [hy]
    rfl
  unfold FileText at htext
  have hsh : s.sh = sh2 := by subst hs; rfl
  by_cases hrem : c!"remove" <:+: sh2.comments
  · rw [if_pos hrem] at htext
    rw [if_pos (by rw [hsh, contains_iff (by decide)]; exact hrem), htext]
    dsimp only
    rw [key t rfl]
    subst hs
    rfl
  · rw [if_neg hrem] at htext
    rw [if_neg (by rw [hsh, contains_iff (by decide)]; exact hrem), key _ htext.symm]
    subst hs
    rfl

/-- **C72 (noparse).** With the flag `noparse` (and not `safe`), the file is printed as it is, and nothing is evaluated. -/
theorem C72_noparse (env : Env) (R : Rec) (sh sh1 sh2 : Shared) (inh inh1 : Inherit) (mods src only c x path canon : Str)
    (p : Option Str) (e : FileEntry)
    (hm : Mods mods) (hf : '&' ∉ mods) (hsc : '+' ∉ mods) (hmax : sh.count < sh.max)
    (hsel : Selected inh mods c!"include" only) (hparts : Parts src p c)
    (hx : evalParams R (counted sh) (entered sh inh) c!"include" (p.getD []) only = .ok x sh1 inh1)
    (hflags : FlagsIn (flagsOf sh1 (p.getD [])) includeFlags)
    (hsafe : ¬ Flag (flagsOf sh1 (p.getD [])) c!"safe") (hnop : Flag (flagsOf sh1 (p.getD [])) c!"noparse")
    (hfile : FileName R sh1 inh1 c!"include" c only path sh2)
    (he : sh2.w.fs path = some e) (hcan : env.canon path = .ok canon)
    (honce : '!' ∈ mods → canon ∉ inh1.includeFiles) :
    runBif env R sh inh (bifText mods c!"include" src) only = finish (decide ('^' ∈ mods)) (e.content.getD []) sh2 inh1 := by
  obtain ⟨s, h1, hs⟩ := runBif_include hm hf hsc hmax hsel hparts hx hflags hfile he hcan
  rw [h1]
  unfold includeBody
  simp only [run_ite]
  rw [if_neg (by
    subst hs
    simp only [start, Bool.and_eq_true, List.contains_iff_mem, not_and]
    intro h
    exact honce (by simpa using h)), if_neg (by subst hs; rw [hasFlag_iff]; exact hsafe),
    if_pos (by subst hs; rw [hasFlag_iff]; exact hnop)]
  simp only [run_bind, run_setCode, andThen_ok, run_outCode]
  subst hs
  rfl

/-- Operations that keep the directory. -/
def KeepDir : Op → Prop
  | .setCurrentDir _ => False
  | _ => True

theorem step_dir (R : Rec) (o : Op) (s : St) (r : o.Resp) (s' : St) (hk : KeepDir o) (h : step R o s = .ok r s') :
    s'.inh.currentDir = s.inh.currentDir := by
  cases o with
  | setCurrentDir d => exact hk.elim
  | setData name v => obtain ⟨x, _, rfl⟩ := oresOpt_map h; rfl
  | setMoveto name v => obtain ⟨x, _, rfl⟩ := oresOpt_map h; rfl
  | setIndir sec key v => obtain ⟨x, _, rfl⟩ := oresOpt_map h; rfl
  | mergeIndir sec v => obtain ⟨x, _, rfl⟩ := oresOpt_map h; rfl
  | child src scope =>
    simp only [step] at h
    rw [(runChild_ok h).2.2.2]
    cases scope <;> rfl
  | childBlocks src bs scope =>
    simp only [step] at h
    rw [(runChild_ok h).2.2.2]
    cases scope <;> rfl
  | createBlockSchema => simp only [step, ORes.ok.injEq] at h; rw [← h.2]; rfl
  | pushFile k p =>
    cases k <;> (simp only [step, ORes.ok.injEq] at h; rw [← h.2])
  | _ => simp only [step, ORes.ok.injEq] at h; rw [← h.2]

theorem run_dir (env : Env) (R : Rec) (name : Str) (hn : ¬ SnippetName name) (s : St) :
    (run R (bifBody env name) s).Post (fun s' => s'.inh.currentDir = s.inh.currentDir) :=
  run_post R (P := KeepDir) (Rel := fun s s' => s'.inh.currentDir = s.inh.currentDir) (fun _ => rfl)
    (fun _ _ _ h1 h2 => h2.trans h1) (fun o s r s' hk h => step_dir R o s r s' hk h) _
    (OpsIn_mono (fun o ho => by
      cases o <;> first | exact trivial | exact (hn ho).elim) (effects env name)) s

/-- **C72 (`#` names, partial).** A BIF other than `snippet` leaves the directory as it was, for all the BIFs that follow it in the file
- whatever files are included, and whatever is played inside it. Missing: `snippet` itself, for which this is false (`C72_refuted`). -/
theorem C72_directory_partial (env : Env) (R : Rec) (sh sh' : Shared) (inh inh' : Inherit) (mods name src only x : Str)
    (hm : Mods mods) (hn : Named name) (hs : ¬ SnippetName name)
    (h : runBif env R sh inh (bifText mods name src) only = .ok x sh' inh') : inh'.currentDir = inh.currentDir := by
  unfold runBif at h
  split at h
  · simp at h
  · unfold bifParse at h
    rw [bifSplit_text mods name src hm hn] at h
    dsimp only at h
    split at h
    · simp only [PRes.ok.injEq] at h
      obtain ⟨_, rfl, rfl⟩ := h
      rfl
    · rw [setModifiers_mods mods hm name hn] at h
      dsimp only at h
      generalize hs0 : St.mk { sh with count := sh.count + 1 } _ _ _ _ = s0 at h
      have hr := run_dir env R name hs s0
      have e1 : s0.inh.currentDir = inh.currentDir := by rw [← hs0]
      revert h hr
      cases run R (bifBody env name) s0 with
      | ok a s =>
        intro h hr
        simp only [bifResult, bifFinish, PRes.ok.injEq] at h
        obtain ⟨_, rfl, rfl⟩ := h
        exact Eq.trans hr e1
      | err e s =>
        intro h hr
        simp only [bifResult] at h
        split at h
        · simp at h
        · simp only [bifFinish, PRes.ok.injEq] at h
          obtain ⟨_, rfl, rfl⟩ := h
          exact Eq.trans hr e1
      | panic p => intro h; simp [bifResult] at h
      | oof => intro h; simp [bifResult] at h

theorem nested_dir {R : Rec} {scope : Bool} {sh sh' : Shared} {inh inh' : Inherit} {name text only x : Str}
    (h : nested R scope sh inh name text only = .ok x sh' inh') : inh'.currentDir = inh.currentDir := by
  unfold nested at h
  split at h
  · split at h
    · rename_i s hs
      simp only [PRes.ok.injEq] at h
      obtain ⟨_, _, rfl⟩ := h
      rw [(runChild_ok hs).2.2.2]
      cases scope <;> rfl
    · simp at h
    · simp at h
  · simp only [PRes.ok.injEq] at h
    rw [h.2.2]

/-- **C72 (`#` names, exactly).** After a snippet is played, the directory is the one of the file that set it, when its text has BIFs and
that directory is known; otherwise it stays as it was. -/
theorem C72_snippet_exact (env : Env) (R : Rec) (sh sh1 sh' : Shared) (inh inh1 inh' : Inherit) (nm mods src only c k x : Str)
    (hnm : SnippetName nm) (hm : Mods mods) (hf : '&' ∉ mods) (hneg : '!' ∉ mods) (hsc : '+' ∉ mods)
    (hmax : sh.count < sh.max) (hsel : Selected inh mods nm only) (hparts : Parts src none c)
    (hk : nested R false (counted sh) (entered sh inh) c!"snippet" c only = .ok k sh1 inh1)
    (h : runBif env R sh inh (bifText mods nm src) only = .ok x sh' inh') :
    (c!"{:" <:+: readName env sh1 inh1 c!"snippets" k → readName env sh1 inh1 c!"snippets_set_dir" k ≠ [] →
      inh'.currentDir = readName env sh1 inh1 c!"snippets_set_dir" k) ∧
    (¬ c!"{:" <:+: readName env sh1 inh1 c!"snippets" k ∨ readName env sh1 inh1 c!"snippets_set_dir" k = [] →
      inh'.currentDir = inh.currentDir) := by
  rw [C10_snippet_play env R sh sh1 inh inh1 nm mods src only c k hnm hm hf hneg hsc hmax hsel hparts hk] at h
  have h1 : inh1.currentDir = inh.currentDir := (nested_dir hk).trans rfl
  have h2 : inh'.currentDir = (snippetPlace env sh1 inh1 k).currentDir := by
    revert h
    cases hn : nested R (contains c!"{:snip" (readName env sh1 inh1 c!"snippets" k)) sh1 (snippetPlace env sh1 inh1 k)
        c!"snippet" (readName env sh1 inh1 c!"snippets" k) only with
    | ok y sh2 inh2 =>
      intro h
      simp only [finish, PRes.ok.injEq] at h
      obtain ⟨_, _, rfl⟩ := h
      exact (nested_dir hn : inh2.currentDir = _)
    | panic p => intro h; simp at h
    | oof => intro h; simp at h
  constructor
  · intro h3 h4
    rw [h2]
    unfold snippetPlace
    rw [if_pos ⟨(contains_iff (by decide)).2 h3, h4⟩]
  · intro h3
    rw [h2]
    unfold snippetPlace
    rw [if_neg, h1]
    rintro ⟨h4, h5⟩
    rcases h3 with h3 | h3
    · exact h3 ((contains_iff (by decide)).1 h4)
    · exact h5 h3

/-- Where the evaluation of a template starts: in the directory of its file or, if it has none, in the working directory. -/
def Spec.Home (env : Env) (path : Str) (sh : Shared) (inh : Inherit) : Prop :=
  inh.currentFile = path ∧ (path = [] → inh.currentDir = sh.workingDir) ∧
    ∀ d, path ≠ [] → env.parent path = some d → inh.currentDir = d

theorem initShared_home {env : Env} {path raw raw' : Str} {sh sh0 : Shared} {inh : Inherit}
    (h : initShared env path raw sh = .ok (raw', sh0, inh)) : Home env path sh inh := by
  unfold initShared at h
  split at h
  · simp at h
  · dsimp only at h
    split at h
    · simp at h
    · split at h
      · simp at h
      · simp only [Except.ok.injEq, Prod.mk.injEq] at h
        obtain ⟨_, _, rfl⟩ := h
        refine ⟨rfl, fun hp => ?_, fun d hp hd => ?_⟩
        · subst hp
          simp only [List.isEmpty_nil, if_true]
          unfold createBlockSchema
          (repeat' split) <;> rfl
        · cases path with
          | nil => exact absurd rfl hp
          | cons a r => simp only [List.isEmpty_cons, Bool.false_eq_true, if_false, hd, Option.getD_some]

/-- **C72 (the template itself).** The texts a render or a render_once evaluates are evaluated in the directory of the file the
template was made from, or was last set to be read from; a template that comes from no file is evaluated in the working
directory. -/
theorem C72_main (env : Env) (w : World) (t t' : Tpl) (path src : Str) (v : Value)
    (ht : (Tpl.new env w = .ok t' ∧ path = []) ∨ Tpl.fromFileValue env w path v = .ok t' ∨
      t' = (t.setSrcPath env w path).1 ∨ (t' = t.setSrcStr src ∧ path = t.filePath))
    (sh sh0 : Shared) (raw : Str) (inh : Inherit)
    (h : initShared env t'.filePath t'.raw sh = .ok (raw, sh0, inh) ∨ initSharedOnce env t'.filePath t'.raw sh = .ok (raw, sh0, inh)) :
    Home env path sh inh := by
  have hp : t'.filePath = path := by
    rcases ht with ⟨h1, rfl⟩ | h1 | rfl | ⟨rfl, rfl⟩
    · unfold Tpl.new at h1
      split at h1
      · simp at h1
      · simp only [TRes.ok.injEq] at h1; rw [← h1]
    · unfold Tpl.fromFileValue at h1
      split at h1
      · simp at h1
      · split at h1
        · simp only [TRes.ok.injEq] at h1; rw [← h1]
        · simp at h1
        · simp at h1
    · unfold Tpl.setSrcPath; split <;> rfl
    · rfl
  rw [← hp]
  rcases h with h | h
  · exact initShared_home h
  · exact initShared_home (show initShared env t'.filePath t'.raw sh = _ from h)

/-- The directories of the files of a site with two directories. -/
def Sample.envDirs : Env := { Sample.env with parent := fun p => some (if c!"d/" <+: p then c!"d" else c!"/w") }

/-- The files of a site with two directories. -/
def Sample.dirs : World :=
    ⟨fun p => if p = c!"d/snippet.ntpl" then some (Sample.file c!"{:snippet; s >> {:include; #/x.ntpl :} :}")
      else if p = c!"d/x.ntpl" then some (Sample.file c!"D")
      else if p = c!"d/y.ntpl" then some (Sample.file c!"<{:include; #/x.ntpl :}>")
      else if p = c!"/w/x.ntpl" then some (Sample.file c!"W") else none, 0⟩

/-- A render of a text of that site. -/
def Sample.goDirs (src : Str) : RRes :=
  (Sample.tpl (Sample.schema 1000 [(c!"x", .str c!"X")] Sample.inherit) src).render Sample.envDirs 10 Sample.dirs

set_option maxRecDepth 10000 in
/-- Names in files belong to the directory of the file. -/
example : Sample.outOf (Sample.goDirs c!"{:include; #/x.ntpl :}{:include; d/y.ntpl :}{:include; #/x.ntpl :}") =
    some (c!"W<D>W", c!"200") := by
  decide +kernel

set_option maxRecDepth 10000 in
/-- The premises of `C72_main` are met: a template read from the file d/y.ntpl includes the x.ntpl of its directory; the same text
with no file includes that of the working directory. -/
example : Sample.outOf (((Sample.tpl (Sample.schema 1000 [(c!"x", .str c!"X")] Sample.inherit) []).setSrcPath Sample.env Sample.dirs
      c!"d/y.ntpl").1.render Sample.envDirs 10 Sample.dirs) = some (c!"<D>", c!"200") ∧
    Sample.outOf (Sample.goDirs c!"<{:include; #/x.ntpl :}>") = some (c!"<W>", c!"200") := by
  decide +kernel

set_option maxRecDepth 10000 in
/-- **C72 is false after a snippet is played**: the names that follow belong to the directory of the snippet. -/
theorem C72_refuted :
    Sample.outOf (Sample.goDirs c!"{:include; d/snippet.ntpl :}{:include; #/x.ntpl :}{:snippet; s :}{:include; #/x.ntpl :}") =
      some (c!"WDD", c!"200") := by
  decide +kernel

end Nts
