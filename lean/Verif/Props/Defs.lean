import Verif.Props.Names
import Verif.Props.Include
import Verif.Props.AllowBif
/-
C71: definitions are accepted only where they are documented; static snippets.
-/
set_option autoImplicit false
namespace Nts
open Spec

/-- **C71 (param).** Outside of `code`, `{:param; name >> value :}` is an error: nothing is defined and `value` is not evaluated. -/
theorem C71_param (env : Env) (R : Rec) (sh sh1 : Shared) (inh inh1 : Inherit) (mods src only p c k : Str)
    (hm : Mods mods) (hf : '&' ∉ mods) (hneg : '!' ∉ mods) (hsc : '+' ∉ mods) (hmax : sh.count < sh.max)
    (hsel : Selected inh mods c!"param" only) (hparts : Parts src (some p) c)
    (hk : evalParams R (counted sh) (entered sh inh) c!"param" p only = .ok k sh1 inh1) (hflags : flagsOf sh1 p = [])
    (hout : inh1.alias ≠ c!"code") :
    runBif env R sh inh (bifText mods c!"param" src) only =
      failed env mods c!"param" (bifText mods c!"param" src) c!"param cannot be set here" sh1 inh1 := by
  rw [runBif_text env R sh inh mods c!"param" src only hm named_param hmax hsel]
  have hbody : bifBody env c!"param" = bifParam env := rfl
  rw [hbody]
  unfold bifParam
  simp only [run_bind, run_denyMods]
  rw [if_neg (by simp [start, hf, hneg, hsc])]
  simp only [andThen_ok]
  rw [run_extract R hparts _ rfl rfl rfl rfl]
  change bifResult env (Res.andThen (match evalParams R (counted sh) (entered sh inh) c!"param" p only with
    | .ok x sh' inh' => _
    | .panic p => _
    | .oof => _) _) = _
  rw [hk]
  simp only [andThen_ok, run_denyFlags, Option.getD_some, Option.isSome_some]
  rw [if_pos (by rw [hflags]; rfl)]
  simp only [andThen_ok, run_getSt, run_ite, if_true]
  rw [if_neg hout]
  exact bifResult_failed env mods c!"param" _ _ _ _ _ rfl rfl rfl rfl rfl rfl

/-- **C71 (declare).** In a file whose path does not have the word `snippet`, `{:declare; name >> words :}` is an error: nothing is
declared. -/
theorem C71_declare_partial (env : Env) (R : Rec) (sh sh1 : Shared) (inh inh1 : Inherit) (mods src only c k : Str) (p : Option Str)
    (hm : Mods mods) (hf : '&' ∉ mods) (hneg : '!' ∉ mods) (hsc : '+' ∉ mods) (hmax : sh.count < sh.max)
    (hsel : Selected inh mods c!"declare" only) (hparts : Parts src p c)
    (hk : evalParams R (counted sh) (entered sh inh) c!"declare" (p.getD []) only = .ok k sh1 inh1)
    (hflags : flagsOf sh1 (p.getD []) = []) (hout : ¬ c!"snippet" <:+: inh1.currentFile) :
    runBif env R sh inh (bifText mods c!"declare" src) only =
      failed env mods c!"declare" (bifText mods c!"declare" src) c!"declare cannot be set here" sh1 inh1 := by
  rw [runBif_text env R sh inh mods c!"declare" src only hm named_declare hmax hsel]
  have hbody : bifBody env c!"declare" = bifDeclare := rfl
  rw [hbody]
  unfold bifDeclare
  simp only [run_bind, run_denyMods]
  rw [if_neg (by simp [start, hf, hneg, hsc])]
  simp only [andThen_ok]
  rw [run_extract R hparts _ rfl rfl rfl rfl]
  change bifResult env (Res.andThen (match evalParams R (counted sh) (entered sh inh) c!"declare" (p.getD []) only with
    | .ok x sh' inh' => _
    | .panic p => _
    | .oof => _) _) = _
  rw [hk]
  simp only [andThen_ok, run_denyFlags]
  rw [if_pos (by rw [hflags]; rfl)]
  simp only [andThen_ok, run_getSt, run_ite]
  rw [if_neg (fun h => hout ((contains_iff (by decide)).1 h))]
  exact bifResult_failed env mods c!"declare" _ _ _ _ _ rfl rfl rfl rfl rfl rfl

/-- **C71 (snippet).** Outside of snippet files and of other snippets, `{:snippet; name >> code :}` is an error: nothing is defined,
and `code` is not evaluated. -/
theorem C71_snippet_partial (env : Env) (R : Rec) (sh sh1 : Shared) (inh inh1 : Inherit) (nm mods src only p c k : Str)
    (hnm : SnippetName nm) (hm : Mods mods) (hf : '&' ∉ mods) (hneg : '!' ∉ mods) (hsc : '+' ∉ mods)
    (hmax : sh.count < sh.max) (hsel : Selected inh mods nm only) (hparts : Parts src (some p) c)
    (hk : evalParams R (counted sh) (entered sh inh) c!"snippet" p only = .ok k sh1 inh1)
    (hflags : FlagsIn (flagsOf sh1 p) [c!"static"])
    (hout : ¬ c!"snippet" <:+: inh1.currentFile) (hout' : inh1.alias ≠ c!"snippet") :
    runBif env R sh inh (bifText mods nm src) only =
      failed env mods c!"snippet" (bifText mods nm src) c!"snippet cannot be set here" sh1 inh1 := by
  rw [runBif_text env R sh inh mods nm src only hm (named_snippet hnm) hmax hsel, body_snippet env hnm]
  unfold bifSnippet
  simp only [run_bind, run_denyMods]
  rw [if_neg (by simp [start, hf, hneg, hsc])]
  have hal : ∀ s : St, run R (setAlias c!"snippet") s = .ok () { s with b := { s.b with alias := c!"snippet" } } := fun _ => rfl
  simp only [andThen_ok]
  rw [hal]
  simp only [andThen_ok]
  rw [run_extract R hparts _ rfl rfl rfl rfl]
  change bifResult env (Res.andThen (match evalParams R (counted sh) (entered sh inh) c!"snippet" p only with
    | .ok x sh' inh' => _
    | .panic p => _
    | .oof => _) _) = _
  rw [hk]
  simp only [andThen_ok, run_checkFlags, Option.getD_some, Option.isSome_some]
  rw [badFlag_none hflags]
  simp only [andThen_ok, run_getSt, run_ite, if_true]
  rw [if_neg (by
    rw [Bool.or_eq_true, contains_iff (by decide)]
    simp [hout, hout'])]
  exact bifResult_failed env mods c!"snippet" _ _ _ _ _ rfl rfl rfl rfl rfl rfl

/-- **C71 (static).** With the flag `static`, the snippet is the text its code evaluates to where it is set. -/
theorem C71_static (env : Env) (R : Rec) (sh sh1 sh2 : Shared) (inh inh1 inh2 : Inherit) (nm mods src only p c k t : Str)
    (hnm : SnippetName nm) (hm : Mods mods) (hf : '&' ∉ mods) (hneg : '!' ∉ mods) (hsc : '+' ∉ mods)
    (hmax : sh.count < sh.max) (hsel : Selected inh mods nm only) (hparts : Parts src (some p) c)
    (hk : evalParams R (counted sh) (entered sh inh) c!"snippet" p only = .ok k sh1 inh1)
    (hflags : FlagsIn (flagsOf sh1 p) [c!"static"]) (hst : Flag (flagsOf sh1 p) c!"static")
    (hin : c!"snippet" <:+: inh1.currentFile ∨ inh1.alias = c!"snippet")
    (ht : evaluated R false sh1 inh1 c!"snippet" c only = .ok t sh2 inh2)
    (hu : Usable sh2 inh2 c!"snippets") (hu' : Usable sh2 inh2 c!"snippets_set_dir") :
    ∃ sh3 sh4, runBif env R sh inh (bifText mods nm src) only = finish (decide ('^' ∈ mods)) [] sh4 inh2 ∧
      Defines c!"snippets" k (.str t) sh2 inh2 sh3 inh2 ∧
      Defines c!"snippets_set_dir" k (.str inh2.currentDir) sh3 inh2 sh4 inh2 := by
  obtain ⟨sh3, h1, h2, h3⟩ := run_setIndir (R := R) (sec := c!"snippets") (k := k) (v := .str t)
    (s := { start sh inh mods nm src only with
        sh := sh2, inh := inh2,
        b := { (start sh inh mods nm src only).b with
          alias := c!"snippet", params := k, code := t, flags := flagsOf sh1 p } }) hu
  obtain ⟨sh4, h4, h5, h6⟩ := run_setIndir (R := R) (sec := c!"snippets_set_dir") (k := k) (v := .str inh2.currentDir)
    (s := { start sh inh mods nm src only with
        sh := sh3, inh := inh2,
        b := { (start sh inh mods nm src only).b with
          alias := c!"snippet", params := k, code := t, flags := flagsOf sh1 p } })
    ⟨h3, by
      have := h2.sections c!"snippets_set_dir" (by decide)
      simp only at this ⊢
      rw [this]; exact hu'.2⟩
  refine ⟨sh3, sh4, ?_, h2, h5⟩
  rw [runBif_text env R sh inh mods nm src only hm (named_snippet hnm) hmax hsel, body_snippet env hnm]
  unfold bifSnippet
  simp only [run_bind, run_denyMods]
  rw [if_neg (by simp [start, hf, hneg, hsc])]
  have hal : ∀ s : St, run R (setAlias c!"snippet") s = .ok () { s with b := { s.b with alias := c!"snippet" } } := fun _ => rfl
  simp only [andThen_ok]
  rw [hal]
  simp only [andThen_ok]
  rw [run_extract R hparts _ rfl rfl rfl rfl]
  change bifResult env (Res.andThen (match evalParams R (counted sh) (entered sh inh) c!"snippet" p only with
    | .ok x sh' inh' => _
    | .panic p => _
    | .oof => _) _) = _
  rw [hk]
  simp only [andThen_ok, run_checkFlags, Option.getD_some, Option.isSome_some]
  rw [badFlag_none hflags]
  simp only [andThen_ok, run_getSt, run_ite, if_true]
  rw [if_pos (by
    rw [Bool.or_eq_true, contains_iff (by decide)]
    simpa using hin)]
  simp only [run_bind, run_ite]
  have hfl : ∀ b : BifS, b.flags = flagsOf sh1 p → hasFlag b c!"static" = true := by
    intro b hb; rw [hasFlag_iff, hb]; exact hst
  rw [hfl _ rfl]
  simp only [if_true, run_bind]
  have hms : (start sh inh mods nm src only).b.modScope = false := by simp [start, hsc]
  have hch : ∀ b : Bool, b = false → ∀ (c : Str) (s : St), run R (childParse c b) s = run R (childParse c false) s := by
    intro b h c s; rw [h]
  rw [hch _ hms, run_child_evaluated R _ _ rfl rfl]
  change bifResult env (Res.andThen (Res.andThen (match evaluated R false sh1 inh1 c!"snippet" c only with
    | .ok x sh' inh' => _
    | .panic p => _
    | .oof => _) _) _) = _
  rw [ht]
  simp only [andThen_ok, run_setCode, run_getSt]
  rw [h1]
  simp only [andThen_ok]
  rw [h4]
  rfl

set_option maxRecDepth 10000 in
/-- **C71 is false inside computed file names**: there, the text of the name counts as the name of the file, so that
`declare` (and `snippet`) are accepted when it has the word `snippet`. -/
theorem C71_refuted :
    Sample.outOf (Sample.goFiles [(c!"x", .str c!"a.ntpl")]
      c!"[{:include; {:declare; snippet >> * :}{:allow; snippet >> {:;x:} :} :}]") = some (c!"[<a.ntpl>]", c!"200") ∧
    Sample.outOf (Sample.goFiles [(c!"x", .str c!"a.ntpl")]
      c!"[{:include; {:declare; words >> * :}{:allow; words >> {:;x:} :} :}]") = some (c!"[]", c!"200") := by
  decide +kernel

set_option maxRecDepth 10000 in
/-- Definitions elsewhere define nothing; a static snippet has the values of the place where it is set. -/
example :
    Sample.outOf (Sample.go [] c!"[{:param; a >> A :}{:param; a :}{:snippet; s >> S :}{:snippet; s :}{:declare; w >> one :}{:allow; w >> one :}]") =
      some (c!"[]", c!"200") ∧
    Sample.outOf (Sample.goSnippets c!"{:code; {:param; p >> 1 :} {:+code; {:snippet; s >> {:param; p :} :} :} {:snippet; s :} :}"
        c!"{:include; snippets.ntpl :}") = some (c!"1", c!"200") := by
  decide +kernel

set_option maxRecDepth 10000 in
/-- **Block scope is false for static snippets**: one set inside a block is visible after it. -/
theorem C71_static_leaks :
    Sample.outOf (Sample.goSnippets c!"{:snippet; {:flg; static :} s >> <{:;x:}> :}"
      c!"{:code; {:include; snippets.ntpl :} {:snippet; s :} :}[{:snippet; s :}]") = some (c!"<X>[<X>]", c!"200") ∧
    Sample.outOf (Sample.goSnippets c!"{:snippet; s >> <{:;x:}> :}"
      c!"{:code; {:include; snippets.ntpl :} {:snippet; s :} :}[{:snippet; s :}]") = some (c!"<X>[]", c!"200") := by
  decide +kernel

end Nts
