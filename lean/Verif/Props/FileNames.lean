import Verif.Props.Include
import Verif.Props.Data
/-
C66: computed file names.  C67: files that do not exist.
-/
set_option autoImplicit false
namespace Nts
open Spec

/-- A name that is nothing but a variable, without `allow` and without comments. -/
structure Spec.BareVariable (c : Str) : Prop where
  shape : ∃ inner, c = c!"{:;" ++ inner ++ c!":}"
  noAllow : ¬ c!"{:allow;" <:+: c
  noNotAllow : ¬ c!"{:!allow;" <:+: c
  noComment : ¬ c!"{:*" <:+: c

theorem bare_refused {c : Str} (h : BareVariable c) : Refused c := by
  obtain ⟨inner, hc⟩ := h.shape
  refine ⟨by rintro (h' | h'); exact h.noAllow h'; exact h.noNotAllow h', c, uncommented_self h.noComment, ?_, ?_⟩
  · rw [hc]; exact ⟨inner ++ c!":}", by simp⟩
  · rw [hc]; exact ⟨c!"{:;" ++ inner, rfl⟩

theorem run_resolve_bare (R : Rec) (s : St) (h : Refused s.b.code) :
    run R resolveFilePath s = .err (errOf { s with b := { s.b with filePath := s.b.code } } c!"insecure file name")
      { s with b := { s.b with filePath := s.b.code } } := by
  unfold resolveFilePath
  simp only [run_bind, run_getSt, andThen_ok, run_setFilePath, run_ite]
  rw [if_pos (show contains c!"{:" s.b.code = true from (contains_iff (by decide)).2 (refused_open h))]
  have hra : requireAllow s.b.code c!"insecure file name" = bifError c!"insecure file name" := by
    unfold requireAllow
    rw [containsAllow_false h]
  simp only [hra, run_bifError, andThen_err]

/-- **C66 (include, part).** A file name that is, comments apart, a text from `{:;` to `:}` without `allow` is rejected by `include`, whatever the data: no file is read, no
output, one error. Missing: other computed names, see `C66_refuted`. -/
theorem C66_include_partial (env : Env) (R : Rec) (sh sh1 : Shared) (inh inh1 : Inherit) (mods src only c x : Str)
    (p : Option Str) (hm : Mods mods) (hf : '&' ∉ mods) (hsc : '+' ∉ mods) (hmax : sh.count < sh.max)
    (hsel : Selected inh mods c!"include" only) (hparts : Parts src p c)
    (hx : evalParams R (counted sh) (entered sh inh) c!"include" (p.getD []) only = .ok x sh1 inh1)
    (hflags : FlagsIn (flagsOf sh1 (p.getD [])) includeFlags) (hc : Refused c) :
    runBif env R sh inh (bifText mods c!"include" src) only =
      failed env mods c!"include" (bifText mods c!"include" src) c!"insecure file name" sh1 inh1 := by
  rw [runBif_text env R sh inh mods c!"include" src only hm named_include hmax hsel]
  have hbody : bifBody env c!"include" = bifInclude env := rfl
  rw [hbody]
  unfold bifInclude
  simp only [run_bind, run_denyMods]
  rw [if_neg (by simp [start, hf, hsc])]
  simp only [andThen_ok]
  rw [run_extract R hparts _ rfl rfl rfl rfl]
  change bifResult env (Res.andThen (match evalParams R (counted sh) (entered sh inh) c!"include" (p.getD []) only with
    | .ok x sh' inh' => _
    | .panic p => _
    | .oof => _) _) = _
  rw [hx]
  simp only [andThen_ok, run_checkFlags]
  have hb := badFlag_none hflags
  unfold includeFlags at hb
  rw [hb]
  simp only [andThen_ok]
  rw [run_resolve_bare _ _ hc]
  simp only [andThen_err]
  exact bifResult_failed env mods c!"include" _ _ _ _ _ rfl rfl rfl rfl rfl rfl

theorem dataFlags_ok {flags : Str} {allowed : List Str} (h : flags = [] ∨ ∃ f ∈ allowed, Flag flags f) (b : BifS)
    (hb : b.flags = flags) : b.flags = [] ∨ ∃ f ∈ allowed, hasFlag b f = true := by
  rcases h with h | ⟨f, hf, h⟩
  · exact .inl (hb.trans h)
  · exact .inr ⟨f, hf, by rw [hasFlag_iff, hb]; exact h⟩

/-- **C66 (data, part).** The same for `data`. -/
theorem C66_data_partial (env : Env) (R : Rec) (sh sh1 : Shared) (inh inh1 : Inherit) (mods src only c x : Str)
    (p : Option Str) (hm : Mods mods) (hf : '&' ∉ mods) (hsc : '+' ∉ mods) (hmax : sh.count < sh.max)
    (hsel : Selected inh mods c!"data" only) (hparts : Parts src p c)
    (hx : evalParams R (counted sh) (entered sh inh) c!"data" (p.getD []) only = .ok x sh1 inh1)
    (hflags : flagsOf sh1 (p.getD []) = [] ∨ Flag (flagsOf sh1 (p.getD [])) c!"require")
    (hinline : ¬ Flag (flagsOf sh1 (p.getD [])) c!"inline") (hc : Refused c) :
    runBif env R sh inh (bifText mods c!"data" src) only =
      failed env mods c!"data" (bifText mods c!"data" src) c!"insecure file name" sh1 inh1 := by
  rw [runBif_text env R sh inh mods c!"data" src only hm named_data hmax hsel]
  have hbody : bifBody env c!"data" = bifData env := rfl
  rw [hbody]
  unfold bifData
  simp only [run_bind, run_denyMods]
  rw [if_neg (by simp [start, hf, hsc])]
  simp only [andThen_ok]
  rw [run_extract R hparts _ rfl rfl rfl rfl]
  change bifResult env (Res.andThen (match evalParams R (counted sh) (entered sh inh) c!"data" (p.getD []) only with
    | .ok x sh' inh' => _
    | .panic p => _
    | .oof => _) _) = _
  rw [hx]
  simp only [andThen_ok, run_getSt, run_ite]
  have hin : ∀ b : BifS, b.flags = flagsOf sh1 (p.getD []) → hasFlag b c!"inline" = false := by
    intro b hb
    rw [← Bool.not_eq_true, hasFlag_iff, hb]; exact hinline
  rw [if_neg (by
    rcases hflags with h | h
    · simp [h]
    · have : ∀ b : BifS, b.flags = flagsOf sh1 (p.getD []) → hasFlag b c!"require" = true := by
        intro b hb; rw [hasFlag_iff, hb]; exact h
      rw [this _ rfl]; simp), if_neg (by rw [hin _ rfl]; simp)]
  simp only [run_bind]
  rw [run_resolve_bare _ _ hc]
  simp only [andThen_err]
  exact bifResult_failed env mods c!"data" _ _ _ _ _ rfl rfl rfl rfl rfl rfl

/-- **C66 (locale, part).** The same for `locale`. -/
theorem C66_locale_partial (env : Env) (R : Rec) (sh sh1 : Shared) (inh inh1 : Inherit) (mods src only c x : Str)
    (p : Option Str) (hm : Mods mods) (hf : '&' ∉ mods) (hsc : '+' ∉ mods) (hmax : sh.count < sh.max)
    (hsel : Selected inh mods c!"locale" only) (hparts : Parts src p c)
    (hx : evalParams R (counted sh) (entered sh inh) c!"locale" (p.getD []) only = .ok x sh1 inh1)
    (hflags : flagsOf sh1 (p.getD []) = [] ∨ Flag (flagsOf sh1 (p.getD [])) c!"require" ∨
      Flag (flagsOf sh1 (p.getD [])) c!"noparse")
    (hinline : ¬ Flag (flagsOf sh1 (p.getD [])) c!"inline") (hc : Refused c) :
    runBif env R sh inh (bifText mods c!"locale" src) only =
      failed env mods c!"locale" (bifText mods c!"locale" src) c!"insecure file name" sh1 inh1 := by
  rw [runBif_text env R sh inh mods c!"locale" src only hm named_locale hmax hsel]
  have hbody : bifBody env c!"locale" = bifLocale env := rfl
  rw [hbody]
  unfold bifLocale
  simp only [run_bind, run_denyMods]
  rw [if_neg (by simp [start, hf, hsc])]
  simp only [andThen_ok]
  rw [run_extract R hparts _ rfl rfl rfl rfl]
  change bifResult env (Res.andThen (match evalParams R (counted sh) (entered sh inh) c!"locale" (p.getD []) only with
    | .ok x sh' inh' => _
    | .panic p => _
    | .oof => _) _) = _
  rw [hx]
  simp only [andThen_ok, run_getSt, run_ite]
  have hin : ∀ b : BifS, b.flags = flagsOf sh1 (p.getD []) → hasFlag b c!"inline" = false := by
    intro b hb
    rw [← Bool.not_eq_true, hasFlag_iff, hb]; exact hinline
  rw [if_neg (by
    rcases hflags with h | h | h
    · simp [h]
    · have : ∀ b : BifS, b.flags = flagsOf sh1 (p.getD []) → hasFlag b c!"require" = true := by
        intro b hb; rw [hasFlag_iff, hb]; exact h
      rw [this _ rfl]; simp
    · have : ∀ b : BifS, b.flags = flagsOf sh1 (p.getD []) → hasFlag b c!"noparse" = true := by
        intro b hb; rw [hasFlag_iff, hb]; exact h
      rw [this _ rfl]; simp), if_neg (by rw [hin _ rfl]; simp)]
  simp only [run_bind]
  rw [run_resolve_bare _ _ hc]
  simp only [andThen_err]
  exact bifResult_failed env mods c!"locale" _ _ _ _ _ rfl rfl rfl rfl rfl rfl

/-! ### C67 -/

/-- **C67 (include).** A file that does not exist: nothing is printed; with the flag `require` it is an error. -/
theorem C67_include (env : Env) (R : Rec) (sh sh1 sh2 : Shared) (inh inh1 : Inherit) (mods src only c x path : Str)
    (p : Option Str) (hm : Mods mods) (hf : '&' ∉ mods) (hsc : '+' ∉ mods) (hmax : sh.count < sh.max)
    (hsel : Selected inh mods c!"include" only) (hparts : Parts src p c)
    (hx : evalParams R (counted sh) (entered sh inh) c!"include" (p.getD []) only = .ok x sh1 inh1)
    (hflags : FlagsIn (flagsOf sh1 (p.getD [])) includeFlags)
    (hfile : FileName R sh1 inh1 c!"include" c only path sh2) (he : sh2.w.fs path = none) :
    runBif env R sh inh (bifText mods c!"include" src) only =
      if c!"|require|" <:+: flagsOf sh1 (p.getD []) then
        failed env mods c!"include" (bifText mods c!"include" src) c!"file not found" sh2 inh1
      else hidden mods sh2 inh1 := by
  rw [runBif_text env R sh inh mods c!"include" src only hm named_include hmax hsel]
  have hbody : bifBody env c!"include" = bifInclude env := rfl
  rw [hbody]
  unfold bifInclude
  simp only [run_bind, run_denyMods]
  rw [if_neg (by simp [start, hf, hsc])]
  simp only [andThen_ok]
  rw [run_extract R hparts _ rfl rfl rfl rfl]
  change bifResult env (Res.andThen (match evalParams R (counted sh) (entered sh inh) c!"include" (p.getD []) only with
    | .ok x sh' inh' => _
    | .panic p => _
    | .oof => _) _) = _
  rw [hx]
  simp only [andThen_ok, run_checkFlags]
  have hb := badFlag_none hflags
  unfold includeFlags at hb
  rw [hb]
  simp only [andThen_ok]
  rw [run_resolveFilePath _ hfile rfl rfl rfl rfl]
  simp only [andThen_ok, run_getSt, run_ite]
  rw [if_pos (by simp [fileExists, he])]
  by_cases hreq : c!"|require|" <:+: flagsOf sh1 (p.getD [])
  · rw [if_pos (by rw [hasFlag_iff]; exact hreq), if_pos hreq]
    simp only [run_bifError]
    exact bifResult_failed env mods c!"include" _ _ _ _ _ rfl rfl rfl rfl rfl rfl
  · rw [if_neg (by rw [hasFlag_iff]; exact hreq), if_neg hreq]
    simp only [run_pure']
    rfl

/-- **C67 (data).** The same for `data`. -/
theorem C67_data (env : Env) (R : Rec) (sh sh1 sh2 : Shared) (inh inh1 : Inherit) (mods src only c x path : Str)
    (p : Option Str) (hm : Mods mods) (hf : '&' ∉ mods) (hsc : '+' ∉ mods) (hmax : sh.count < sh.max)
    (hsel : Selected inh mods c!"data" only) (hparts : Parts src p c)
    (hx : evalParams R (counted sh) (entered sh inh) c!"data" (p.getD []) only = .ok x sh1 inh1)
    (hflags : flagsOf sh1 (p.getD []) = [] ∨ Flag (flagsOf sh1 (p.getD [])) c!"require")
    (hinline : ¬ Flag (flagsOf sh1 (p.getD [])) c!"inline")
    (hfile : FileName R sh1 inh1 c!"data" c only path sh2) (he : sh2.w.fs path = none) :
    runBif env R sh inh (bifText mods c!"data" src) only =
      if c!"|require|" <:+: flagsOf sh1 (p.getD []) then
        failed env mods c!"data" (bifText mods c!"data" src) c!"file not found" sh2 inh1
      else hidden mods sh2 inh1 := by
  rw [runBif_text env R sh inh mods c!"data" src only hm named_data hmax hsel]
  have hbody : bifBody env c!"data" = bifData env := rfl
  rw [hbody]
  unfold bifData
  simp only [run_bind, run_denyMods]
  rw [if_neg (by simp [start, hf, hsc])]
  simp only [andThen_ok]
  rw [run_extract R hparts _ rfl rfl rfl rfl]
  change bifResult env (Res.andThen (match evalParams R (counted sh) (entered sh inh) c!"data" (p.getD []) only with
    | .ok x sh' inh' => _
    | .panic p => _
    | .oof => _) _) = _
  rw [hx]
  simp only [andThen_ok, run_getSt, run_ite]
  have hin : ∀ b : BifS, b.flags = flagsOf sh1 (p.getD []) → hasFlag b c!"inline" = false := by
    intro b hb
    rw [← Bool.not_eq_true, hasFlag_iff, hb]; exact hinline
  rw [if_neg (by
    rcases hflags with h | h
    · simp [h]
    · have : ∀ b : BifS, b.flags = flagsOf sh1 (p.getD []) → hasFlag b c!"require" = true := by
        intro b hb; rw [hasFlag_iff, hb]; exact h
      rw [this _ rfl]; simp), if_neg (by rw [hin _ rfl]; simp)]
  simp only [run_bind]
  rw [run_resolveFilePath _ hfile rfl rfl rfl rfl]
  simp only [andThen_ok, run_getSt, run_ite]
  rw [if_pos (by simp [fileExists, he])]
  by_cases hreq : c!"|require|" <:+: flagsOf sh1 (p.getD [])
  · rw [if_pos (by rw [hasFlag_iff]; exact hreq), if_pos hreq]
    simp only [run_bifError]
    exact bifResult_failed env mods c!"data" _ _ _ _ _ rfl rfl rfl rfl rfl rfl
  · rw [if_neg (by rw [hasFlag_iff]; exact hreq), if_neg hreq]
    simp only [run_setOut]
    rfl

/-- **C67 (locale).** The same for `locale`. -/
theorem C67_locale (env : Env) (R : Rec) (sh sh1 sh2 : Shared) (inh inh1 : Inherit) (mods src only c x path : Str)
    (p : Option Str) (hm : Mods mods) (hf : '&' ∉ mods) (hsc : '+' ∉ mods) (hmax : sh.count < sh.max)
    (hsel : Selected inh mods c!"locale" only) (hparts : Parts src p c)
    (hx : evalParams R (counted sh) (entered sh inh) c!"locale" (p.getD []) only = .ok x sh1 inh1)
    (hflags : flagsOf sh1 (p.getD []) = [] ∨ Flag (flagsOf sh1 (p.getD [])) c!"require" ∨
      Flag (flagsOf sh1 (p.getD [])) c!"noparse")
    (hinline : ¬ Flag (flagsOf sh1 (p.getD [])) c!"inline")
    (hfile : FileName R sh1 inh1 c!"locale" c only path sh2) (he : sh2.w.fs path = none) :
    runBif env R sh inh (bifText mods c!"locale" src) only =
      if c!"|require|" <:+: flagsOf sh1 (p.getD []) then
        failed env mods c!"locale" (bifText mods c!"locale" src) c!"file not found" sh2 inh1
      else hidden mods sh2 inh1 := by
  rw [runBif_text env R sh inh mods c!"locale" src only hm named_locale hmax hsel]
  have hbody : bifBody env c!"locale" = bifLocale env := rfl
  rw [hbody]
  unfold bifLocale
  simp only [run_bind, run_denyMods]
  rw [if_neg (by simp [start, hf, hsc])]
  simp only [andThen_ok]
  rw [run_extract R hparts _ rfl rfl rfl rfl]
  change bifResult env (Res.andThen (match evalParams R (counted sh) (entered sh inh) c!"locale" (p.getD []) only with
    | .ok x sh' inh' => _
    | .panic p => _
    | .oof => _) _) = _
  rw [hx]
  simp only [andThen_ok, run_getSt, run_ite]
  have hin : ∀ b : BifS, b.flags = flagsOf sh1 (p.getD []) → hasFlag b c!"inline" = false := by
    intro b hb
    rw [← Bool.not_eq_true, hasFlag_iff, hb]; exact hinline
  rw [if_neg (by
    rcases hflags with h | h | h
    · simp [h]
    · have : ∀ b : BifS, b.flags = flagsOf sh1 (p.getD []) → hasFlag b c!"require" = true := by
        intro b hb; rw [hasFlag_iff, hb]; exact h
      rw [this _ rfl]; simp
    · have : ∀ b : BifS, b.flags = flagsOf sh1 (p.getD []) → hasFlag b c!"noparse" = true := by
        intro b hb; rw [hasFlag_iff, hb]; exact h
      rw [this _ rfl]; simp), if_neg (by rw [hin _ rfl]; simp)]
  simp only [run_bind]
  rw [run_resolveFilePath _ hfile rfl rfl rfl rfl]
  simp only [andThen_ok, run_getSt, run_ite]
  rw [if_pos (by simp [fileExists, he])]
  by_cases hreq : c!"|require|" <:+: flagsOf sh1 (p.getD [])
  · rw [if_pos (by rw [hasFlag_iff]; exact hreq), if_pos hreq]
    simp only [run_bifError]
    exact bifResult_failed env mods c!"locale" _ _ _ _ _ rfl rfl rfl rfl rfl rfl
  · rw [if_neg (by rw [hasFlag_iff]; exact hreq), if_neg hreq]
    simp only [run_pure']
    rfl

/-! ### what remains, and concrete cases -/

/-- A computed name which is not a bare variable is accepted without `allow`: a modifier on the variable is enough. -/
theorem C66_refuted :
    Sample.outOf (Sample.goFiles [(c!"x", .str c!"a.ntpl")] c!"{:include; {:&;x:} :}") = some (c!"<a.ntpl>", c!"200") ∧
    Sample.outOf (Sample.goFiles [(c!"x", .str c!"a.ntpl")] c!"{:include; {:;x:} :}") = some ([], c!"200") := by
  constructor <;> decide +kernel

/-- A bare variable. -/
example : BareVariable c!"{:;x:}" :=
  ⟨⟨c!"x", rfl⟩, by rw [← contains_iff (by decide)]; decide, by rw [← contains_iff (by decide)]; decide,
    by rw [← contains_iff (by decide)]; decide⟩

/-- The other hypotheses of C66 and C67 hold for the plain texts of the two BIFs. -/
example : Mods [] ∧ Parts c!"{:;x:}" none c!"{:;x:}" ∧ FlagsIn [] includeFlags ∧ Parts c!"none.ntpl" none c!"none.ntpl" := by
  refine ⟨by unfold Mods; decide, .code (src := c!"{:;x:}") ?_, by unfold FlagsIn; decide,
    .code (src := c!"none.ntpl") (noSep_plain _ _ (by decide))⟩
  exact NoSep.nest (b := c!";x") (s := []) (bal_chars (by decide) (by decide)) (.nil _)

/-- A missing file: nothing; with `require`: an error. -/
example : Sample.errorCount (Sample.go [] c!"a{:include; none.ntpl :}b") = some (false, 0) ∧
    Sample.errorCount (Sample.go [] c!"a{:include; {:flg; require :} >> none.ntpl :}b") = some (true, 1) ∧
    Sample.errorCount (Sample.go [] c!"a{:data; {:flg; require :} >> none.ntpl :}b") = some (true, 1) ∧
    Sample.errorCount (Sample.go [] c!"a{:locale; {:flg; require :} >> none.ntpl :}b") = some (true, 1) := by
  refine ⟨?_, ?_, ?_, ?_⟩ <;> decide +kernel

end Nts
