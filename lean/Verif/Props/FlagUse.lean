import Verif.Props.Malformed
import Verif.Props.Redirect
import Verif.Props.Flags
import Verif.Props.Include
import Verif.Props.Errors
/-
C106: which BIFs take flags.
-/
set_option autoImplicit false
namespace Nts
open Spec

/-- The BIFs that evaluate their parameters and take no flags. -/
def Spec.flagless : List Str := [c!"array", c!"bool", c!"date", c!"declare", c!"defined", c!"each", c!"else", c!"exit", c!"fetch",
  c!"filled", c!"flg", c!"for", c!"moveto", c!"param", c!"redirect"]

/-- The BIFs that split their parameters before evaluating them and take no flags. -/
def Spec.flaglessArgs : List Str := [c!"cache", c!"contains", c!"eval", c!"replace", c!"same"]

/-- The BIFs with flags and the flags they take. -/
def Spec.flagTable : List (Str × List Str) := [(c!"code", [c!"safe", c!"encode_tags", c!"encode_bifs", c!"noparse", c!"encode_tags_after"]),
  (c!"include", [c!"require", c!"safe", c!"noparse"]), (c!"snippet", [c!"static"]), (c!"snip", [c!"static"])]

/-- Modifiers the BIF accepts. -/
def Spec.TakesMods (name mods : Str) : Prop := ∃ acc, (name, acc) ∈ accepts ∧ ∀ c ∈ mods, c ∈ acc

/-- What the BIF has already decided to print: those that inside of a cache print a copy of themselves. -/
def Spec.printedBefore (inh : Inherit) (name text : Str) : Str :=
  if name ∈ [c!"exit", c!"moveto", c!"redirect"] then uncached inh text else []

theorem failedOut_nil (env : Env) (mods name raw msg : Str) (sh : Shared) (inh : Inherit) :
    failedOut env mods name raw msg [] sh inh = failed env mods name raw msg sh inh := rfl

theorem bifResult_failedOut (env : Env) (mods name raw msg out : Str) (sh : Shared) (inh : Inherit) (s : St)
    (hs : s.sh = sh) (hi : s.inh = inh) (ha : s.b.alias = name) (hr : s.raw = raw) (ho : s.b.out = out)
    (hu : s.b.modUpline = decide ('^' ∈ mods)) :
    bifResult env (.err (errOf s msg) s) = failedOut env mods name raw msg out sh inh := by
  subst hs hi ha hr ho
  unfold failedOut
  simp only [bifResult]
  cases showErrors s.sh with
  | none => rfl
  | some b => simp [bifFinish, finish, hu, errOf]

theorem flags_case (env : Env) (R : Rec) (sh sh1 : Shared) (inh inh1 : Inherit) (mods name src only c x : Str) (p : Option Str)
    (bad : BifS → Bool) (k : Bool → Unit → Prog Unit)
    (hbody : bifBody env name = denyMods bad >>= fun _ => extractParamsCode true >>= fun b => denyFlags >>= k b)
    (hbad : bad (start sh inh mods name src only).b = false) (hparts : Parts src p c)
    (hx : evalParams R (counted sh) (entered sh inh) name (p.getD []) only = .ok x sh1 inh1)
    (hfl : flagsOf sh1 (p.getD []) ≠ []) :
    bifResult env (run R (bifBody env name) (start sh inh mods name src only)) =
      failedOut env mods name (bifText mods name src) c!"flags not allowed" [] sh1 inh1 := by
  rw [hbody]
  simp only [run_bind, run_denyMods, hbad, Bool.false_eq_true, if_false, andThen_ok]
  rw [run_extract_ok R hparts _ rfl rfl rfl rfl hx, andThen_ok, run_denyFlags, if_neg (by simpa using hfl)]
  exact bifResult_failedOut env mods name _ _ _ _ _ _ rfl rfl rfl rfl rfl rfl

theorem flags_case_copy (env : Env) (R : Rec) (sh sh1 : Shared) (inh inh1 : Inherit) (mods name src only c x : Str) (p : Option Str)
    (bad : BifS → Bool) (k : Bool → Unit → Prog Unit)
    (hbody : bifBody env name =
      denyMods bad >>= fun _ => outUncached >>= fun _ => extractParamsCode true >>= fun b => denyFlags >>= k b)
    (hbad : bad (start sh inh mods name src only).b = false) (hparts : Parts src p c)
    (hx : evalParams R (counted sh) (entered sh inh) name (p.getD []) only = .ok x sh1 inh1)
    (hfl : flagsOf sh1 (p.getD []) ≠ []) :
    bifResult env (run R (bifBody env name) (start sh inh mods name src only)) =
      failedOut env mods name (bifText mods name src) c!"flags not allowed" (uncached inh (bifText mods name src)) sh1 inh1 := by
  rw [hbody]
  simp only [run_bind, run_denyMods, hbad, Bool.false_eq_true, if_false, andThen_ok, outUncached, run_getSt, run_setOut]
  rw [run_extract_ok R hparts _ rfl rfl rfl rfl hx, andThen_ok, run_denyFlags, if_neg (by simpa using hfl)]
  exact bifResult_failedOut env mods name _ _ _ _ _ _ rfl rfl rfl rfl rfl rfl

theorem accepted_mods {name mods acc : Str} (h : TakesMods name mods) (hacc : accepts.lookup name = some acc) :
    ∀ c ∈ mods, c ∈ acc := by
  obtain ⟨acc', h1, h2⟩ := h
  have : ∀ q ∈ accepts, accepts.lookup q.1 = some q.2 := by decide
  have h3 := this _ h1
  rw [hacc] at h3
  injection h3 with h3
  rw [h3]; exact h2

/-- **C106 (no flags).** A BIF that takes no flags, given flags in its parameters, is an error: after the evaluation of the parameters
nothing happens, and nothing is printed. -/
theorem C106_refused (env : Env) (R : Rec) (sh sh1 : Shared) (inh inh1 : Inherit) (mods name src only c x : Str) (p : Option Str)
    (hname : name ∈ flagless) (hm : Mods mods) (hacc : TakesMods name mods) (hmax : sh.count < sh.max)
    (hsel : Selected inh mods name only) (hparts : Parts src p c)
    (hx : evalParams R (counted sh) (entered sh inh) name (p.getD []) only = .ok x sh1 inh1)
    (hfl : flagsOf sh1 (p.getD []) ≠ []) :
    runBif env R sh inh (bifText mods name src) only =
      failedOut env mods name (bifText mods name src) c!"flags not allowed" (printedBefore inh name (bifText mods name src)) sh1 inh1 := by
  rw [runBif_text env R sh inh mods name src only hm (named_accepts hacc.choose_spec.1) hmax hsel]
  simp only [flagless, List.mem_cons, List.not_mem_nil, or_false] at hname
  rcases hname with rfl | rfl | rfl | rfl | rfl | rfl | rfl | rfl | rfl | rfl | rfl | rfl | rfl | rfl | rfl <;>
  · have hok := accepted_mods hacc rfl
    have h1 : '&' ∉ mods := fun h => absurd (hok _ h) (by decide)
    first
    | rw [flags_case env R sh sh1 inh inh1 mods _ src only c x p _ _ rfl ?_ hparts hx hfl]
      · rfl
      · first
        | simp [start, h1]; done
        | have h2 : '+' ∉ mods := fun h => absurd (hok _ h) (by decide)
          have h3 : '!' ∉ mods := fun h => absurd (hok _ h) (by decide)
          have h4 : '^' ∉ mods := fun h => absurd (hok _ h) (by decide)
          simp [start, h1, h2, h3, h4]; done
        | have h2 : '+' ∉ mods := fun h => absurd (hok _ h) (by decide)
          have h3 : '!' ∉ mods := fun h => absurd (hok _ h) (by decide)
          simp [start, h1, h2, h3]; done
        | have h2 : '!' ∉ mods := fun h => absurd (hok _ h) (by decide)
          simp [start, h1, h2]; done
        | have h2 : '+' ∉ mods := fun h => absurd (hok _ h) (by decide)
          simp [start, h1, h2]; done
    | rw [flags_case_copy env R sh sh1 inh inh1 mods _ src only c x p _ _ rfl ?_ hparts hx hfl]
      · rfl
      · first
        | have h2 : '+' ∉ mods := fun h => absurd (hok _ h) (by decide)
          have h3 : '!' ∉ mods := fun h => absurd (hok _ h) (by decide)
          simp [start, h1, h2, h3]; done
        | have h2 : '+' ∉ mods := fun h => absurd (hok _ h) (by decide)
          simp [start, h1, h2]; done

theorem args_case (env : Env) (R : Rec) (sh : Shared) (inh : Inherit) (mods name src only c : Str) (p : Option Str)
    (bad : BifS → Bool) (k : Bool → Unit → Prog Unit)
    (hbody : bifBody env name = denyMods bad >>= fun _ => extractParamsCode false >>= fun b => denyFlgParams >>= k b)
    (hbad : bad (start sh inh mods name src only).b = false) (hparts : Parts src p c) (hfl : c!"{:flg;" <:+: p.getD []) :
    bifResult env (run R (bifBody env name) (start sh inh mods name src only)) =
      failed env mods name (bifText mods name src) c!"flags not allowed" (counted sh) (entered sh inh) := by
  rw [hbody]
  simp only [run_bind, run_denyMods, hbad, Bool.false_eq_true, if_false, andThen_ok]
  rw [run_extract_plain R false hparts _ rfl (by simp), andThen_ok, run_denyFlgParams,
    if_pos (by exact (contains_iff (by simp)).2 hfl)]
  exact bifResult_failed env mods name _ _ _ _ _ rfl rfl rfl rfl rfl rfl

/-- **C106 (no flags, arguments).** A BIF that splits its parameters into arguments, with a `{:flg;` written in its parameters: an error,
nothing at all is evaluated. -/
theorem C106_args (env : Env) (R : Rec) (sh : Shared) (inh : Inherit) (mods name src only c : Str) (p : Option Str)
    (hname : name ∈ flaglessArgs) (hm : Mods mods) (hacc : TakesMods name mods) (hmax : sh.count < sh.max)
    (hsel : Selected inh mods name only) (hparts : Parts src p c) (hfl : c!"{:flg;" <:+: p.getD []) :
    runBif env R sh inh (bifText mods name src) only =
      failed env mods name (bifText mods name src) c!"flags not allowed" (counted sh) (entered sh inh) := by
  rw [runBif_text env R sh inh mods name src only hm (named_accepts hacc.choose_spec.1) hmax hsel]
  simp only [flaglessArgs, List.mem_cons, List.not_mem_nil, or_false] at hname
  rcases hname with rfl | rfl | rfl | rfl | rfl <;>
  · have hok := accepted_mods hacc rfl
    have h1 : '&' ∉ mods := fun h => absurd (hok _ h) (by decide)
    refine args_case env R sh inh mods _ src only c p _ _ rfl ?_ hparts hfl
    first
    | simp [start, h1]; done
    | have h2 : '+' ∉ mods := fun h => absurd (hok _ h) (by decide)
      have h3 : '!' ∉ mods := fun h => absurd (hok _ h) (by decide)
      simp [start, h1, h2, h3]; done
    | have h2 : '+' ∉ mods := fun h => absurd (hok _ h) (by decide)
      simp [start, h1, h2]; done

/-- **C106 (sum).** The same of `sum`, whose source is its arguments. -/
theorem C106_sum (env : Env) (R : Rec) (sh : Shared) (inh : Inherit) (mods src only : Str)
    (hm : Mods mods) (hacc : TakesMods c!"sum" mods) (hmax : sh.count < sh.max)
    (hsel : Selected inh mods c!"sum" only) (hfl : c!"{:flg;" <:+: trim src) :
    runBif env R sh inh (bifText mods c!"sum" src) only =
      failed env mods c!"sum" (bifText mods c!"sum" src) c!"flags not allowed" (counted sh) (entered sh inh) := by
  rw [runBif_text env R sh inh mods c!"sum" src only hm (named_accepts hacc.choose_spec.1) hmax hsel]
  have hok := accepted_mods hacc rfl
  have h1 : '&' ∉ mods := fun h => absurd (hok _ h) (by decide)
  have h2 : '+' ∉ mods := fun h => absurd (hok _ h) (by decide)
  have h3 : '!' ∉ mods := fun h => absurd (hok _ h) (by decide)
  have hbody : bifBody env c!"sum" = bifSum env := rfl
  rw [hbody]
  unfold bifSum
  simp only [run_bind, run_denyMods]
  rw [if_neg (by simp [start, h1, h2, h3])]
  simp only [andThen_ok, run_modB]
  rw [run_denyFlgParams, if_pos (by exact (contains_iff (by simp)).2 hfl)]
  exact bifResult_failed env mods c!"sum" _ _ _ _ _ rfl rfl rfl rfl rfl rfl

theorem badFlag_some {flags : Str} {allowed : List Str} (h : ¬ FlagsIn flags allowed) :
    ∃ f, f ∈ splitChar '|' flags ∧ f ≠ [] ∧ f ∉ allowed ∧ badFlag flags allowed = some f := by
  cases hbad : badFlag flags allowed with
  | none =>
    exfalso
    apply h
    unfold badFlag at hbad
    rw [List.find?_eq_none] at hbad
    intro f hf
    by_cases h0 : f = []
    · exact .inl h0
    · have := hbad f (by rw [List.mem_filter]; exact ⟨hf, by simpa using h0⟩)
      exact .inr (by simpa using this)
  | some f =>
    have h1 := List.find?_some hbad
    have h2 := List.mem_of_find?_eq_some hbad
    rw [List.mem_filter] at h2
    exact ⟨f, h2.1, by simpa using h2.2, by simpa using h1, rfl⟩

theorem table_case (env : Env) (R : Rec) (sh sh1 : Shared) (inh inh1 : Inherit) (mods name label src only c x f : Str) (p : Option Str)
    (bad : BifS → Bool) (allowed : List Str) (k : Bool → Unit → Prog Unit)
    (hbody : (label = name ∧ bifBody env name = denyMods bad >>= fun _ => extractParamsCode true >>= fun b => checkFlags allowed >>= k b) ∨
      bifBody env name = denyMods bad >>= fun _ => setAlias label >>= fun _ => extractParamsCode true >>= fun b => checkFlags allowed >>= k b)
    (hbad : bad (start sh inh mods name src only).b = false) (hparts : Parts src p c)
    (hx : evalParams R (counted sh) (entered sh inh) label (p.getD []) only = .ok x sh1 inh1)
    (hfl : badFlag (flagsOf sh1 (p.getD [])) allowed = some f) :
    bifResult env (run R (bifBody env name) (start sh inh mods name src only)) =
      failed env mods label (bifText mods name src) (f ++ c!" flag not allowed") sh1 inh1 := by
  rcases hbody with ⟨rfl, hbody⟩ | hbody
  · rw [hbody]
    simp only [run_bind, run_denyMods, hbad, Bool.false_eq_true, if_false, andThen_ok]
    rw [run_extract_ok R hparts _ rfl rfl rfl rfl hx, andThen_ok, run_checkFlags]
    dsimp only
    rw [hfl]
    exact bifResult_failed env mods label _ _ _ _ _ rfl rfl rfl rfl rfl rfl
  · rw [hbody]
    simp only [run_bind, run_denyMods, hbad, Bool.false_eq_true, if_false, andThen_ok, run_setAlias]
    rw [run_extract_ok R hparts _ rfl rfl rfl rfl hx, andThen_ok, run_checkFlags]
    dsimp only
    rw [hfl]
    exact bifResult_failed env mods label _ _ _ _ _ rfl rfl rfl rfl rfl rfl

/-- **C106 (other flags).** `code`, `include` and `snippet` take the flags of the table; a flag that is not one of them is an error that
names such a flag, and after the evaluation of the parameters nothing happens. -/
theorem C106_table (env : Env) (R : Rec) (sh sh1 : Shared) (inh inh1 : Inherit) (mods name label src only c x : Str) (p : Option Str)
    (allowed : List Str) (hname : (name, allowed) ∈ flagTable) (hlabel : label = if name = c!"snip" then c!"snippet" else name)
    (hm : Mods mods) (hacc : TakesMods name mods)
    (hmax : sh.count < sh.max) (hsel : Selected inh mods name only) (hparts : Parts src p c)
    (hx : evalParams R (counted sh) (entered sh inh) label (p.getD []) only = .ok x sh1 inh1)
    (hfl : ¬ FlagsIn (flagsOf sh1 (p.getD [])) allowed) :
    ∃ f, f ∈ splitChar '|' (flagsOf sh1 (p.getD [])) ∧ f ≠ [] ∧ f ∉ allowed ∧
      runBif env R sh inh (bifText mods name src) only =
        failed env mods label (bifText mods name src) (f ++ c!" flag not allowed") sh1 inh1 := by
  obtain ⟨f, hf1, hf2, hf3, hb⟩ := badFlag_some hfl
  refine ⟨f, hf1, hf2, hf3, ?_⟩
  rw [runBif_text env R sh inh mods name src only hm (named_accepts hacc.choose_spec.1) hmax hsel]
  simp only [flagTable, List.mem_cons, List.not_mem_nil, or_false, Prod.mk.injEq] at hname
  rcases hname with ⟨rfl, rfl⟩ | ⟨rfl, rfl⟩ | ⟨rfl, rfl⟩ | ⟨rfl, rfl⟩ <;>
  · have hok := accepted_mods hacc rfl
    have h1 : '&' ∉ mods := fun h => absurd (hok _ h) (by decide)
    first
    | refine table_case env R sh sh1 inh inh1 mods _ _ src only c x f p _ _ _ (.inl ⟨hlabel, rfl⟩) ?_ hparts hx hb
      first
      | have h2 : '!' ∉ mods := fun h => absurd (hok _ h) (by decide)
        simp [start, h1, h2]; done
      | have h2 : '+' ∉ mods := fun h => absurd (hok _ h) (by decide)
        simp [start, h1, h2]; done
    | refine table_case env R sh sh1 inh inh1 mods _ _ src only c x f p _ _ _ (.inr (by rw [hlabel]; rfl)) ?_ hparts hx hb
      have h2 : '+' ∉ mods := fun h => absurd (hok _ h) (by decide)
      have h3 : '!' ∉ mods := fun h => absurd (hok _ h) (by decide)
      simp [start, h1, h2, h3]

/-- The flags `data` and `locale` take. -/
def Spec.fileFlags : List (Str × List Str) :=
  [(c!"data", [c!"require", c!"inline"]), (c!"locale", [c!"require", c!"inline", c!"noparse"])]

/-- **C106 (data and locale; partial).** Flags none of which is one of theirs are an error.  Missing: other flags beside one of theirs;
they are ignored (`C106_refuted`). -/
theorem C106_files_partial (env : Env) (R : Rec) (sh sh1 : Shared) (inh inh1 : Inherit) (mods name src only c x : Str) (p : Option Str)
    (allowed : List Str) (hname : (name, allowed) ∈ fileFlags) (hm : Mods mods) (hacc : TakesMods name mods)
    (hmax : sh.count < sh.max) (hsel : Selected inh mods name only) (hparts : Parts src p c)
    (hx : evalParams R (counted sh) (entered sh inh) name (p.getD []) only = .ok x sh1 inh1)
    (hne : flagsOf sh1 (p.getD []) ≠ []) (hfl : ∀ f ∈ allowed, ¬ Flag (flagsOf sh1 (p.getD [])) f) :
    runBif env R sh inh (bifText mods name src) only =
      failed env mods name (bifText mods name src) c!"flags not allowed" sh1 inh1 := by
  rw [runBif_text env R sh inh mods name src only hm (named_accepts hacc.choose_spec.1) hmax hsel]
  have hno : ∀ f ∈ allowed, contains (c!"|" ++ f ++ c!"|") (flagsOf sh1 (p.getD [])) = false := by
    intro f hf
    exact (contains_false_iff (by simp)).2 (hfl f hf)
  have he : (flagsOf sh1 (p.getD [])).isEmpty = false := by simpa using hne
  simp only [fileFlags, List.mem_cons, List.not_mem_nil, or_false, Prod.mk.injEq] at hname
  rcases hname with ⟨rfl, rfl⟩ | ⟨rfl, rfl⟩
  · have hok := accepted_mods hacc rfl
    have h1 : '&' ∉ mods := fun h => absurd (hok _ h) (by decide)
    have h2 : '+' ∉ mods := fun h => absurd (hok _ h) (by decide)
    have hbody : bifBody env c!"data" = bifData env := rfl
    rw [hbody]
    unfold bifData
    simp only [run_bind, run_denyMods]
    rw [if_neg (by simp [start, h1, h2])]
    simp only [andThen_ok]
    rw [run_extract_ok R hparts _ rfl rfl rfl rfl hx]
    simp only [andThen_ok, run_getSt]
    rw [if_pos (by simp only [he, hasFlag, hno c!"require" (by decide), hno c!"inline" (by decide)]; rfl)]
    exact bifResult_failed env mods c!"data" _ _ _ _ _ rfl rfl rfl rfl rfl rfl
  · have hok := accepted_mods hacc rfl
    have h1 : '&' ∉ mods := fun h => absurd (hok _ h) (by decide)
    have h2 : '+' ∉ mods := fun h => absurd (hok _ h) (by decide)
    have hbody : bifBody env c!"locale" = bifLocale env := rfl
    rw [hbody]
    unfold bifLocale
    simp only [run_bind, run_denyMods]
    rw [if_neg (by simp [start, h1, h2])]
    simp only [andThen_ok]
    rw [run_extract_ok R hparts _ rfl rfl rfl rfl hx]
    simp only [andThen_ok, run_getSt]
    rw [if_pos (by simp only [he, hasFlag, hno c!"require" (by decide), hno c!"inline" (by decide), hno c!"noparse" (by decide)]; rfl)]
    exact bifResult_failed env mods c!"locale" _ _ _ _ _ rfl rfl rfl rfl rfl rfl

/-- **C106 (allow).** A flag other than partial, replace and casein is an error. -/
theorem C106_allow (env : Env) (R : Rec) (sh sh1 : Shared) (inh inh1 : Inherit) (mods src only c x : Str) (p : Option Str)
    (hm : Mods mods) (hacc : TakesMods c!"allow" mods) (hmax : sh.count < sh.max)
    (hsel : Selected inh mods c!"allow" only) (hparts : Parts src p c)
    (hx : evalParams R (counted sh) (entered sh inh) c!"allow" (p.getD []) only = .ok x sh1 inh1)
    (hfl : ¬ FlagsIn (flagsOf sh1 (p.getD [])) [c!"partial", c!"replace", c!"casein"]) :
    ∃ msg, runBif env R sh inh (bifText mods c!"allow" src) only =
      failed env mods c!"allow" (bifText mods c!"allow" src) msg sh1 inh1 := by
  obtain ⟨f, _, _, _, hb⟩ := badFlag_some hfl
  rw [runBif_text env R sh inh mods c!"allow" src only hm (named_accepts hacc.choose_spec.1) hmax hsel]
  have hok := accepted_mods hacc rfl
  have h1 : '&' ∉ mods := fun h => absurd (hok _ h) (by decide)
  have h2 : '+' ∉ mods := fun h => absurd (hok _ h) (by decide)
  have hbody : bifBody env c!"allow" = bifAllow env := rfl
  rw [hbody]
  unfold bifAllow
  simp only [run_bind, run_denyMods]
  rw [if_neg (by simp [start, h1, h2])]
  simp only [andThen_ok]
  rw [run_extract_ok R hparts _ rfl rfl rfl rfl hx]
  simp only [andThen_ok, run_getSt]
  split
  · exact ⟨_, by rw [run_bifError]; exact bifResult_failed env mods c!"allow" _ _ _ _ _ rfl rfl rfl rfl rfl rfl⟩
  · refine ⟨f ++ c!" flag not allowed", ?_⟩
    rw [run_bind, run_checkFlags]
    dsimp only
    rw [hb]
    exact bifResult_failed env mods c!"allow" _ _ _ _ _ rfl rfl rfl rfl rfl rfl

set_option maxRecDepth 10000 in
/-- **C106 is false of `data` and `locale`.** A flag they do not know is an error, but not beside a flag they know. -/
theorem C106_refuted :
    Sample.errorsIn (Sample.go [(c!"x", .str c!"X")] c!"{:locale; {:flg; foo :} >> none.json :}") =
      [c!"[2025] Error (locale) flags not allowed file~: () src: {:locale; {:flg; foo :} >> none.json :}"] ∧
    Sample.errorsIn (Sample.go [(c!"x", .str c!"X")] c!"{:locale; {:flg; noparse foo :} >> none.json :}") = [] := by
  decide +kernel

set_option maxRecDepth 10000 in
/-- A page with a flag where none is taken: the error is recorded, `exit` does not exit. -/
example : Sample.outOf (Sample.go [(c!"x", .str c!"X")] c!"{:exit; {:flg; foo :} >> 404 :}{:;x:}") = some (c!"X", c!"200") ∧
    Sample.outOf (Sample.go [(c!"x", .str c!"X")] c!"{:exit; 404 >> :}{:;x:}") = some (c!"404 Not Found", c!"404") := by
  decide +kernel

end Nts
