import Verif.Spec.Options
import Verif.Props.LangUse
/-
C82: the options of the schema take effect.
-/
set_option autoImplicit false
namespace Nts
open Spec

theorem option_get (s : Value) {key : Str} (hk : firstKey key = key) : resolvePointer (s.index c!"config") key = option s key := by
  rw [resolve_plain hk]
  unfold option Value.index Value.get?
  cases s with
  | obj o =>
    simp only
    cases h : Obj.get? c!"config" o with
    | none => rfl
    | some v => cases v <;> rfl
  | _ => rfl

theorem boolVal_truth (F : F64Ops) (v : Value) : boolVal F v = truth F c!"bool" (some v) := by
  cases v with
  | num n => cases n <;> rfl
  | str s =>
    show (if s.isEmpty || s == c!"false" then false else match F.parse s with | some n => F.pos n | none => true) =
      (decide (s ≠ []) && decide (s ≠ c!"false") && (match F.parse s with | some x => F.pos x | none => true))
    by_cases h1 : s = []
    · subst h1; rfl
    · by_cases h2 : s = c!"false"
      · subst h2; rfl
      · have h3 : (s.isEmpty || s == c!"false") = false := by
          rw [Bool.or_eq_false_iff]
          exact ⟨by simpa using h1, by simpa using h2⟩
        rw [h3]
        simp only [h1, h2, ne_eq, not_false_eq_true, decide_true, Bool.true_and, Bool.false_eq_true, if_false]
  | _ => rfl

theorem option_on (F : F64Ops) (s : Value) {key : Str} (hk : firstKey key = key) : isBoolKey F (s.index c!"config") key = optionOn F s key := by
  unfold isBoolKey optionOn
  rw [option_get s hk]
  cases option s key with
  | none => rfl
  | some v => exact boolVal_truth F v

theorem option_text (F : F64Ops) (s : Value) {key : Str} (hk : firstKey key = key) : getFromKey F (s.index c!"config") key = optionText F s key := by
  rw [getFromKey_textOf, shownAs_eq, option_get s hk]
  rfl

theorem option_num (s : Value) (key : Str) : ((s.index c!"config").index key).asU64? = (option s key).bind Value.asU64? := by
  unfold option Value.index Value.get?
  cases s with
  | obj o =>
    simp only
    cases h : Obj.get? c!"config" o with
    | none => rfl
    | some v =>
      cases v with
      | obj c =>
        simp only [Option.getD_some]
        cases Obj.get? key c <;> rfl
      | _ => rfl
  | _ => rfl

theorem language_text (F : F64Ops) (s : Value) :
    getFromKey F ((s.index c!"inherit").index c!"locale") c!"current" = languageOf F s := by
  rw [getFromKey_textOf, shownAs_eq, resolve_plain (by decide)]
  unfold languageOf Value.index Value.get?
  cases s with
  | obj o =>
    simp only
    cases h : Obj.get? c!"inherit" o with
    | none => rfl
    | some v =>
      cases v with
      | obj i =>
        simp only [Option.getD_some]
        cases h : Obj.get? c!"locale" i with
        | none => rfl
        | some u => cases u <;> rfl
      | _ => rfl
  | _ => rfl

/-- What the settings of a render have to be, for a schema. -/
structure Spec.SettingsOf (env : Env) (s : Value) (x : Settings) : Prop where
  lang : x.lang = languageOf env.f64 s
  comments : x.comments = optionText env.f64 s c!"comments"
  max : option s c!"infinite_loop_max_bifs" = some (.num (.int x.max))
  filterAll : x.filterAll = optionOn env.f64 s c!"filter_all"
  filterBifs : x.filterBifs = !optionOn env.f64 s c!"cache_disable"
  cachePrefix : x.cachePrefix = optionText env.f64 s c!"cache_prefix"
  cacheDir : x.cacheDir = if optionText env.f64 s c!"cache_dir" = [] then env.tempDir else optionText env.f64 s c!"cache_dir"
  cacheOnPost : x.cacheOnPost = optionOn env.f64 s c!"cache_on_post"
  cacheOnGet : x.cacheOnGet = optionOn env.f64 s c!"cache_on_get"
  cacheOnCookies : x.cacheOnCookies = optionOn env.f64 s c!"cache_on_cookies"
  cacheDisable : x.cacheDisable = optionOn env.f64 s c!"cache_disable"
  disableJs : x.disableJs = optionOn env.f64 s c!"disable_js"
  debugExpire : option s c!"debug_expire" = some (.num (.int x.debugExpire))
  debugFile : x.debugFile = optionText env.f64 s c!"debug_file"
  workingDir : x.workingDir = env.workDir

theorem u64_some {v : Option Value} {n : Nat} (h : v.bind Value.asU64? = some n) : v = some (.num (.int n)) := by
  cases v with
  | none => simp at h
  | some v =>
    simp only [Option.bind_some] at h
    unfold Value.asU64? at h
    split at h
    · next i =>
      split at h
      · next hi =>
        simp only [Option.some.injEq] at h
        rw [← h, Int.toNat_of_nonneg hi]
      · simp at h
    · simp at h

/-- **C82 (start).** The settings with which a render starts are the options of its schema; and a render starts unless one of the
two numbers is not there. -/
theorem C82_start (env : Env) (w : World) (s : Value) :
    (∀ sh, Shared.new env w s = some sh → SettingsOf env s (settings sh)) ∧
    (Shared.new env w s ≠ none ↔ ∃ a b : Nat, option s c!"infinite_loop_max_bifs" = some (.num (.int a)) ∧
      option s c!"debug_expire" = some (.num (.int b))) := by
  unfold Shared.new
  dsimp only
  rw [option_num, option_num]
  constructor
  · intro sh h
    split at h
    · next m e hm he =>
      simp only [Option.some.injEq] at h
      subst h
      refine ⟨language_text _ _, option_text _ _ (by decide), u64_some hm, option_on _ _ (by decide), ?_, option_text _ _ (by decide), ?_,
        option_on _ _ (by decide), option_on _ _ (by decide), option_on _ _ (by decide), option_on _ _ (by decide),
        option_on _ _ (by decide), u64_some he, option_text _ _ (by decide), rfl⟩
      · show (!isBoolKey env.f64 (s.index c!"config") c!"cache_disable") = _
        rw [option_on _ _ (by decide)]
      · show (if (getFromKey env.f64 (s.index c!"config") c!"cache_dir").isEmpty then _ else _) = _
        rw [option_text _ _ (by decide)]
        simp only [List.isEmpty_iff]
    · simp at h
  · constructor
    · intro h
      split at h
      · next m e hm he => exact ⟨m, e, u64_some hm, u64_some he⟩
      · exact absurd rfl h
    · rintro ⟨a, b, h1, h2⟩
      rw [h1, h2]
      simp [Value.asU64?]

/-- **C82 (render).** After a render, whatever the template does, the settings are the options of the schema of the template. -/
theorem C82_settings (env : Env) (n : Nat) (w : World) (t t' : Tpl) (hb : contains bifOpen t.raw = true) (h : t.render env n w = .ok t') :
    SettingsOf env t.schema (settings t'.shared) := by
  obtain ⟨⟨sh, h1, h2⟩, _⟩ := C21_render env n w t t' hb h
  rw [h2]
  exact (C82_start env w t.schema).1 sh h1

theorem siteOf_from {env : Env} {w : World} {s : Value} {sh : Shared} (h : Shared.new env w s = some sh) : SiteOf env sh (siteFrom env w s) := by
  have h1 := (C82_start env w s).1 sh h
  have h2 : sh.w = w := by
    unfold Shared.new at h
    dsimp only at h
    split at h
    · simp only [Option.some.injEq] at h
      rw [← h]
    · simp at h
  refine ⟨rfl, h1.filterAll.symm, h1.filterBifs.symm, h1.lang.symm, rfl, rfl, ?_⟩
  intro path t ht
  rw [h2]
  simp only [siteFrom] at ht
  split at ht
  · next e c he hc => exact ⟨e, c, he, hc, ht⟩
  · simp at ht

/-- **C82 (meaning).** C77 with the options taken from the schema: a template renders to its meaning over the data, the
definitions, the options and the files, whatever they are. -/
theorem C82_render (env : Env) (n : Nat) (w : World) (t : Tpl) (l : List Node) (s d defs : Obj) (max expire : Nat)
    (hok : AllOk (siteFrom env w t.schema) [] l) (hraw : t.raw = printAll l) (hb : c!"{:" <:+: printAll l)
    (hs : t.schema = .obj s) (hd : Obj.get? c!"data" s = some (.obj d)) (hinh : Obj.get? c!"inherit" s = some (.obj defs))
    (hpar : entry defs c!"params" = .null ∨ ∃ o, entry defs c!"params" = .obj o)
    (hm : option t.schema c!"infinite_loop_max_bifs" = some (.num (.int max)))
    (he : option t.schema c!"debug_expire" = some (.num (.int expire)))
    (hmax : (meansAll (siteFrom env w t.schema) [] l (startMem d defs)).2.bifs ≤ max)
    (hcache : ¬ c!"{:!cache;" <:+: trim (meansAll (siteFrom env w t.schema) [] l (startMem d defs)).1) :
    ∃ r t', r = meansAll (siteFrom env w t.schema) [] l (startMem d defs) ∧ t.render env n w = .ok t' ∧
      TextResult t' r.1 r.2.bifs ∧ t'.shared.schema.index c!"data" = .obj r.2.data := by
  cases hnew : Shared.new env w t.schema with
  | none => exact absurd hnew ((C82_start env w t.schema).2.2 ⟨max, expire, hm, he⟩)
  | some sh =>
    have h1 := ((C82_start env w t.schema).1 sh hnew).max
    rw [hm] at h1
    have h2 : sh.max = max := by
      simp only [Option.some.injEq, Value.num.injEq, Num.int.injEq] at h1
      exact (Int.ofNat_inj.1 h1).symm
    refine C77_render env n w t _ l sh s d defs hnew (siteOf_from hnew) hok hraw hb hs hd hinh ⟨hpar, ?_, ?_⟩ (by rw [h2]; exact hmax) hcache
    · show _ = entry (definitionsOf t.schema) c!"snippets"
      rw [hs]
      unfold definitionsOf
      simp only [hinh]
    · show _ = entry (definitionsOf t.schema) c!"declare"
      rw [hs]
      unfold definitionsOf
      simp only [hinh]

/-! ### The premises are met -/

/-- A schema with the option `filter_all`. -/
def Sample.strict (defs data : Obj) : Value := .obj [
  (c!"config", .obj [(c!"infinite_loop_max_bifs", .num (.int 1000)), (c!"comments", .str c!"remove"), (c!"filter_all", .bool true),
    (c!"debug_expire", .num (.int 3600))]),
  (c!"data", .obj data), (c!"inherit", .obj defs)]

/-- The options of the schema. -/
example : optionOn Sample.env.f64 (Sample.strict [] []) c!"filter_all" = true ∧ optionOn Sample.env.f64 (Sample.strict [] []) c!"cache_disable" = false ∧
    optionText Sample.env.f64 (Sample.strict [] []) c!"comments" = c!"remove" := by decide

theorem Sample.strict_ok : AllOk (siteFrom Sample.env Sample.pageWorld (Sample.strict Sample.pageDefs Sample.pageData)) [] Sample.page := by
  simp only [Sample.page, Sample.part, Sample.button, AllOk, Node.Ok, Leaf.Ok, and_true, true_and]
  exact ⟨textOk_of (by decide), ⟨nameOk_of (by decide), ⟨nameOk_of (by decide), by decide⟩, ⟨nameOk_of (by decide), by decide⟩,
      textOk_of (by decide), nameOk_of (by decide), textOk_of (by decide),
      ⟨by decide, nameOk_of (by decide), textOk_of (by decide), nameOk_of (by decide)⟩, textOk_of (by decide)⟩,
    ⟨by decide, nameOk_of (by decide), textOk_of (by decide), textOk_of (by decide), by decide, by decide⟩,
    ⟨nameOk_of (by decide), nameOk_of (by decide), nameOk_of (by decide)⟩, textOk_of (by decide),
    ⟨⟨nameOk_of (by decide), textOk_of (by decide), nameOk_of (by decide)⟩,
      ⟨nameOk_of (by decide), by decide⟩, by decide, by decide, by decide, nameOk_of (by decide), textOk_of (by decide)⟩,
    ⟨nameOk_of (by decide), by decide, rfl, textOk_of (by decide), textOk_of (by decide), textOk_of (by decide), nameOk_of (by decide),
      textOk_of (by decide)⟩,
    ⟨by decide, nameOk_of (by decide), by decide, textOk_of (by decide), nameOk_of (by decide), textOk_of (by decide)⟩,
    ⟨textOk_of (by decide), nameOk_of (by decide), textOk_of (by decide), by decide, by decide⟩,
    ⟨nameOk_of (by decide), by decide, nameOk_of (by decide)⟩,
    ⟨nameOk_of (by decide), by decide, textOk_of (by decide), nameOk_of (by decide), textOk_of (by decide)⟩,
    ⟨textOk_of (by decide), nameOk_of (by decide)⟩, by decide, textOk_of (by decide)⟩

set_option maxRecDepth 10000 in
/-- The premises are met. -/
example : ∃ r t', r = meansAll (siteFrom Sample.env Sample.pageWorld (Sample.strict Sample.pageDefs Sample.pageData)) [] Sample.page
      (startMem Sample.pageData Sample.pageDefs) ∧
    (Sample.tpl (Sample.strict Sample.pageDefs Sample.pageData) (printAll Sample.page)).render Sample.env 10 Sample.pageWorld = .ok t' ∧
    TextResult t' r.1 r.2.bifs ∧ t'.shared.schema.index c!"data" = .obj r.2.data :=
  C82_render Sample.env 10 Sample.pageWorld (Sample.tpl (Sample.strict Sample.pageDefs Sample.pageData) (printAll Sample.page)) Sample.page _
    Sample.pageData Sample.pageDefs 1000 3600 Sample.strict_ok rfl (by decide +kernel) rfl rfl rfl (.inr ⟨_, rfl⟩) rfl rfl (by decide +kernel)
    (by decide +kernel)

set_option maxRecDepth 10000 in
/-- What is rendered: variables without `&` are filtered. -/
example : (Sample.outOf ((Sample.tpl (Sample.strict Sample.pageDefs [(c!"x", .str c!"<")]) c!"{:;x:}").render Sample.env 10
      Sample.pageWorld)).map (·.1) = some c!"&lt;" := by decide +kernel

end Nts
