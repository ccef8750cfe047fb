import Verif.Lemmas.Eval
import Verif.Lemmas.RunInh
import Verif.Props.Cond
import Verif.Props.Escape
import Verif.Props.Invariants
import Verif.Props.Render
import Verif.Props.AllowName
/-
C25, C26, C27: variables.
-/
set_option autoImplicit false
namespace Nts
open Spec

/-! ### pairs of characters -/

theorem pair_cons {a b c : Char} {s : Str} : [a, b] <:+: c :: s ↔ (c = a ∧ s.head? = some b) ∨ [a, b] <:+: s := by
  rw [List.infix_cons_iff]
  constructor
  · rintro (⟨t, h⟩ | h)
    · injection h with h1 h2
      left
      subst h2
      exact ⟨h1.symm, rfl⟩
    · exact .inr h
  · rintro (⟨rfl, h⟩ | h)
    · left
      cases s with
      | nil => simp at h
      | cons d s =>
        simp only [List.head?_cons, Option.some.injEq] at h
        subst h
        exact ⟨s, rfl⟩
    · exact .inr h

theorem pair_prefix {a b c : Char} {s : Str} : [a, b] <+: c :: s ↔ c = a ∧ s.head? = some b := by
  constructor
  · rintro ⟨t, h⟩
    injection h with h1 h2
    subst h2
    exact ⟨h1.symm, rfl⟩
  · rintro ⟨rfl, h⟩
    cases s with
    | nil => simp at h
    | cons d s =>
      simp only [List.head?_cons, Option.some.injEq] at h
      subst h
      exact ⟨s, rfl⟩

theorem pair_append {a b : Char} {s t : Str} (h1 : ¬ [a, b] <:+: s) (h2 : ¬ [a, b] <:+: t)
    (h3 : s.getLast? ≠ some a ∨ t.head? ≠ some b) : ¬ [a, b] <:+: s ++ t := by
  induction s with
  | nil => exact h2
  | cons c s ih =>
    rw [List.cons_append, pair_cons]
    rw [pair_cons] at h1
    rintro (⟨rfl, h⟩ | h)
    · cases s with
      | nil =>
        rcases h3 with h3 | h3
        · exact h3 rfl
        · exact h3 h
      | cons d s => exact h1 (.inl ⟨rfl, h⟩)
    · refine ih (fun h => h1 (.inr h)) ?_ h
      rcases h3 with h3 | h3
      · left
        intro h4
        apply h3
        cases s with
        | nil => simp at h4
        | cons d s => rw [List.getLast?_cons_cons]; exact h4
      · exact .inr h3

theorem replGo_head {f t : Str} (ht : t ≠ []) (hf : f ≠ []) (s : Str) :
    (replGo f t 0 s).head? = t.head? ∨ (replGo f t 0 s).head? = s.head? := by
  cases s with
  | nil => right; rfl
  | cons c s =>
    by_cases h : f <+: c :: s
    · obtain ⟨r, hr⟩ := h
      rw [← hr, replGo_match f t r hf]
      left
      cases t with
      | nil => exact absurd rfl ht
      | cons d t => rfl
    · rw [replGo_nomatch f t c s h]
      right; rfl

/-- The sanitised text contains no delimiter. -/
theorem sanitize_open (s : Str) : ¬ c!"{:" <:+: replaceAll c!"{:" c!"&#123;:" s := by
  unfold replaceAll
  rw [if_neg (by decide)]
  suffices ∀ n (s : Str), s.length ≤ n → ¬ c!"{:" <:+: replGo c!"{:" c!"&#123;:" 0 s from this _ s (Nat.le_refl _)
  intro n
  induction n with
  | zero =>
    intro s hs
    cases s with
    | nil => decide
    | cons c s => simp at hs
  | succ n ih =>
    intro s hs
    cases s with
    | nil => decide
    | cons c s =>
      by_cases h : c!"{:" <+: c :: s
      · obtain ⟨r, hr⟩ := h
        rw [← hr, replGo_match _ _ r (by decide)]
        have hl : r.length ≤ n := by
          have := congrArg List.length hr
          simp at this hs; omega
        exact pair_append (by decide) (ih r hl) (.inl (by decide))
      · rw [replGo_nomatch _ _ c s h, pair_cons]
        rintro (⟨rfl, h2⟩ | h2)
        · apply h
          rw [pair_prefix]
          refine ⟨rfl, ?_⟩
          rcases replGo_head (f := c!"{:") (t := c!"&#123;:") (by decide) (by decide) s with h3 | h3
          · rw [h2] at h3; exact absurd h3 (by decide)
          · rw [← h3, h2]
        · exact ih s (by simp at hs; omega) h2

theorem sanitize_close (s : Str) : ¬ c!":}" <:+: replaceAll c!":}" c!":&#125;" s := by
  unfold replaceAll
  rw [if_neg (by decide)]
  suffices ∀ n (s : Str), s.length ≤ n → ¬ c!":}" <:+: replGo c!":}" c!":&#125;" 0 s from this _ s (Nat.le_refl _)
  intro n
  induction n with
  | zero =>
    intro s hs
    cases s with
    | nil => decide
    | cons c s => simp at hs
  | succ n ih =>
    intro s hs
    cases s with
    | nil => decide
    | cons c s =>
      by_cases h : c!":}" <+: c :: s
      · obtain ⟨r, hr⟩ := h
        rw [← hr, replGo_match _ _ r (by decide)]
        have hl : r.length ≤ n := by
          have := congrArg List.length hr
          simp at this hs; omega
        exact pair_append (by decide) (ih r hl) (.inl (by decide))
      · rw [replGo_nomatch _ _ c s h, pair_cons]
        rintro (⟨rfl, h2⟩ | h2)
        · apply h
          rw [pair_prefix]
          refine ⟨rfl, ?_⟩
          rcases replGo_head (f := c!":}") (t := c!":&#125;") (by decide) (by decide) s with h3 | h3
          · rw [h2] at h3; exact absurd h3 (by decide)
          · rw [← h3, h2]
        · exact ih s (by simp at hs; omega) h2

theorem close_keeps_open (s : Str) (hs : ¬ c!"{:" <:+: s) : ¬ c!"{:" <:+: replaceAll c!":}" c!":&#125;" s := by
  unfold replaceAll
  rw [if_neg (by decide)]
  suffices ∀ n (s : Str), s.length ≤ n → ¬ c!"{:" <:+: s → ¬ c!"{:" <:+: replGo c!":}" c!":&#125;" 0 s from
    this _ s (Nat.le_refl _) hs
  intro n
  induction n with
  | zero =>
    intro s hl _
    cases s with
    | nil => decide
    | cons c s => simp at hl
  | succ n ih =>
    intro s hl hs
    cases s with
    | nil => decide
    | cons c s =>
      by_cases h : c!":}" <+: c :: s
      · obtain ⟨r, hr⟩ := h
        rw [← hr, replGo_match _ _ r (by decide)]
        have hl : r.length ≤ n := by
          have := congrArg List.length hr
          simp at this hl; omega
        refine pair_append (by decide) (ih r hl (fun hx => hs ?_)) (.inl (by decide))
        rw [← hr]
        exact hx.trans (List.suffix_append c!":}" r).isInfix
      · rw [replGo_nomatch _ _ c s h, pair_cons]
        rw [pair_cons] at hs
        rintro (⟨rfl, h2⟩ | h2)
        · apply hs
          left
          refine ⟨rfl, ?_⟩
          rcases replGo_head (f := c!":}") (t := c!":&#125;") (by decide) (by decide) s with h3 | h3
          · cases s with
            | nil => simp [replGo] at h2
            | cons d s =>
              by_cases hp : c!":}" <+: d :: s
              · rw [pair_prefix] at hp
                rw [hp.1]; rfl
              · rw [replGo_nomatch _ _ d s hp] at h2
                exact h2
          · rw [← h3, h2]
        · exact ih s (by simp at hl; omega) (fun hx => hs (.inr hx)) h2

theorem sanitizeBifs_none (s : Str) : ¬ c!"{:" <:+: sanitizeBifs s ∧ ¬ c!":}" <:+: sanitizeBifs s :=
  ⟨close_keeps_open _ (sanitize_open s), sanitize_close _⟩

/-! ### C25 -/

/-- What `var` prints for a value with the text `v` found under `name`. -/
def varText (filtering filterBifs negate : Bool) (name v : Str) : Str :=
  let out1 := if filtering then (if !startsWith c!"CONTEXT->" name then reescape true v else v)
    else if filterBifs then sanitizeBifs v else v
  if negate && !filterBifs && startsWith c!"CONTEXT->" name then unescapeChars true out1 else out1

/-- Everything `var` can print. -/
theorem bifVar_post (env : Env) {R : Rec} (hR : RecRel SameConfig R) (s : St) :
    (run R (bifVar env) s).Post (fun s' => s'.b.out = s.b.out ∨ s'.b.out = c!"&#0;" ∨
      ∃ name v, s'.b.out = varText ((s.b.modFilter || s.sh.filterAll) && !s.b.modNegate) s.sh.filterBifs s.b.modNegate name v) := by
  unfold bifVar
  simp only [run_bind, run_denyMods]
  split
  · exact .inl rfl
  simp only [andThen_ok, run_getSt, run_ite]
  split
  · simp [Res.Post]
  simp only [run_bind, run_setAlias, andThen_ok, run_ite]
  split
  · unfold requireAllow
    cases containsAllow s.b.src with
    | none => simp [Res.Post]
    | some b =>
      cases b with
      | false => simp [Res.Post]
      | true =>
        simp only [run_pure', andThen_ok, run_childParse]
        cases hs : step R (.child s.b.src s.b.modScope) { s with b := { s.b with alias := c!"var" } } with
        | ok x s1 =>
          have hr := step_rel (P := fun _ => True) sameConfig_closed.toSteps hR _ _ _ _ trivial hs
          have hb := (step_child_ok hs).1
          simp only [toRes_ok, andThen_ok, run_getSt, run_setOut]
          right; right
          refine ⟨x, getData env s1 x, ?_⟩
          have e1 : s1.sh.filterAll = s.sh.filterAll := congrArg Settings.filterAll hr.1
          have e2 : s1.sh.filterBifs = s.sh.filterBifs := congrArg Settings.filterBifs hr.1
          simp only [hb, e1, e2]
          rfl
        | panic p => trivial
        | oof => trivial
  · simp only [run_pure', andThen_ok, run_getSt, run_setOut]
    exact .inr (.inr ⟨_, _, rfl⟩)

/-- The settings under which `{:mods; ... :}` filters its output. -/
def Spec.Filtering (sh : Shared) (mods : Str) : Prop := ('&' ∈ mods ∨ sh.filterAll = true) ∧ '!' ∉ mods

instance (sh : Shared) (mods : Str) : Decidable (Filtering sh mods) := by unfold Filtering; infer_instance

theorem filtering_iff (sh : Shared) (mods : Str) :
    decide (Filtering sh mods) = ((decide ('&' ∈ mods) || sh.filterAll) && !decide ('!' ∈ mods)) := by
  rw [Bool.eq_iff_iff, decide_eq_true_iff]
  simp [Filtering]

theorem named_nil : Named [] := ⟨by simp, fun c r h => by simp at h⟩

theorem runBif_var_out {env : Env} {n : Nat} {sh sh1 : Shared} {inh inh1 : Inherit} {mods src only x : Str}
    (hm : Mods mods) (hsel : Selected inh mods [] only)
    (h : runBif env (runBlocks env n) sh inh (bifText mods [] src) only = .ok x sh1 inh1) :
    ∃ out, x = trim (if '^' ∈ mods then c!"&#9224" ++ out else out) ∧ (out = [] ∨ out = c!"&#0;" ∨ ∃ name v,
      out = varText (decide (Filtering sh mods)) sh.filterBifs (decide ('!' ∈ mods)) name v) := by
  have hmax : sh.count < sh.max := by
    unfold runBif at h
    split at h
    · simp at h
    · omega
  rw [runBif_text env _ sh inh mods [] src only hm named_nil hmax hsel] at h
  have hbody : bifBody env [] = bifVar env := rfl
  have hb := run_sameBif (runBlocks env n) env [] (start sh inh mods [] src only)
  rw [hbody] at h hb
  have hp := bifVar_post env (runBlocks_rel sameConfig_closed env (fun _ => OpsIn_true _) n) (start sh inh mods [] src only)
  have hfl := filtering_iff sh mods
  revert hp hb h
  cases run (runBlocks env n) (bifVar env) (start sh inh mods [] src only) with
  | ok a s' =>
    intro h hb hp
    simp only [bifResult, bifFinish, PRes.ok.injEq] at h
    obtain ⟨rfl, _, _⟩ := h
    refine ⟨s'.b.out, ?_, ?_⟩
    · rw [hb.modUpline]; simp [start]
    · rcases hp with hp | hp | hp
      · exact .inl hp
      · exact .inr (.inl hp)
      · rw [hfl]; exact .inr (.inr hp)
  | err e s' =>
    intro h hb hp
    simp only [bifResult] at h
    split at h
    · simp at h
    simp only [bifFinish, PRes.ok.injEq] at h
    obtain ⟨rfl, _, _⟩ := h
    refine ⟨s'.b.out, ?_, ?_⟩
    · rw [hb.modUpline]; simp [start]
    · rcases hp with hp | hp | hp
      · exact .inl hp
      · exact .inr (.inl hp)
      · rw [hfl]; exact .inr (.inr hp)
  | panic p => intro h; simp [bifResult] at h
  | oof => intro h; simp [bifResult] at h

theorem upline_pair {a b : Char} {out x : Str} {up : Prop} [Decidable up] (ha : a ≠ '4') (h0 : ¬ [a, b] <:+: c!"&#9224")
    (hx : x = trim (if up then c!"&#9224" ++ out else out)) (h : ¬ [a, b] <:+: out) : ¬ [a, b] <:+: x := by
  intro hi
  rw [hx] at hi
  have hi := hi.trans (trim_infix _)
  split at hi
  · refine pair_append h0 h (.inl ?_) hi
    intro h'
    apply ha
    simpa using h'.symm
  · exact h hi

theorem upline_chars {P : Char → Prop} {out x : Str} {up : Prop} [Decidable up] (h0 : ∀ c ∈ c!"&#9224", P c)
    (hx : x = trim (if up then c!"&#9224" ++ out else out)) (h : ∀ c ∈ out, P c) : ∀ c ∈ x, P c := by
  intro c hc
  rw [hx] at hc
  have hc := (trim_infix _).subset hc
  split at hc
  · rcases List.mem_append.1 hc with hc | hc
    · exact h0 c hc
    · exact h c hc
  · exact h c hc

/-- **C25 (no template code).** With `filter_bifs` in force (it is, unless the cache is disabled), the output of a
variable, with any modifiers that do not request the filter, any name (also a computed one) and any data, contains
neither `{:` nor `:}`. -/
theorem C25_no_delimiters (env : Env) (n : Nat) (sh sh1 : Shared) (inh inh1 : Inherit) (mods src only x : Str)
    (hm : Mods mods) (hsel : Selected inh mods [] only) (hfb : sh.filterBifs = true) (hfl : ¬ Filtering sh mods)
    (h : runBif env (runBlocks env n) sh inh (bifText mods [] src) only = .ok x sh1 inh1) :
    ¬ c!"{:" <:+: x ∧ ¬ c!":}" <:+: x := by
  obtain ⟨out, hx, hout⟩ := runBif_var_out hm hsel h
  have ho : ¬ c!"{:" <:+: out ∧ ¬ c!":}" <:+: out := by
    rcases hout with rfl | rfl | ⟨name, v, rfl⟩
    · decide
    · decide
    · have : varText (decide (Filtering sh mods)) sh.filterBifs (decide ('!' ∈ mods)) name v = sanitizeBifs v := by
        simp [varText, hfb, hfl]
      rw [this]
      exact sanitizeBifs_none v
  exact ⟨upline_pair (by decide) (by decide) hx ho.1, upline_pair (by decide) (by decide) hx ho.2⟩

/-- **C25 (`filter_bifs` is the default).** It is in force exactly when `cache_disable` is not set. -/
theorem C25_default (env : Env) (w : World) (sc : Value) (sh : Shared) (h : Shared.new env w sc = some sh) :
    sh.filterBifs = !sh.cacheDisable := by
  unfold Shared.new at h
  dsimp only at h
  split at h
  · simp only [Option.some.injEq] at h
    rw [← h]
  · simp at h

/-- The text of a value. -/
def Spec.textOf (F : F64Ops) : Option Value → Str
  | some (.str s) => s
  | some (.num n) => showNum F n
  | some (.bool true) => c!"true"
  | some (.bool false) => c!"false"
  | _ => []

theorem getData_named (env : Env) (s : St) (name : Str) : getData env s name = textOf env.f64 (named s.sh s.inh name) := by
  have hk : ∀ v k, getFromKey env.f64 v k = textOf env.f64 (resolvePointer v k) := by
    intro v k
    unfold getFromKey
    cases resolvePointer v k with
    | none => rfl
    | some w =>
      cases w with
      | bool b => cases b <;> rfl
      | _ => rfl
  unfold getData named localDataOf dataOf
  cases stripPrefix? c!"local::" name <;> exact hk _ _

/-- What a variable whose value has the text `v` prints: `y`. -/
structure Spec.Printed (sh : Shared) (mods name v y : Str) : Prop where
  /-- filtered: no special character, and nothing is lost -/
  filtered : Filtering sh mods → ¬ c!"CONTEXT->" <+: name → Clean true y ∧ unescapeChars true y = unescapeChars true v
  /-- request data is already filtered when the render starts -/
  context : Filtering sh mods → c!"CONTEXT->" <+: name → y = v
  /-- not filtered: no delimiter, and a text without delimiters is unchanged -/
  plain : ¬ Filtering sh mods → sh.filterBifs = true → ¬ c!"{:" <:+: y ∧ ¬ c!":}" <:+: y
  same : ¬ Filtering sh mods → sh.filterBifs = true → ¬ c!"{:" <:+: v → ¬ c!":}" <:+: v → y = v

theorem varText_printed (sh : Shared) (mods name v : Str) :
    Printed sh mods name v (varText (decide (Filtering sh mods)) sh.filterBifs (decide ('!' ∈ mods)) name v) := by
  refine ⟨?_, ?_, ?_, ?_⟩
  · intro h1 h2
    have h2' : startsWith c!"CONTEXT->" name = false := by rw [← Bool.not_eq_true, startsWith_iff]; exact h2
    have : varText (decide (Filtering sh mods)) sh.filterBifs (decide ('!' ∈ mods)) name v =
        escapeChars true (unescapeChars true v) := by
      simp [varText, h1, h2', reescape]
    rw [this]
    exact ⟨C01_escape_clean _ _, C02_roundtrip _ _⟩
  · intro h1 h2
    have h2' : startsWith c!"CONTEXT->" name = true := startsWith_iff.2 h2
    have : decide ('!' ∈ mods) = false := by simpa using h1.2
    simp [varText, h1, h2', this]
  · intro h1 h2
    have : varText (decide (Filtering sh mods)) sh.filterBifs (decide ('!' ∈ mods)) name v = sanitizeBifs v := by
      simp [varText, h2, h1]
    rw [this]
    exact sanitizeBifs_none v
  · intro h1 h2 h3 h4
    have : varText (decide (Filtering sh mods)) sh.filterBifs (decide ('!' ∈ mods)) name v = sanitizeBifs v := by
      simp [varText, h2, h1]
    rw [this]
    unfold sanitizeBifs
    rw [replaceAll_of_not_infix (by decide) h3, replaceAll_of_not_infix (by decide) h4]

/-- What a variable prints. -/
theorem var_exact (env : Env) (n : Nat) (sh sh1 : Shared) (inh inh1 : Inherit) (mods src only name : Str)
    (hm : Mods mods) (hsc : '+' ∉ mods) (hmax : sh.count < sh.max) (hsel : Selected inh mods [] only)
    (hne : trim src ≠ [])
    (hallow : c!"{:" <:+: trim src → Accepted (trim src))
    (hname : nested (runBlocks env n) false (counted sh) (entered sh inh) c!"var" (trim src) only = .ok name sh1 inh1) :
    runBif env (runBlocks env n) sh inh (bifText mods [] src) only = finish (decide ('^' ∈ mods))
      (varText (decide (Filtering sh mods)) sh.filterBifs (decide ('!' ∈ mods)) name (textOf env.f64 (Spec.named sh1 inh1 name)))
      sh1 inh1 := by
  rw [runBif_text env _ sh inh mods [] src only hm named_nil hmax hsel]
  have hbody : bifBody env [] = bifVar env := rfl
  rw [hbody]
  unfold bifVar
  simp only [run_bind, run_denyMods]
  rw [if_neg (by simp [start, hsc])]
  simp only [andThen_ok, run_getSt, run_ite]
  rw [if_neg (by simpa [start] using hne)]
  simp only [run_bind, run_setAlias, andThen_ok, run_ite]
  have hfl := filtering_iff sh mods
  by_cases hc : contains c!"{:" (trim src) = true
  · rw [if_pos (by exact hc)]
    have ha : containsAllow (trim src) = some true := containsAllow_true (hallow ((contains_iff (by decide)).1 hc))
    have hra : requireAllow (start sh inh mods [] src only).b.src c!"insecure varname" = .pure () := by
      unfold requireAllow
      rw [show (start sh inh mods [] src only).b.src = trim src from rfl, ha]
    rw [hra]
    simp only [run_pure', andThen_ok]
    change bifResult env (((run (runBlocks env n) (childParse (trim src) (decide ('+' ∈ mods))) _)).andThen _) = _
    rw [run_child_nested _ _ _ _ rfl rfl hc]
    have hsc' : decide ('+' ∈ mods) = false := by simpa using hsc
    rw [hsc']
    change bifResult env (Res.andThen (match nested (runBlocks env n) false (counted sh) (entered sh inh) c!"var" (trim src) only with
      | .ok x sh' inh' => _
      | .panic p => _
      | .oof => _) _) = _
    have hcfg : SameConfig sh sh1 := by
      have hb := runBlocks_rel sameConfig_closed env (fun _ => OpsIn_true _) n
      unfold nested at hname
      rw [if_pos hc] at hname
      split at hname
      · next x s hs =>
        simp only [PRes.ok.injEq] at hname
        obtain ⟨_, rfl, _⟩ := hname
        exact runChild_post (P := fun _ => True) sameConfig_closed.toSteps (fun sh inh => parseSrc_post sameConfig_closed.toSteps hb sh inh _ _) hs
      · simp at hname
      · simp at hname
    have e1 : sh1.filterAll = sh.filterAll := congrArg Settings.filterAll hcfg.1
    have e2 : sh1.filterBifs = sh.filterBifs := congrArg Settings.filterBifs hcfg.1
    rw [hname]
    simp only [andThen_ok, run_getSt, run_setOut, getData_named, e1, e2, hfl]
    rfl
  · rw [if_neg (by exact hc)]
    unfold nested at hname
    rw [if_neg hc] at hname
    simp only [PRes.ok.injEq] at hname
    obtain ⟨rfl, rfl, rfl⟩ := hname
    simp only [run_pure', andThen_ok, run_getSt, run_setOut, getData_named, hfl]
    rfl

/-- **C25 (what is printed).** When the name of the variable (literal, or computed under `allow`) evaluates to `name`,
leaving the state `sh1`, the output is `y`, the printed form of the text of the value stored under `name`. -/
theorem C25_value (env : Env) (n : Nat) (sh sh1 : Shared) (inh inh1 : Inherit) (mods src only name : Str)
    (hm : Mods mods) (hsc : '+' ∉ mods) (hmax : sh.count < sh.max) (hsel : Selected inh mods [] only)
    (hne : trim src ≠ [])
    (hallow : c!"{:" <:+: trim src → Accepted (trim src))
    (hname : nested (runBlocks env n) false (counted sh) (entered sh inh) c!"var" (trim src) only = .ok name sh1 inh1) :
    ∃ y, runBif env (runBlocks env n) sh inh (bifText mods [] src) only = finish (decide ('^' ∈ mods)) y sh1 inh1 ∧
      Printed sh mods name (textOf env.f64 (Spec.named sh1 inh1 name)) y := by
  exact ⟨_, var_exact env n sh sh1 inh inh1 mods src only name hm hsc hmax hsel hne hallow hname, varText_printed sh mods name _⟩

theorem resolveStep_below {v w : Value} {k : Str} (h : resolveStep v k = some w) : Below v w := by
  cases v with
  | obj o => exact .obj (Obj.get?_mem h) (.here _)
  | arr a =>
    simp only [resolveStep, Option.bind_eq_some_iff] at h
    obtain ⟨i, _, h⟩ := h
    exact .arr (List.mem_of_getElem? h) (.here _)
  | _ => simp [resolveStep] at h

theorem Spec.Below.trans {u v w : Value} (h1 : Below u v) (h2 : Below v w) : Below u w := by
  induction h1 with
  | here => exact h2
  | arr hx _ ih => exact .arr hx (ih h2)
  | obj hx _ ih => exact .obj hx (ih h2)

theorem follow_below {v w : Value} {ks : List Str} (h : follow v ks = some w) : Below v w := by
  induction ks generalizing v with
  | nil => simp only [follow, Option.some.injEq] at h; subst h; exact .here _
  | cons k ks ih =>
    rw [follow_cons, Option.bind_eq_some_iff] at h
    obtain ⟨x, h1, h2⟩ := h
    exact (resolveStep_below h1).trans (ih h2)

/-- A name below `CONTEXT` denotes a part of the request data. -/
theorem resolve_context {d w : Value} {rest : Str} (h : resolvePointer d (c!"CONTEXT->" ++ rest) = some w) :
    Below (d.index c!"CONTEXT") w := by
  obtain ⟨l, last, h1, h2, rfl⟩ := C09_every_name rest
  have e : c!"CONTEXT->" ++ nameOf l last = nameOf ((c!"CONTEXT", true) :: l) last := rfl
  rw [e, C09_path] at h
  · have hf : (((c!"CONTEXT", true) :: l).map (fun e : Str × Bool => e.1) ++ [last]).filter (fun k => !k.isEmpty) =
        c!"CONTEXT" :: (l.map (fun e => e.1) ++ [last]).filter (fun k => !k.isEmpty) := rfl
    rw [hf, follow_cons, Option.bind_eq_some_iff] at h
    obtain ⟨x, h1, h2⟩ := h
    have hx : d.index c!"CONTEXT" = x := by
      cases d with
      | obj o =>
        have h1 : Obj.get? c!"CONTEXT" o = some x := h1
        simp [Value.index, Value.get?, h1]
      | arr a => exact absurd h1 (by rw [resolveStep, show parseU64 c!"CONTEXT" = none from rfl]; simp)
      | _ => exact absurd h1 (by simp [resolveStep])
    rw [hx]
    exact follow_below h2
  · intro e he
    rcases List.mem_cons.1 he with rfl | he
    · exact ⟨by decide, by decide⟩
    · exact h1 e he
  · simp
  · exact h2

theorem digit_not_special {c : Char} (h : c ∈ c!"0123456789") : c ∉ special true := by
  revert h
  simp only [List.mem_cons, List.not_mem_nil, or_false]
  rintro (rfl | rfl | rfl | rfl | rfl | rfl | rfl | rfl | rfl | rfl) <;> decide

/-- **C25 (filter).** With the filter modifier or `filter_all`, and no `!`, the output of a variable has none of the
special characters: always for names outside `CONTEXT`, and for names in `CONTEXT` as long as the request data is clean
(it is when the render starts: C04).  `hshow`: printed numbers have no special characters. -/
theorem C25_filtered (env : Env) (n : Nat) (sh sh1 : Shared) (inh inh1 : Inherit) (mods src only x : Str)
    (hm : Mods mods) (hsc : '+' ∉ mods) (hmax : sh.count < sh.max) (hsel : Selected inh mods [] only)
    (hlit : ¬ c!"{:" <:+: trim src) (hfl : Filtering sh mods)
    (hctx : c!"CONTEXT->" <+: trim src → AllClean ((sh.schema.index c!"data").index c!"CONTEXT"))
    (hshow : ∀ b, ∀ c ∈ env.f64.show_ b, c ∉ special true)
    (h : runBif env (runBlocks env n) sh inh (bifText mods [] src) only = .ok x sh1 inh1) :
    ∀ c ∈ x, c ∉ special true := by
  by_cases hne : trim src = []
  · obtain ⟨out, hx, hout⟩ := runBif_var_out hm hsel h
    have := hlit
    rw [runBif_text env _ sh inh mods [] src only hm named_nil hmax hsel] at h
    have hbody : bifBody env [] = bifVar env := rfl
    rw [hbody] at h
    unfold bifVar at h
    simp only [run_bind, run_denyMods] at h
    rw [if_neg (by simp [start, hsc])] at h
    simp only [andThen_ok, run_getSt, run_ite] at h
    rw [if_pos (by simpa [start] using hne)] at h
    simp only [run_bind, run_setAlias, andThen_ok, run_setOut, bifResult, bifFinish, PRes.ok.injEq] at h
    obtain ⟨hx, _, _⟩ := h
    rw [← hx]
    refine upline_chars (up := '^' ∈ mods) (out := c!"&#0;") (by decide) ?_ (by decide)
    simp [start]
  · obtain ⟨y, h1, h2⟩ := C25_value env n sh (counted sh) inh (entered sh inh) mods src only (trim src) hm hsc hmax hsel hne
      (fun hx => absurd hx hlit) (nested_plain hlit)
    rw [h1] at h
    simp only [finish, PRes.ok.injEq] at h
    obtain ⟨hx, _, _⟩ := h
    refine upline_chars (up := '^' ∈ mods) (out := y) (by decide) ?_ ?_
    · rw [← hx]; simp
    · by_cases hc : c!"CONTEXT->" <+: trim src
      · rw [h2.context hfl hc]
        have hcl := hctx hc
        obtain ⟨rest, hr⟩ := hc
        have hp : stripPrefix? c!"local::" (trim src) = none := by
          rw [← hr]; rfl
        have hn : Spec.named (counted sh) (entered sh inh) (trim src) = resolvePointer (sh.schema.index c!"data") (trim src) := by
          unfold Spec.named; rw [hp]; rfl
        rw [hn]
        cases hv : resolvePointer (sh.schema.index c!"data") (trim src) with
        | none => simp [textOf]
        | some w =>
          rw [← hr] at hv
          have hb := resolve_context hv
          cases w with
          | str s => exact (hcl.1 s hb).1
          | num k =>
            cases k with
            | int i =>
              intro c hc
              simp only [textOf, showNum, showInt] at hc
              split at hc
              · rcases List.mem_cons.1 hc with rfl | hc
                · decide
                · exact digit_not_special (showNat_digits _ c hc)
              · exact digit_not_special (showNat_digits _ c hc)
            | flt b => exact hshow b
          | bool b => cases b <;> (simp only [textOf]; decide)
          | _ => simp [textOf]
      · exact (h2.filtered hfl hc).1.1


/-- The theorems of C25 apply to variables of a real render, and the special characters do not get through. -/
example :
    Sample.outOf (Sample.go [(c!"x", .str c!"{:exit;404:}<b>")] c!"{:;x:}|{:&;x:}|{:^;x:}") =
      some (c!"&#123;:exit;404:&#125;<b>|&#123;:exit;404:&#125;&lt;b&gt;|&#123;:exit;404:&#125;<b>", c!"200") := by
  decide +kernel

/-! ### C27 -/

theorem refused_open {c : Str} (h : Refused c) : c!"{:" <:+: c := by
  obtain ⟨_, t, ht, h1, _⟩ := h
  by_cases hc : c!"{:*" <:+: c
  · exact List.IsInfix.trans (by decide) hc
  · have := uncommented_unique (uncommented_self hc) _ ht
    injection this with this
    subst this
    exact List.IsInfix.trans (by decide) h1.isInfix

/-- **C27.** A variable whose name is itself a variable — a text from `{:;` to `:}`, its comments apart, without `allow` — is rejected,
whatever the data: no output, an error is recorded, and nothing is evaluated. -/
theorem C27_refused (env : Env) (R : Rec) (sh : Shared) (inh : Inherit) (mods src only : Str)
    (hm : Mods mods) (hsc : '+' ∉ mods) (hmax : sh.count < sh.max) (hsel : Selected inh mods [] only)
    (href : Refused (trim src)) :
    runBif env R sh inh (bifText mods [] src) only =
      failed env mods c!"var" (bifText mods [] src) c!"insecure varname" (counted sh) (entered sh inh) := by
  rw [runBif_text env _ sh inh mods [] src only hm named_nil hmax hsel]
  have hbody : bifBody env [] = bifVar env := rfl
  rw [hbody]
  unfold bifVar
  simp only [run_bind, run_denyMods]
  rw [if_neg (by simp [start, hsc])]
  simp only [andThen_ok, run_getSt, run_ite]
  have hc : contains c!"{:" (trim src) = true := (contains_iff (by decide)).2 (refused_open href)
  rw [if_neg (by
    intro h
    have h : trim src = [] := by simpa [start] using h
    rw [h] at hc
    exact absurd hc (by decide))]
  simp only [run_bind, run_setAlias, andThen_ok, run_ite]
  rw [if_pos (by exact hc)]
  have ha : containsAllow (trim src) = some false := containsAllow_false href
  have hra : requireAllow (start sh inh mods [] src only).b.src c!"insecure varname" = bifError c!"insecure varname" := by
    unfold requireAllow
    rw [show (start sh inh mods [] src only).b.src = trim src from rfl, ha]
  rw [hra]
  simp only [run_bifError, andThen_err]
  exact bifResult_failed env mods c!"var" (bifText mods [] src) c!"insecure varname" (counted sh) (entered sh inh) _
    rfl rfl rfl rfl rfl rfl

/-- **C27, without comments.** `{:; {:; inner :} :}` is rejected, whatever `inner` is. -/
theorem C27_insecure (env : Env) (R : Rec) (sh : Shared) (inh : Inherit) (mods src only inner : Str)
    (hm : Mods mods) (hsc : '+' ∉ mods) (hmax : sh.count < sh.max) (hsel : Selected inh mods [] only)
    (hsrc : trim src = c!"{:;" ++ inner ++ c!":}")
    (h1 : ¬ c!"{:allow;" <:+: trim src) (h2 : ¬ c!"{:!allow;" <:+: trim src) (h3 : ¬ c!"{:*" <:+: trim src) :
    runBif env R sh inh (bifText mods [] src) only =
      failed env mods c!"var" (bifText mods [] src) c!"insecure varname" (counted sh) (entered sh inh) :=
  C27_refused env R sh inh mods src only hm hsc hmax hsel ⟨by rintro (h | h); exact h1 h; exact h2 h, trim src,
    uncommented_self h3, by rw [hsrc]; exact ⟨inner ++ c!":}", by simp⟩, by rw [hsrc]; exact ⟨c!"{:;" ++ inner, rfl⟩⟩

/-- **C27 (exactly).** Every variable with a name computed by BIFs: a refused name is an error without output, and nothing is
evaluated; an accepted one (`Accepted`: with `allow`, or anything else that is not itself a variable) is evaluated, and the variable
of the resulting name is shown; a name without `allow` that ends with `:` and has an unclosed comment panics. -/
theorem C27_exact (env : Env) (n : Nat) (sh : Shared) (inh : Inherit) (mods src only : Str)
    (hm : Mods mods) (hsc : '+' ∉ mods) (hmax : sh.count < sh.max) (hsel : Selected inh mods [] only)
    (hc : c!"{:" <:+: trim src) :
    (Refused (trim src) → runBif env (runBlocks env n) sh inh (bifText mods [] src) only =
      failed env mods c!"var" (bifText mods [] src) c!"insecure varname" (counted sh) (entered sh inh)) ∧
    (Accepted (trim src) → ∀ name sh1 inh1,
      nested (runBlocks env n) false (counted sh) (entered sh inh) c!"var" (trim src) only = .ok name sh1 inh1 →
      runBif env (runBlocks env n) sh inh (bifText mods [] src) only = finish (decide ('^' ∈ mods))
        (varText (decide (Filtering sh mods)) sh.filterBifs (decide ('!' ∈ mods)) name (textOf env.f64 (Spec.named sh1 inh1 name)))
        sh1 inh1) ∧
    (¬ Accepted (trim src) → ¬ Refused (trim src) →
      runBif env (runBlocks env n) sh inh (bifText mods [] src) only = .panic .bounds ∧
      ¬ HasAllow (trim src) ∧ c!":" <:+ trim src ∧ ¬ AllClosed (trim src)) := by
  have hne : trim src ≠ [] := by
    intro h
    rw [h] at hc
    exact absurd hc (by decide)
  refine ⟨C27_refused env _ sh inh mods src only hm hsc hmax hsel, ?_, ?_⟩
  · intro h name sh1 inh1 hname
    exact var_exact env n sh sh1 inh inh1 mods src only name hm hsc hmax hsel hne (fun _ => h) hname
  · intro h1 h2
    rcases allow_cases (trim src) with h | h | ⟨h3, h4, h5, _, _, h6⟩
    · exact absurd h.1 h1
    · exact absurd h.1 h2
    · refine ⟨?_, h3, h4, h5⟩
      rw [runBif_text env _ sh inh mods [] src only hm named_nil hmax hsel]
      have hbody : bifBody env [] = bifVar env := rfl
      rw [hbody]
      unfold bifVar
      simp only [run_bind, run_denyMods]
      rw [if_neg (by simp [start, hsc])]
      simp only [andThen_ok, run_getSt, run_ite]
      rw [if_neg (by simpa [start] using hne)]
      simp only [run_bind, run_setAlias, andThen_ok, run_ite]
      rw [if_pos (by exact (contains_iff (by decide)).2 hc)]
      have hra : requireAllow (start sh inh mods [] src only).b.src c!"insecure varname" = .panic .bounds := by
        unfold requireAllow
        rw [show (start sh inh mods [] src only).b.src = trim src from rfl, h6]
      rw [hra]
      rfl

/-- **C27 (limits of the check).** The rejected form is exactly `{:;{:; ... :}:}`: with any modifier, any text in front, or
another BIF around it the computed name is accepted without `allow`. -/
theorem C27_limits :
    let data : Obj := [(c!"x", .str c!"key"), (c!"key", .str c!"secret"), (c!"akey", .str c!"secret")]
    Sample.outOf (Sample.go data c!"[{:;{:;x:}:}]") = some (c!"[]", c!"200") ∧
    Sample.outOf (Sample.go data c!"[{:;{:&;x:}:}]") = some (c!"[secret]", c!"200") ∧
    Sample.outOf (Sample.go data c!"[{:;{:!;x:}:}]") = some (c!"[secret]", c!"200") ∧
    Sample.outOf (Sample.go data c!"[{:;a{:;x:}:}]") = some (c!"[secret]", c!"200") ∧
    Sample.outOf (Sample.go data c!"[{:;{:code;{:;x:}:}:}]") = some (c!"[secret]", c!"200") := by
  refine ⟨?_, ?_, ?_, ?_, ?_⟩ <;> decide +kernel

/-! ### C26 -/

/-- **C26: the full statement is false.**  (1) `join` prints data unsanitised, and the second pass evaluates it.
(2) Values of adjacent variables are sanitised one by one, but together they can form a BIF that the second pass evaluates.
(3) With `cache_disable` the values of variables are printed unsanitised and evaluated (same schema as above otherwise). -/
theorem C26_refuted :
    Sample.outOf (Sample.go [(c!"a", .arr [.str c!"{:!cache;{:exit;404:}:}"])] c!"{:join;|a|,|:}") =
      some (c!"404 Not Found", c!"404") ∧
    Sample.outOf (Sample.go [(c!"a", .str c!"{"), (c!"b", .str c!":!cache;{"), (c!"c", .str c!":exit;404:"),
        (c!"d", .str c!"}:"), (c!"e", .str c!"}")] c!"{:;a:}{:;b:}{:;c:}{:;d:}{:;e:}") =
      some (c!"404 Not Found", c!"404") ∧
    Sample.outOf ((Sample.tpl ((((Sample.schema 1000 [(c!"a", .str c!"{:!cache;{:exit;404:}:}")] Sample.inherit).modIndex
        c!"config" (fun c => c.setIndex c!"cache_disable" (.bool true)))).getD .null) c!"{:;a:}").render Sample.env 10 Sample.world) =
      some (c!"404 Not Found", c!"404") := by
  refine ⟨?_, ?_, ?_⟩ <;> decide +kernel

end Nts
