import Verif.Lemmas.Eval
import Verif.Props.Var
import Verif.Props.Inject
import Verif.Spec.Sample
/-
C44: the safe flag.
-/
set_option autoImplicit false
namespace Nts
open Spec

/-- A text that can do nothing: no raw HTML character and no template delimiter. -/
def Spec.Inert (y : Str) : Prop := (∀ c ∈ y, c ∉ htmlSpecial) ∧ ¬ c!"{:" <:+: y ∧ ¬ c!":}" <:+: y

/-! ### characters of replacements -/

theorem mem_replGo {f t : Str} {c : Char} (s : Str) : ∀ k, c ∈ replGo f t k s → c ∈ t ∨ c ∈ s := by
  induction s with
  | nil => intro k h; cases k <;> simp [replGo] at h
  | cons d s ih =>
    intro k h
    cases k with
    | zero =>
      simp only [replGo] at h
      split at h
      · rcases List.mem_append.1 h with h | h
        · exact .inl h
        · rcases ih _ h with h | h
          · exact .inl h
          · exact .inr (List.mem_cons_of_mem _ h)
      · rcases List.mem_cons.1 h with h | h
        · exact .inr (by simp [h])
        · rcases ih _ h with h | h
          · exact .inl h
          · exact .inr (List.mem_cons_of_mem _ h)
    | succ k =>
      simp only [replGo] at h
      rcases ih _ h with h | h
      · exact .inl h
      · exact .inr (List.mem_cons_of_mem _ h)

theorem mem_replaceAll {f t s : Str} {c : Char} (hf : f ≠ []) (h : c ∈ replaceAll f t s) : c ∈ t ∨ c ∈ s := by
  unfold replaceAll at h
  rw [if_neg hf] at h
  exact mem_replGo s 0 h

theorem mem_sanitizeBifs {s : Str} {c : Char} (h : c ∈ sanitizeBifs s) : c ∈ c!"&#123;:5" ∨ c ∈ s := by
  unfold sanitizeBifs at h
  rcases mem_replaceAll (by decide) h with h | h
  · have : ∀ c ∈ c!":&#125;", c ∈ c!"&#123;:5" := by decide
    exact .inl (this c h)
  · rcases mem_replaceAll (by decide) h with h | h
    · have : ∀ c ∈ c!"&#123;:", c ∈ c!"&#123;:5" := by decide
      exact .inl (this c h)
    · exact .inr h

theorem inert_safe (t : Str) : Inert (sanitizeBifs (reescape false t)) := by
  refine ⟨?_, sanitizeBifs_none _⟩
  intro c hc
  rcases mem_sanitizeBifs hc with h | h
  · revert h; revert c
    have : ∀ c ∈ c!"&#123;:5", c ∉ htmlSpecial := by decide
    exact fun c _ h => this c h
  · exact (C01_escape_clean false _).1 c h

/-! ### nothing is lost -/

/-- Texts made of entities and of characters other than `&`. -/
inductive Toks : Str → Prop
  | nil : Toks []
  | cons {c : Char} {s : Str} : c ≠ '&' → Toks s → Toks (c :: s)
  | ent {e s : Str} : e ∈ entities true → Toks s → Toks (e ++ s)

theorem toks_tail {c : Char} {s : Str} (hc : c ≠ '&') (h : Toks (c :: s)) : Toks s := by
  generalize hx : c :: s = x at h
  cases h with
  | nil => simp at hx
  | cons _ h => injection hx with h1 h2; subst h2; exact h
  | @ent e r he h =>
    obtain ⟨m, rfl, _⟩ := entity_shape he
    injection hx with h1 h2
    exact absurd h1 hc

theorem replGo_pass {f t e : Str} {a : Char} {r : Str} (hf : f = a :: r) (he : a ∉ e) (s : Str) :
    replGo f t 0 (e ++ s) = e ++ replGo f t 0 s := by
  induction e with
  | nil => rfl
  | cons c e ih =>
    simp only [List.mem_cons, not_or] at he
    rw [List.cons_append, replGo_nomatch, ih he.2]
    · rfl
    · rw [hf]
      rintro ⟨u, hu⟩
      injection hu with h1 _
      exact he.1 h1

theorem toks_repl {a b : Char} {t : Str} (ha : a ≠ '&') (hb : b ≠ '&') (hent : ∀ e ∈ entities true, a ∉ e)
    (ht : ∀ r, Toks r → Toks (t ++ r) ∧ unescapeGo true none (t ++ r) = a :: b :: unescapeGo true none r) :
    ∀ n (s : Str), s.length ≤ n → Toks s →
      Toks (replGo [a, b] t 0 s) ∧ unescapeGo true none (replGo [a, b] t 0 s) = unescapeGo true none s := by
  intro n
  induction n with
  | zero =>
    intro s hl h
    cases s with
    | nil => exact ⟨.nil, rfl⟩
    | cons c s => simp at hl
  | succ n ih =>
    intro s hl h
    cases h with
    | nil => exact ⟨.nil, rfl⟩
    | @cons c s hc hs =>
      by_cases hp : [a, b] <+: c :: s
      · obtain ⟨r, hr⟩ := hp
        injection hr with h1 h2
        subst h1
        subst h2
        have hr' := toks_tail hb hs
        have hl' : r.length ≤ n := by
          simp only [List.length_cons, List.append_eq, List.length_append] at hl; omega
        have ih := ih r hl' hr'
        change Toks (replGo [a, b] t 0 (a :: ([b] ++ r))) ∧
          unescapeGo true none (replGo [a, b] t 0 (a :: ([b] ++ r))) = unescapeGo true none (a :: ([b] ++ r))
        rw [show replGo [a, b] t 0 (a :: ([b] ++ r)) = t ++ replGo [a, b] t 0 r from replGo_match [a, b] t r (by simp)]
        have := ht _ ih.1
        refine ⟨this.1, ?_⟩
        rw [this.2, ih.2]
        simp [unescapeGo, ha, hb]
      · have ih := ih s (by simp at hl; omega) hs
        rw [replGo_nomatch _ _ _ _ hp]
        refine ⟨.cons hc ih.1, ?_⟩
        simp [unescapeGo, hc, ih.2]
    | @ent e s he hs =>
      have hlen : s.length ≤ n := by
        obtain ⟨m, rfl, _⟩ := entity_shape he
        simp at hl
        omega
      have ih := ih s hlen hs
      rw [replGo_pass rfl (hent e he)]
      refine ⟨.ent he ih.1, ?_⟩
      rw [unescapeGo_entity he, unescapeGo_entity he, ih.2]

theorem toks_sanitize {s : Str} (h : Toks s) : unescapeChars true (sanitizeBifs s) = unescapeChars true s := by
  rw [unescapeChars_eq, unescapeChars_eq]
  unfold sanitizeBifs replaceAll
  rw [if_neg (by decide), if_neg (by decide)]
  have h1 := toks_repl (a := '{') (b := ':') (t := c!"&#123;:") (by decide) (by decide) (by decide) (by
    intro r hr
    have he : c!"&#123;" ∈ entities true := by decide
    refine ⟨Toks.ent (s := ':' :: r) he (.cons (by decide) hr), ?_⟩
    rw [show c!"&#123;:" ++ r = c!"&#123;" ++ (':' :: r) from rfl, unescapeGo_entity he]
    simp [unescapeGo, entityText]) _ s (Nat.le_refl _) h
  have h2 := toks_repl (a := ':') (b := '}') (t := c!":&#125;") (by decide) (by decide) (by decide) (by
    intro r hr
    have he : c!"&#125;" ∈ entities true := by decide
    refine ⟨Toks.cons (c := ':') (by decide) (.ent he hr), ?_⟩
    rw [show c!":&#125;" ++ r = ':' :: (c!"&#125;" ++ r) from rfl]
    rw [unescapeGo, if_neg (by decide), unescapeGo_entity he]
    simp [entityText]) _ _ (Nat.le_refl _) h1.1
  rw [h2.2, h1.2]

theorem toks_escape (s : Str) : Toks (escapeChars false s) ∧ unescapeChars true (escapeChars false s) = s := by
  rw [unescapeChars_eq, escapeChars_eq]
  induction s with
  | nil => exact ⟨.nil, rfl⟩
  | cons c s ih =>
    rw [List.flatMap_cons]
    rcases escapeChar_cases false c with ⟨h, h1, _⟩ | ⟨e, he, h, ht⟩
    · rw [h]
      refine ⟨.cons h1 ih.1, ?_⟩
      simp [unescapeGo, h1, ih.2]
    · rw [h]
      have he' : e ∈ entities true := by
        simp only [entities, List.mem_append] at he ⊢
        rcases he with he | he
        · exact .inl he
        · simp at he
      refine ⟨.ent he' ih.1, ?_⟩
      rw [unescapeGo_entity he', ih.2]
      have : entityText true e.tail.dropLast true = [c] := by
        simp only [entities, List.mem_append, List.mem_cons, List.not_mem_nil, or_false, Bool.false_eq_true, reduceIte] at he
        rcases he with rfl | rfl | rfl | rfl | rfl | rfl <;> simp [entityText] at ht ⊢ <;> exact ht
      rw [this]; rfl

/-- The safe text shows, in a browser, exactly the text. -/
theorem safe_shows (t : Str) : unescapeChars true (sanitizeBifs (reescape false t)) = unescapeChars false t := by
  unfold reescape
  rw [toks_sanitize (toks_escape _).1, (toks_escape _).2]

/-! ### re-escaping creates no delimiter -/

theorem unescapeGo_open (b : Bool) (e r : Str) (h : ';' ∉ r) :
    unescapeGo b (some e) r = '&' :: (e.reverse ++ r) := by
  induction r generalizing e with
  | nil => simp [unescapeGo, entityText]
  | cons c r ih =>
    simp only [List.mem_cons, not_or] at h
    rw [unescapeGo, if_neg (fun hc => h.1 hc.symm), ih _ h.2]
    simp

theorem mem_split_first {c : Char} {s : Str} (h : c ∈ s) : ∃ m r, s = m ++ c :: r ∧ c ∉ m := by
  induction s with
  | nil => simp at h
  | cons d s ih =>
    by_cases hd : d = c
    · exact ⟨[], s, by simp [hd], by simp⟩
    · rcases List.mem_cons.1 h with h | h
      · exact absurd h.symm hd
      · obtain ⟨m, r, h1, h2⟩ := ih h
        exact ⟨d :: m, r, by simp [h1], by simp [h2, Ne.symm hd]⟩

theorem entityText_false (m : Str) : entityText false m true = '&' :: m ++ c!";" ∨
    ∃ c ∈ c!"&<>\"'/", entityText false m true = [c] := by
  unfold entityText
  repeat' split
  all_goals first
    | exact .inl rfl
    | exact .inr ⟨_, by decide, rfl⟩
    | simp_all

theorem unescape_pair {a b : Char} (ha : a ∉ c!"&<>\"'/;") (hb : b ∉ c!"&<>\"'/;") :
    ∀ n (s : Str), s.length ≤ n → ¬ [a, b] <:+: s →
      ¬ [a, b] <:+: unescapeGo false none s ∧
      ((unescapeGo false none s).head? = some b → s.head? = some b) := by
  intro n
  induction n with
  | zero =>
    intro s hl h
    cases s with
    | nil => exact ⟨h, id⟩
    | cons c s => simp at hl
  | succ n ih =>
    intro s hl h
    cases s with
    | nil => exact ⟨h, id⟩
    | cons c s =>
      by_cases hc : c = '&'
      · subst hc
        simp only [unescapeGo, if_true]
        by_cases hs : ';' ∈ s
        · obtain ⟨m, r, rfl, hm⟩ := mem_split_first hs
          rw [unescapeGo_collect false m [] r (fun x hx h => hm (h ▸ hx))]
          have hr : ¬ [a, b] <:+: r := fun hx => h (hx.trans ⟨'&' :: m ++ c!";", [], by simp⟩)
          have ih := ih r (by simp at hl; omega) hr
          simp only [List.reverse_nil, List.nil_append]
          rcases entityText_false m with he | ⟨c, hc, he⟩
          · rw [he]
            refine ⟨pair_append ?_ ih.1 (.inl ?_), ?_⟩
            · exact fun hx => h (hx.trans ⟨[], r, by simp⟩)
            · intro h'
              rw [List.getLast?_append] at h'
              simp at h'
              exact ha (by simp [← h'])
            · intro h'
              simp at h'
              exact absurd (by simp [← h'] : b ∈ c!"&<>\"'/;") hb
          · rw [he]
            have hc' : c ∈ c!"&<>\"'/;" := by
              have : ∀ c ∈ c!"&<>\"'/", c ∈ c!"&<>\"'/;" := by decide
              exact this c hc
            refine ⟨pair_append ?_ ih.1 (.inl ?_), ?_⟩
            · intro hx
              have := hx.length_le
              simp at this
            · intro h'
              simp at h'
              exact ha (h' ▸ hc')
            · intro h'
              simp at h'
              exact absurd (h' ▸ hc') hb
        · rw [unescapeGo_open false [] s hs]
          exact ⟨h, id⟩
      · have ih := ih s (by simp at hl; omega) (fun hx => h (hx.trans (List.suffix_cons c s).isInfix))
        simp only [unescapeGo, hc, if_false]
        refine ⟨?_, id⟩
        rw [pair_cons]
        rintro (⟨rfl, h2⟩ | h2)
        · exact h (pair_cons.2 (.inl ⟨rfl, ih.2 h2⟩))
        · exact ih.1 h2

theorem escape_pair {a b : Char} (ha : a ∉ c!"&<>\"'/;") (hb : b ∉ c!"&<>\"'/;")
    (hent : ∀ e ∈ entities false, ¬ [a, b] <:+: e) (s : Str) (h : ¬ [a, b] <:+: s) :
    ¬ [a, b] <:+: escapeChars false s ∧ ((escapeChars false s).head? = some b → s.head? = some b) := by
  rw [escapeChars_eq]
  induction s with
  | nil => exact ⟨h, id⟩
  | cons c s ih =>
    have ih := ih (fun hx => h (hx.trans (List.suffix_cons c s).isInfix))
    rw [List.flatMap_cons]
    rcases escapeChar_cases false c with ⟨h1, _, _⟩ | ⟨e, he, h1, _⟩
    · rw [h1]
      refine ⟨?_, by simp⟩
      rw [List.singleton_append, pair_cons]
      rintro (⟨rfl, h2⟩ | h2)
      · exact h (pair_cons.2 (.inl ⟨rfl, ih.2 h2⟩))
      · exact ih.1 h2
    · rw [h1]
      refine ⟨pair_append (hent e he) ih.1 (.inl ?_), ?_⟩
      · obtain ⟨m, rfl, _⟩ := entity_shape he
        intro h'
        rw [List.getLast?_append] at h'
        simp at h'
        exact ha (by simp [← h'])
      · obtain ⟨m, rfl, _⟩ := entity_shape he
        intro h'
        simp at h'
        exact absurd (by simp [← h'] : b ∈ c!"&<>\"'/;") hb

theorem inert_reescape {y : Str} (h : Inert y) : Inert (reescape false y) := by
  have e : reescape false y = escapeChars false (unescapeGo false none y) := by
    unfold reescape; rw [unescapeChars_eq]
  refine ⟨fun c hc => (C01_escape_clean false _).1 c hc, ?_, ?_⟩ <;> rw [e]
  · exact (escape_pair (by decide) (by decide) (by decide) _
      (unescape_pair (by decide) (by decide) _ y (Nat.le_refl _) h.2.1).1).1
  · exact (escape_pair (by decide) (by decide) (by decide) _
      (unescape_pair (by decide) (by decide) _ y (Nat.le_refl _) h.2.2).1).1

/-! ### C44 -/

theorem named_code : Named c!"code" := by
  refine ⟨by decide, ?_⟩
  intro c r hc
  injection hc with h1 h2
  subst h1
  decide

/-- The flag `f` is among the collected flags `flags` (written `|f1|f2|...|`). -/
def Spec.Flag (flags f : Str) : Prop := c!"|" ++ f ++ c!"|" <:+: flags

/-- All flags are among the allowed ones. -/
def Spec.FlagsIn (flags : Str) (allowed : List Str) : Prop :=
  ∀ f ∈ splitChar '|' flags, f = [] ∨ f ∈ allowed

theorem badFlag_none {flags : Str} {allowed : List Str} (h : FlagsIn flags allowed) : badFlag flags allowed = none := by
  unfold badFlag
  rw [List.find?_eq_none]
  intro f hf
  rw [List.mem_filter] at hf
  rcases h f hf.1 with h | h
  · simp [h] at hf
  · simpa using h

theorem hasFlag_iff {b : BifS} {f : Str} : hasFlag b f = true ↔ Flag b.flags f := by
  unfold hasFlag Flag
  rw [contains_iff (by simp)]

/-- **C44 (code).** With the flag `safe` (and any other flags `code` knows), once the parameters have been evaluated,
whatever the code `c` is, it is not evaluated: the state is the one after the parameters, and what is printed is inert. A
browser shows `c` (with its entities resolved once), unless `encode_tags_after` asks for another encoding. -/
theorem C44_code (env : Env) (R : Rec) (sh sh1 : Shared) (inh inh1 : Inherit) (mods src only p c x : Str)
    (hm : Mods mods) (hf : '&' ∉ mods) (hneg : '!' ∉ mods) (hmax : sh.count < sh.max)
    (hsel : Selected inh mods c!"code" only) (hparts : Parts src (some p) c)
    (hx : evalParams R (counted sh) (entered sh inh) c!"code" p only = .ok x sh1 inh1)
    (hsafe : Flag (flagsOf sh1 p) c!"safe")
    (hflags : FlagsIn (flagsOf sh1 p) [c!"safe", c!"encode_tags", c!"encode_bifs", c!"noparse", c!"encode_tags_after"]) :
    ∃ y, runBif env R sh inh (bifText mods c!"code" src) only = finish (decide ('^' ∈ mods)) y sh1 inh1 ∧ Inert y ∧
      (¬ Flag (flagsOf sh1 p) c!"encode_tags_after" → unescapeChars true y = unescapeChars false c) := by
  refine ⟨if contains (c!"|" ++ c!"encode_tags_after" ++ c!"|") (flagsOf sh1 p) then reescape false (sanitizeBifs (reescape false c))
    else sanitizeBifs (reescape false c), ?_, ?_, ?_⟩
  · rw [runBif_text env R sh inh mods c!"code" src only hm named_code hmax hsel]
    have hbody : bifBody env c!"code" = bifCode := rfl
    rw [hbody]
    unfold bifCode
    simp only [run_bind, run_denyMods]
    rw [if_neg (by simp [start, hf, hneg])]
    simp only [andThen_ok]
    rw [run_extract R hparts _ rfl rfl rfl rfl]
    change bifResult env (Res.andThen (match evalParams R (counted sh) (entered sh inh) c!"code" p only with
      | .ok x sh' inh' => _
      | .panic p => _
      | .oof => _) _) = _
    rw [hx]
    simp only [andThen_ok, run_checkFlags, Option.getD_some, badFlag_none hflags, run_getSt, run_ite]
    rw [if_pos (by rw [hasFlag_iff]; exact hsafe)]
    simp only [run_setCode, andThen_ok, run_bind, run_ite, run_getSt, run_pure', hasFlag]
    split
    · simp only [run_setCode, andThen_ok, run_outCode]
      rfl
    · simp only [andThen_ok, run_outCode]
      rfl
  · split
    · exact inert_reescape (inert_safe c)
    · exact inert_safe c
  · intro h
    rw [if_neg (by rw [contains_iff (by decide)]; exact h)]
    exact safe_shows c

theorem run_flg_safe (R : Rec) (s : St) (hsrc : s.b.src = c!"safe")
    (hm : (s.b.modFilter || s.b.modNegate || s.b.modUpline || s.b.modScope) = false) (hfl : s.b.flags = []) :
    run R bifFlg s = .ok () { s with sh := { s.sh with flags := c!"|safe|" }, b := { s.b with params := [], code := c!"safe", out := [] } } := by
  unfold bifFlg
  have hp : Parts c!"safe" none c!"safe" := .code (src := c!"safe") (noSep_plain _ _ (by decide))
  simp only [run_bind, run_denyMods, hm, Bool.false_eq_true, if_false, andThen_ok]
  rw [run_extract_plain R true hp s (by rw [hsrc]; rfl) (fun _ => by decide)]
  simp only [andThen_ok, run_denyFlags, hfl]
  rfl

theorem parseSrc_safe (env : Env) (n : Nat) (sh : Shared) (inh : Inherit) (only : Str) (hmax : sh.count < sh.max)
    (hexit : sh.exit = false) (hin : inh.inOnly = true) (hname : inh.alias ≠ c!"coalesce") :
    parseSrc (runBlocks env (n + 1)) sh inh c!"{:flg; safe :}" only =
      .ok [] { sh with count := sh.count + 1, flags := c!"|safe|" }
        { inh with bifCount := sh.count + 1, inOnly := true, lastBifOut := false, lastCoalesceOut := false } := by
  unfold parseSrc
  rw [show extractBlocks c!"{:flg; safe :}" = .ok [(0, 14)] from rfl]
  simp only [runBlocks]
  rw [blocksGo_bif hexit (by
    rw [show startsWith c!"{:*" (slice c!"{:flg; safe :}" 0 14) = false from rfl]
    simp [hname])]
  rw [show slice c!"{:flg; safe :}" 0 14 = bifText [] c!"flg" c!" safe " from rfl]
  rw [runBif_text env _ _ _ [] c!"flg" c!" safe " only (by unfold Mods; decide) (by
    refine ⟨by decide, ?_⟩
    intro c r hc
    injection hc with h1 h2
    subst h1
    decide) hmax (.inr (.inl hin))]
  rw [show bifBody env c!"flg" = bifFlg from rfl, run_flg_safe _ _ rfl rfl rfl]
  rfl

/-- Evaluating `{:flg; safe :}` as a parameter sets the flag. -/
theorem evalParams_safe (env : Env) (n : Nat) (sh : Shared) (inh : Inherit) (name only : Str) (hmax : sh.count < sh.max)
    (hexit : sh.exit = false) (hin : inh.inOnly = true) (hname : name ≠ c!"coalesce") :
    ∃ sh1, evalParams (runBlocks env (n + 1)) sh inh name c!"{:flg; safe :}" only = .ok [] sh1 inh ∧ sh1.flags = c!"|safe|" ∧
      sh1.schema = sh.schema ∧ sh1.w = sh.w := by
  unfold evalParams
  rw [if_pos (by decide)]
  unfold nested
  rw [if_pos (by decide)]
  unfold runChild
  simp only [Bool.false_eq_true, if_false]
  rw [parseSrc_safe env n _ _ only (by exact hmax) (by exact hexit) (by exact hin) (by exact hname)]
  refine ⟨_, rfl, ?_, ?_, ?_⟩ <;> unfold dropBlock <;> dsimp only <;> split <;> rfl

/-- **C44 (code), as it is written.** `{:code; {:flg; safe :} >> text :}` prints an inert text that a browser shows as
`text`, for every text. -/
theorem C44_code_written (env : Env) (n : Nat) (sh : Shared) (inh : Inherit) (src only text : Str)
    (hmax : sh.count + 1 < sh.max) (hexit : sh.exit = false)
    (hsel : Selected inh [] c!"code" only) (hparts : Parts src (some c!"{:flg; safe :}") text) :
    ∃ y sh1 inh1, runBif env (runBlocks env (n + 1)) sh inh (bifText [] c!"code" src) only =
        .ok (trim y) sh1 inh1 ∧ Inert y ∧ unescapeChars true y = unescapeChars false text ∧
      sh1.schema = sh.schema ∧ sh1.w = sh.w := by
  obtain ⟨sh1, h1, h2, h3, h4⟩ := evalParams_safe env n (counted sh) (entered sh inh) c!"code" only hmax hexit rfl (by decide)
  have hf : flagsOf sh1 c!"{:flg; safe :}" = c!"|safe|" := by
    unfold flagsOf
    rw [if_pos (by decide), h2]
  obtain ⟨y, hy, hi, hs⟩ := C44_code env _ sh sh1 inh (entered sh inh) [] src only _ text [] (by unfold Mods; decide) (by decide)
    (by decide) (by omega) hsel hparts h1 (by rw [hf]; unfold Flag; decide) (by rw [hf]; unfold FlagsIn; decide)
  rw [hy]
  exact ⟨y, sh1, _, rfl, hi, hs (by rw [hf]; unfold Flag; decide), h3, h4⟩

/-- A hostile text: printed, not evaluated. -/
example : Parts c!"{:flg; safe :} >> {:exit; 404 :}<b>&lt;" (some c!"{:flg; safe :}") c!"{:exit; 404 :}<b>&lt;" ∧
    Sample.outOf (Sample.go [] c!"[{:code; {:flg; safe :} >> {:exit; 404 :}<b>&lt; :}]") =
      some (c!"[&#123;:exit; 404 :&#125;&lt;b&gt;&lt;]", c!"200") := by
  refine ⟨?_, by decide +kernel⟩
  have := Parts.both (src := c!"{:flg; safe :} >> {:exit; 404 :}<b>&lt;") (a := c!"{:flg; safe :} ")
    (r := c!" {:exit; 404 :}<b>&lt;") ?_ (by decide +kernel)
  · exact this
  · exact NoSep.nest (b := c!"flg; safe ") (s := c!" ") (bal_chars (by decide) (by decide))
      (.chr ' ' (by decide) (by decide) (by decide) (.nil _))

end Nts
