import Verif.Props.Safe
/-
C70: the flags of code.
-/
set_option autoImplicit false
namespace Nts
open Spec

instance (flags f : Str) : Decidable (Flag flags f) := inferInstanceAs (Decidable (_ <:+: _))

/-- The flags `code` knows. -/
def Spec.codeFlags : List Str := [c!"safe", c!"encode_tags", c!"encode_bifs", c!"noparse", c!"encode_tags_after"]

/-- HTML encoding that does not encode entities twice. -/
def Spec.encodeTags (s : Str) : Str := escapeChars false (unescapeChars false s)

/-- Encoding of the delimiters of BIFs. -/
def Spec.encodeBifs (s : Str) : Str := replaceAll c!":}" c!":&#125;" (replaceAll c!"{:" c!"&#123;:" s)

/-- What the flags do to the text of `code`, before it is evaluated. -/
def Spec.codeBefore (flags c : Str) : Str :=
  let t := if Flag flags c!"encode_tags" then encodeTags c else c
  if Flag flags c!"encode_bifs" then encodeBifs t else t

/-- What they do to the output. -/
def Spec.codeAfter (flags x : Str) : Str := if Flag flags c!"encode_tags_after" then encodeTags x else x

theorem hasFlag_decide {b : BifS} {f : Str} {α : Type} (x y : α) [Decidable (Flag b.flags f)] :
    (if hasFlag b f = true then x else y) = if Flag b.flags f then x else y := by
  by_cases h : Flag b.flags f
  · rw [if_pos h, if_pos (hasFlag_iff.2 h)]
  · rw [if_neg h, if_neg (fun h' => h (hasFlag_iff.1 h'))]

/-- **C70 (code).** Without `safe`: the text is encoded as the flags say, evaluated as a nested block unless `noparse` is given, and
its output encoded as the flags say. -/
theorem C70_code (env : Env) (R : Rec) (sh sh1 sh2 : Shared) (inh inh1 inh2 : Inherit) (mods src only c x y : Str) (p : Option Str)
    (hm : Mods mods) (hf : '&' ∉ mods) (hneg : '!' ∉ mods) (hmax : sh.count < sh.max)
    (hsel : Selected inh mods c!"code" only) (hparts : Parts src p c)
    (hx : evalParams R (counted sh) (entered sh inh) c!"code" (p.getD []) only = .ok x sh1 inh1)
    (hsafe : ¬ Flag (flagsOf sh1 (p.getD [])) c!"safe") (hflags : FlagsIn (flagsOf sh1 (p.getD [])) codeFlags)
    (hy : if Flag (flagsOf sh1 (p.getD [])) c!"noparse" then y = codeBefore (flagsOf sh1 (p.getD [])) c ∧ sh2 = sh1 ∧ inh2 = inh1
      else nested R (decide ('+' ∈ mods)) sh1 inh1 c!"code" (codeBefore (flagsOf sh1 (p.getD [])) c) only = .ok y sh2 inh2) :
    runBif env R sh inh (bifText mods c!"code" src) only =
      finish (decide ('^' ∈ mods)) (codeAfter (flagsOf sh1 (p.getD [])) y) sh2 inh2 := by
  rw [runBif_text env R sh inh mods c!"code" src only hm named_code hmax hsel]
  have hbody : bifBody env c!"code" = bifCode := rfl
  rw [hbody]
  unfold bifCode
  simp only [run_bind, run_denyMods]
  rw [if_neg (by simp [start, hf, hneg])]
  simp only [andThen_ok]
  rw [run_extract R hparts _ rfl rfl rfl rfl]
  change bifResult env (Res.andThen (match evalParams R (counted sh) (entered sh inh) c!"code" (p.getD []) only with
    | .ok x sh' inh' => _
    | .panic p => _
    | .oof => _) _) = _
  rw [hx]
  simp only [andThen_ok, run_checkFlags, badFlag_none (allowed := [c!"safe", c!"encode_tags", c!"encode_bifs", c!"noparse",
    c!"encode_tags_after"]) hflags, run_getSt, run_ite]
  rw [if_neg (by rw [hasFlag_iff]; exact hsafe)]
  simp only [run_bind, run_setCode, andThen_ok, run_ite, hasFlag_decide]
  have hb : (if Flag (flagsOf sh1 (p.getD [])) c!"encode_bifs" then
      sanitizeBifs (if Flag (flagsOf sh1 (p.getD [])) c!"encode_tags" then reescape false c else c)
      else if Flag (flagsOf sh1 (p.getD [])) c!"encode_tags" then reescape false c else c) =
      codeBefore (flagsOf sh1 (p.getD [])) c := rfl
  simp only [hb]
  by_cases hnp : Flag (flagsOf sh1 (p.getD [])) c!"noparse"
  · rw [if_pos hnp] at hy
    obtain ⟨rfl, rfl, rfl⟩ := hy
    simp only [if_pos hnp, run_pure', andThen_ok]
    unfold codeAfter
    split
    · simp only [run_bind, run_getSt, run_setCode, andThen_ok, run_outCode]
      rfl
    · simp only [run_pure', andThen_ok, run_outCode]
      rfl
  · rw [if_neg hnp] at hy
    simp only [if_neg hnp]
    rw [run_parseCode_nested R _ _ rfl rfl]
    change bifResult env (Res.andThen (match nested R (decide ('+' ∈ mods)) sh1 inh1 c!"code"
        (codeBefore (flagsOf sh1 (p.getD [])) c) only with
      | .ok x sh' inh' => _
      | .panic p => _
      | .oof => _) _) = _
    rw [hy]
    simp only [andThen_ok]
    unfold codeAfter
    split
    · simp only [run_bind, run_getSt, run_setCode, andThen_ok, run_outCode]
      rfl
    · simp only [run_pure', andThen_ok, run_outCode]
      rfl

/-! ### collecting flags -/

theorem replGo_space (s : Str) : replGo c!" " c!"|" 0 s = s.map (fun c => if c = ' ' then '|' else c) := by
  induction s with
  | nil => rfl
  | cons c s ih =>
    by_cases hc : c = ' '
    · subst hc
      rw [show (' ' :: s) = c!" " ++ s from rfl, replGo_match _ _ _ (by decide), ih]
      rfl
    · rw [replGo_nomatch, ih]
      · simp [hc]
      · rintro ⟨t, ht⟩
        simp only [List.cons_append, List.cons.injEq] at ht
        exact hc ht.1.symm

/-- Words separated by single spaces. -/
def Spec.spaced (ws : List Str) : Str := joinStr c!" " ws

/-- The collected form of flags. -/
def Spec.flagText (ws : List Str) : Str := '|' :: ws.flatMap (fun w => w ++ c!"|")

theorem spaced_map (ws : List Str) (h : ∀ w ∈ ws, ' ' ∉ w) (hne : ws ≠ []) :
    (c!" " ++ spaced ws ++ c!" ").map (fun c => if c = ' ' then '|' else c) = flagText ws := by
  have hw : ∀ w : Str, ' ' ∉ w → w.map (fun c => if c = ' ' then '|' else c) = w := by
    intro w hw
    induction w with
    | nil => rfl
    | cons c w ih =>
      simp only [List.mem_cons, not_or] at hw
      rw [List.map_cons, ih hw.2, if_neg (fun h => hw.1 h.symm)]
  unfold flagText
  simp only [List.cons_append, List.nil_append, List.map_cons, if_true, List.cons.injEq, true_and]
  induction ws with
  | nil => exact absurd rfl hne
  | cons w ws ih =>
    cases ws with
    | nil => simp [spaced, joinStr, hw w (h w (by simp))]
    | cons v vs =>
      have ih := ih (fun x hx => h x (List.mem_cons_of_mem _ hx)) (by simp)
      have e : spaced (w :: v :: vs) = w ++ c!" " ++ spaced (v :: vs) := by simp [spaced, joinStr]
      rw [e, List.flatMap_cons, ← ih]
      simp only [List.map_append, hw w (h w (by simp)), List.append_assoc]
      rfl

theorem flag_mem {ws : List Str} {f : Str} (hw : ∀ w ∈ ws, '|' ∉ w) (hf : '|' ∉ f) (h0 : f ≠ []) :
    Flag (flagText ws) f ↔ f ∈ ws := by
  have cut : ∀ (f w r t : Str), '|' ∉ f → '|' ∉ w → f ++ '|' :: t = w ++ '|' :: r → f = w := by
    intro f
    induction f with
    | nil =>
      intro w r t _ hw he
      cases w with
      | nil => rfl
      | cons c w => simp only [List.nil_append, List.cons_append, List.cons.injEq] at he; simp [← he.1] at hw
    | cons d f ih =>
      intro w r t hf hw he
      cases w with
      | nil => simp only [List.nil_append, List.cons_append, List.cons.injEq] at he; simp [he.1] at hf
      | cons c w =>
        simp only [List.cons_append, List.cons.injEq] at he
        simp only [List.mem_cons, not_or] at hf hw
        rw [he.1, ih w r t hf.2 hw.2 he.2]
  have skip : ∀ (w r : Str), '|' ∉ w → (c!"|" ++ f ++ c!"|" <:+: w ++ r → c!"|" ++ f ++ c!"|" <:+: r) := by
    intro w
    induction w with
    | nil => intro r _ h; exact h
    | cons c w ih =>
      intro r hw h
      simp only [List.mem_cons, not_or] at hw
      rw [show c :: w ++ r = c :: (w ++ r) from rfl, List.infix_cons_iff] at h
      rcases h with ⟨t, ht⟩ | h
      · simp only [List.cons_append, List.nil_append, List.cons.injEq] at ht
        exact absurd ht.1 hw.1
      · exact ih r hw.2 h
  unfold Flag flagText
  induction ws with
  | nil =>
    simp only [List.flatMap_nil, List.not_mem_nil, iff_false]
    intro h
    have := h.length_le
    simp at this
  | cons w ws ih =>
    have ih : c!"|" ++ f ++ c!"|" <:+: '|' :: ws.flatMap (fun w => w ++ c!"|") ↔ f ∈ ws :=
      ih (fun x hx => hw x (List.mem_cons_of_mem _ hx))
    have hw0 := hw w (by simp)
    have hm : f ∈ w :: ws ↔ f = w ∨ c!"|" ++ f ++ c!"|" <:+: '|' :: ws.flatMap (fun w => w ++ c!"|") := by
      rw [ih, List.mem_cons]
    rw [List.flatMap_cons, hm]
    constructor
    · intro h
      rw [List.infix_cons_iff] at h
      rcases h with ⟨t, ht⟩ | h
      · left
        simp only [List.cons_append, List.nil_append, List.append_assoc, List.cons.injEq, true_and] at ht
        exact cut f w _ t hf hw0 (by simpa using ht)
      · right
        exact skip w _ hw0 (by rw [List.append_assoc (as := w)] at h; exact h)
    · rintro (rfl | h)
      · exact ⟨[], ws.flatMap (fun w => w ++ c!"|"), by simp⟩
      · obtain ⟨a, b, he⟩ := h
        exact ⟨'|' :: w ++ a, b, by simp only [List.append_assoc, List.cons_append] at he ⊢; rw [he]; rfl⟩

theorem named_flg : Named c!"flg" := by
  refine ⟨by decide, ?_⟩
  intro c r hc
  injection hc with h1 h2
  subst h1
  decide

/-- **C70 (flg).** `{:flg; a b c :}` prints nothing and makes exactly the words `a`, `b`, `c` the collected flags. -/
theorem C70_flg (env : Env) (R : Rec) (sh : Shared) (inh : Inherit) (src only : Str) (ws : List Str) (hmax : sh.count < sh.max)
    (hsel : Selected inh [] c!"flg" only) (hparts : Parts src none (spaced ws)) (hne : ws ≠ [])
    (hws : ∀ w ∈ ws, ' ' ∉ w ∧ '|' ∉ w) (ho : ¬ c!"{:" <:+: spaced ws) :
    runBif env R sh inh (bifText [] c!"flg" src) only = hidden [] { counted sh with flags := flagText ws } (entered sh inh) ∧
      ∀ f, '|' ∉ f → f ≠ [] → (Flag (flagText ws) f ↔ f ∈ ws) := by
  refine ⟨?_, fun f hf h0 => flag_mem (fun w hw => (hws w hw).2) hf h0⟩
  rw [runBif_text env R sh inh [] c!"flg" src only (by unfold Mods; decide) named_flg hmax hsel]
  have hbody : bifBody env c!"flg" = bifFlg := rfl
  rw [hbody]
  unfold bifFlg
  simp only [run_bind, run_denyMods]
  rw [if_neg (by simp [start])]
  simp only [andThen_ok]
  rw [run_extract_plain R true hparts _ rfl (fun _ => by decide)]
  simp only [andThen_ok, run_denyFlags]
  rw [if_pos (by rfl), andThen_ok, run_parseCode_nested R _ _ rfl rfl]
  dsimp only
  rw [nested_plain ho]
  simp only [andThen_ok, run_getSt, run_op_setFlags, step, toRes_ok, run_setOut]
  have : replaceAll c!" " c!"|" (c!" " ++ spaced ws ++ c!" ") = flagText ws := by
    unfold replaceAll
    rw [if_neg (by decide), replGo_space, spaced_map ws (fun w hw => (hws w hw).1) hne]
  rw [this]
  rfl

/-- **C70 (noparse).** Without other flags, the code is printed as it is written; nothing is evaluated. -/
theorem C70_noparse (env : Env) (R : Rec) (sh sh1 : Shared) (inh inh1 : Inherit) (mods src only p c x : Str)
    (hm : Mods mods) (hf : '&' ∉ mods) (hneg : '!' ∉ mods) (hmax : sh.count < sh.max)
    (hsel : Selected inh mods c!"code" only) (hparts : Parts src (some p) c)
    (hx : evalParams R (counted sh) (entered sh inh) c!"code" p only = .ok x sh1 inh1)
    (hfl : flagsOf sh1 p = c!"|noparse|") :
    runBif env R sh inh (bifText mods c!"code" src) only = finish (decide ('^' ∈ mods)) c sh1 inh1 := by
  have := C70_code env R sh sh1 sh1 inh inh1 inh1 mods src only c x c (some p) hm hf hneg hmax hsel hparts hx
    (by rw [Option.getD_some, hfl]; decide) (by rw [Option.getD_some, hfl]; unfold FlagsIn codeFlags; decide)
    (by rw [Option.getD_some, hfl, if_pos (by decide)]; exact ⟨by unfold codeBefore; rw [if_neg (by decide), if_neg (by decide)], rfl, rfl⟩)
  rw [this]
  congr 1
  rw [Option.getD_some, hfl]
  unfold codeAfter
  rw [if_neg (by decide)]

/-- **C70 (encode_bifs).** With `encode_bifs` (and any other flags) nothing is evaluated either, and no delimiter is printed. -/
theorem C70_encode_bifs (env : Env) (R : Rec) (sh sh1 : Shared) (inh inh1 : Inherit) (mods src only p c x : Str)
    (hm : Mods mods) (hf : '&' ∉ mods) (hneg : '!' ∉ mods) (hmax : sh.count < sh.max)
    (hsel : Selected inh mods c!"code" only) (hparts : Parts src (some p) c)
    (hx : evalParams R (counted sh) (entered sh inh) c!"code" p only = .ok x sh1 inh1)
    (hfl : Flag (flagsOf sh1 p) c!"encode_bifs") (hflags : FlagsIn (flagsOf sh1 p) codeFlags) :
    ∃ y, runBif env R sh inh (bifText mods c!"code" src) only = finish (decide ('^' ∈ mods)) y sh1 inh1 ∧
      ¬ c!"{:" <:+: y ∧ ¬ c!":}" <:+: y := by
  by_cases hsafe : Flag (flagsOf sh1 p) c!"safe"
  · obtain ⟨y, h1, h2, _⟩ := C44_code env R sh sh1 inh inh1 mods src only p c x hm hf hneg hmax hsel hparts hx hsafe hflags
    exact ⟨y, h1, h2.2⟩
  · have hb : codeBefore (flagsOf sh1 p) c = sanitizeBifs (if Flag (flagsOf sh1 p) c!"encode_tags" then encodeTags c else c) := by
      unfold codeBefore
      rw [if_pos hfl]
      rfl
    have hnone := sanitizeBifs_none (if Flag (flagsOf sh1 p) c!"encode_tags" then encodeTags c else c)
    rw [← hb] at hnone
    refine ⟨codeAfter (flagsOf sh1 p) (codeBefore (flagsOf sh1 p) c), ?_, ?_⟩
    · refine C70_code env R sh sh1 sh1 inh inh1 inh1 mods src only c x (codeBefore (flagsOf sh1 p) c) (some p) hm hf hneg hmax
        hsel hparts hx hsafe hflags ?_
      split
      · exact ⟨rfl, rfl, rfl⟩
      · exact nested_plain hnone.1
    · unfold codeAfter
      split
      · unfold encodeTags
        rw [unescapeChars_eq]
        exact ⟨(escape_pair (by decide) (by decide) (by decide) _
            (unescape_pair (by decide) (by decide) _ _ (Nat.le_refl _) hnone.1).1).1,
          (escape_pair (by decide) (by decide) (by decide) _
            (unescape_pair (by decide) (by decide) _ _ (Nat.le_refl _) hnone.2).1).1⟩
      · exact hnone

/-- **C70 (encode_tags_after).** Whatever the code prints, no raw HTML character of it is shown. -/
theorem C70_encode_tags_after (env : Env) (R : Rec) (sh sh1 sh2 : Shared) (inh inh1 inh2 : Inherit) (mods src only p c x y : Str)
    (hm : Mods mods) (hf : '&' ∉ mods) (hneg : '!' ∉ mods) (hmax : sh.count < sh.max)
    (hsel : Selected inh mods c!"code" only) (hparts : Parts src (some p) c)
    (hx : evalParams R (counted sh) (entered sh inh) c!"code" p only = .ok x sh1 inh1)
    (hfl : flagsOf sh1 p = c!"|encode_tags_after|")
    (hy : nested R (decide ('+' ∈ mods)) sh1 inh1 c!"code" c only = .ok y sh2 inh2) :
    ∃ z, runBif env R sh inh (bifText mods c!"code" src) only = finish (decide ('^' ∈ mods)) z sh2 inh2 ∧
      (∀ c ∈ z, c ∉ htmlSpecial) ∧ unescapeChars false z = unescapeChars false y := by
  refine ⟨encodeTags y, ?_, fun c hc => (C01_escape_clean false _).1 c hc, C02_roundtrip false _⟩
  have := C70_code env R sh sh1 sh2 inh inh1 inh2 mods src only c x y (some p) hm hf hneg hmax hsel hparts hx
    (by rw [Option.getD_some, hfl]; decide) (by rw [Option.getD_some, hfl]; unfold FlagsIn codeFlags; decide)
    (by
      rw [Option.getD_some, hfl, if_neg (by decide)]
      unfold codeBefore
      rw [if_neg (by decide), if_neg (by decide)]
      exact hy)
  rw [this]
  congr 1
  rw [Option.getD_some, hfl]
  unfold codeAfter
  rw [if_pos (by decide)]

/-- **C70 (encode_tags), on texts.** A code without BIFs is printed without raw HTML characters, and shown as it is. -/
theorem C70_encode_tags (env : Env) (R : Rec) (sh sh1 : Shared) (inh inh1 : Inherit) (mods src only p c x : Str)
    (hm : Mods mods) (hf : '&' ∉ mods) (hneg : '!' ∉ mods) (hmax : sh.count < sh.max)
    (hsel : Selected inh mods c!"code" only) (hparts : Parts src (some p) c)
    (hx : evalParams R (counted sh) (entered sh inh) c!"code" p only = .ok x sh1 inh1)
    (hfl : flagsOf sh1 p = c!"|encode_tags|") (hc : ¬ c!"{:" <:+: c) :
    ∃ y, runBif env R sh inh (bifText mods c!"code" src) only = finish (decide ('^' ∈ mods)) y sh1 inh1 ∧
      (∀ c ∈ y, c ∉ htmlSpecial) ∧ unescapeChars false y = unescapeChars false c := by
  refine ⟨encodeTags c, ?_, fun c hc => (C01_escape_clean false _).1 c hc, C02_roundtrip false _⟩
  have hb : codeBefore c!"|encode_tags|" c = encodeTags c := by
    unfold codeBefore
    rw [if_neg (by decide), if_pos (by decide)]
  have := C70_code env R sh sh1 sh1 inh inh1 inh1 mods src only c x (encodeTags c) (some p) hm hf hneg hmax hsel hparts hx
    (by rw [Option.getD_some, hfl]; decide) (by rw [Option.getD_some, hfl]; unfold FlagsIn codeFlags; decide)
    (by
      rw [Option.getD_some, hfl, if_neg (by decide), hb]
      refine nested_plain ?_
      unfold encodeTags
      rw [unescapeChars_eq]
      exact (escape_pair (by decide) (by decide) (by decide) _
        (unescape_pair (by decide) (by decide) _ _ (Nat.le_refl _) hc).1).1)
  rw [this]
  congr 1
  rw [Option.getD_some, hfl]
  unfold codeAfter
  rw [if_neg (by decide)]

theorem encodeTags_append {a b : Str} (ha : '&' ∉ a) (hb : '&' ∉ b) : encodeTags (a ++ b) = encodeTags a ++ encodeTags b := by
  unfold encodeTags
  rw [unescapeChars_eq, unescapeChars_eq, unescapeChars_eq, unescapeGo_plain _ _ ha, unescapeGo_plain _ _ hb,
    unescapeGo_plain _ _ (by simp [ha, hb]), escapeChars_eq, escapeChars_eq, escapeChars_eq, List.flatMap_append]

/-- **C70 (encode_tags), with BIFs; partial.** BIFs that have no HTML characters (`& < > " ' /`) are evaluated as they are written, the
text around them is encoded.  Missing: other BIFs. They are encoded, too, and are then other BIFs (`C70_refuted`). -/
theorem C70_encode_tags_partial (flags : Str) (h1 : Flag flags c!"encode_tags") (h2 : ¬ Flag flags c!"encode_bifs")
    (a b c : Str) (ha : '&' ∉ a) (hb : ∀ d ∈ b, d ≠ '&' ∧ d ∉ htmlSpecial) (hc : '&' ∉ c) :
    codeBefore flags (a ++ b ++ c) = encodeTags a ++ b ++ encodeTags c := by
  have hb' : '&' ∉ b := fun h => (hb _ h).1 rfl
  unfold codeBefore
  rw [if_neg h2, if_pos h1, encodeTags_append (by simp [ha, hb']) hc, encodeTags_append ha hb']
  congr 2
  unfold encodeTags
  rw [unescapeChars_eq, unescapeGo_plain _ _ hb']
  exact C01_escape_plain false b hb

/-- **C70 (unknown flags).** A flag that `code` does not know is an error: nothing of the code is evaluated or printed. -/
theorem C70_unknown_flag (env : Env) (R : Rec) (sh sh1 : Shared) (inh inh1 : Inherit) (mods src only p c x : Str)
    (hm : Mods mods) (hf : '&' ∉ mods) (hneg : '!' ∉ mods) (hmax : sh.count < sh.max)
    (hsel : Selected inh mods c!"code" only) (hparts : Parts src (some p) c)
    (hx : evalParams R (counted sh) (entered sh inh) c!"code" p only = .ok x sh1 inh1)
    (hfl : ¬ FlagsIn (flagsOf sh1 p) codeFlags) :
    ∃ f, f ∉ codeFlags ∧ runBif env R sh inh (bifText mods c!"code" src) only =
      failed env mods c!"code" (bifText mods c!"code" src) (f ++ c!" flag not allowed") sh1 inh1 := by
  cases hbad : badFlag (flagsOf sh1 p) codeFlags with
  | none =>
    exfalso
    apply hfl
    unfold badFlag at hbad
    rw [List.find?_eq_none] at hbad
    intro f hf
    by_cases h0 : f = []
    · exact .inl h0
    · have := hbad f (by rw [List.mem_filter]; exact ⟨hf, by simpa using h0⟩)
      exact .inr (by simpa using this)
  | some f =>
    refine ⟨f, ?_, ?_⟩
    · have := List.find?_some hbad
      simpa using this
    · rw [runBif_text env R sh inh mods c!"code" src only hm named_code hmax hsel]
      have hbody : bifBody env c!"code" = bifCode := rfl
      rw [hbody]
      unfold bifCode
      simp only [run_bind, run_denyMods]
      rw [if_neg (by simp [start, hf, hneg])]
      simp only [andThen_ok]
      rw [run_extract R hparts _ rfl rfl rfl rfl]
      change bifResult env (Res.andThen (match evalParams R (counted sh) (entered sh inh) c!"code" p only with
        | .ok x sh' inh' => _
        | .panic p => _
        | .oof => _) _) = _
      rw [hx]
      simp only [andThen_ok, run_checkFlags, Option.getD_some]
      have hb2 : badFlag (flagsOf sh1 p) [c!"safe", c!"encode_tags", c!"encode_bifs", c!"noparse", c!"encode_tags_after"] = some f := hbad
      rw [hb2]
      exact bifResult_failed env mods c!"code" _ _ _ _ _ rfl rfl rfl rfl rfl rfl

set_option maxRecDepth 10000 in
/-- **C70 is false for `encode_tags`.** BIFs with `->`, `>>` or `/` are no longer themselves: the path `o->k` is encoded. -/
theorem C70_refuted :
    Sample.outOf (Sample.go [(c!"x", .str c!"X"), (c!"o", .obj [(c!"k", .str c!"K")])]
      c!"{:code; <i>{:;x:}{:;o->k:} :}|{:code; {:flg; encode_tags :} >> <i>{:;x:}{:;o->k:} :}") =
      some (c!"<i>XK|&lt;i&gt;X", c!"200") := by
  decide +kernel

set_option maxRecDepth 10000 in
/-- The flags at work. -/
example :
    Sample.outOf (Sample.go [(c!"x", .str c!"<X>")] c!"{:code; {:flg; noparse :} >> <i>{:;x:} :}") = some (c!"<i>{:;x:}", c!"200") ∧
    Sample.outOf (Sample.go [(c!"x", .str c!"<X>")] c!"{:code; {:flg; encode_bifs :} >> <i>{:;x:} :}") =
      some (c!"<i>&#123;:;x:&#125;", c!"200") ∧
    Sample.outOf (Sample.go [(c!"x", .str c!"<X>")] c!"{:code; {:flg; encode_tags_after :} >> <i>{:;x:} :}") =
      some (c!"&lt;i&gt;&lt;X&gt;", c!"200") ∧
    Sample.outOf (Sample.go [(c!"x", .str c!"<X>")] c!"{:code; {:flg; encode_tags :} >> <i>{:;x:} :}") =
      some (c!"&lt;i&gt;<X>", c!"200") ∧
    Sample.outOf (Sample.go [(c!"x", .str c!"<X>")] c!"[{:code; {:flg; foo :} >> <i>{:;x:} :}]") = some (c!"[]", c!"200") := by
  refine ⟨?_, ?_, ?_, ?_, ?_⟩ <;> decide +kernel

/-- `{:flg; safe noparse :}` meets the premises of `C70_flg`. -/
example : Parts c!" safe noparse " none (spaced [c!"safe", c!"noparse"]) ∧ flagText [c!"safe", c!"noparse"] = c!"|safe|noparse|" :=
  ⟨.code (src := c!" safe noparse ") (noSep_plain _ _ (by decide)), rfl⟩

/-- The premises about flags can be met: evaluating `{:flg; safe :}` collects `|safe|` (`evalParams_safe`), and so on. -/
example : Flag c!"|encode_tags|noparse|" c!"noparse" ∧ ¬ Flag c!"|noparse|" c!"safe" ∧ FlagsIn c!"|encode_tags|noparse|" codeFlags ∧
    ¬ FlagsIn c!"|foo|" codeFlags := by
  unfold FlagsIn codeFlags
  decide +kernel

end Nts
