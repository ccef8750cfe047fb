import Verif.Props.Budget
import Verif.Props.Comments
import Verif.Props.Invariants
import Verif.Props.Text
/-
C20, C28-C32: what a render returns.
-/
set_option autoImplicit false
namespace Nts
open Spec

/-! ### helpers -/

theorem wellFormed_plain {s : Str} (h1 : ¬ c!"{:" <:+: s) (h2 : ¬ c!":}" <:+: s) : ∀ p, WellFormed p s [] := by
  induction s with
  | nil => intro p; exact .nil p
  | cons c s ih =>
    intro p
    rw [List.infix_cons_iff, not_or] at h1 h2
    exact .chr c h1.1 h2.1 (ih h1.2 h2.2 _)

/-- Evaluating a text without delimiters prints it. -/
theorem pass_plain (env : Env) (sh : Shared) (inh : Inherit) (text only : Str) (h1 : ¬ c!"{:" <:+: text)
    (h2 : ¬ c!":}" <:+: text) : ∃ sh' inh', pass env sh inh text only = .ok (trim text) sh' inh' ∧
      ∃ f, sh' = { sh with indir := f } := by
  unfold pass parseSrc
  rw [C15_complete text [] (wellFormed_plain h1 h2 0)]
  simp only [runBlocks, blocksGo, List.nil_append, List.drop_zero]
  exact ⟨_, _, rfl, dropBlock_sh _ _⟩

theorem cacheLoop_done (env : Env) (inh : Inherit) (n : Nat) (sh : Shared) (out : Str) (h : ¬ c!"{:!cache;" <:+: out) :
    cacheLoop env inh n sh out = .ok out sh inh := by
  have : contains c!"{:!cache;" out = false := (contains_false_iff (by decide)).2 h
  cases n <;> simp [cacheLoop, this]

/-- What initialisation gives: the source (without its comments if so configured) and an empty move list. -/
theorem initShared_ok {env : Env} {filePath raw raw' : Str} {sh sh' : Shared} {inh : Inherit}
    (h : initShared env filePath raw sh = .ok (raw', sh', inh)) :
    (if contains c!"remove" sh.comments then removeComments raw else some raw) = some raw' ∧
    sh'.schema.index c!"__moveto" = .obj [] ∧ sh'.schema.index c!"__error" = .arr [] ∧ inh.alias = [] := by
  unfold initShared at h
  split at h
  · simp at h
  next hr =>
  dsimp only at h
  split at h
  · simp at h
  next schema1 hs1 =>
  split at h
  · simp at h
  next schema2 hs2 =>
  simp only [Except.ok.injEq, Prod.mk.injEq] at h
  obtain ⟨rfl, rfl, rfl⟩ := h
  rw [Option.bind_eq_some_iff] at hs1
  obtain ⟨sc0, hm, he⟩ := hs1
  unfold filterContext at hs2
  refine ⟨hr, ?_, ?_, rfl⟩
  · show schema2.index _ = _
    rw [index_modIndex_ne hs2 (by decide), index_setIndex_ne he (by decide), index_setIndex_self hm]
  · show schema2.index _ = _
    rw [index_modIndex_ne hs2 (by decide), index_setIndex_self he]

theorem applyMoveto_empty {sc : Value} (h : sc.index c!"__moveto" = .obj []) (out : Str) :
    applyMoveto sc out = some out := by
  unfold applyMoveto; rw [h]; rfl

theorem sharedNew_start {env : Env} {w : World} {sc : Value} {sh : Shared} (h : Shared.new env w sc = some sh) :
    sh.statusCode = c!"200" ∧ sh.statusText = c!"OK" ∧ sh.statusParam = [] ∧ sh.redirectJs = [] ∧ sh.count = 0 ∧
      sh.hasError = false ∧ sh.exit = false := by
  unfold Shared.new at h
  dsimp only at h
  split at h
  · simp only [Option.some.injEq] at h
    subst h
    exact ⟨rfl, rfl, rfl, rfl, rfl, rfl, rfl⟩
  · simp at h

/-! ### C28 -/

/-- **C28 (fast path).** A template without `{:` renders to itself without surrounding white space, runs no BIF, and the
rest of the template (status, errors, schema, source) is unchanged; the same for `render_once`. -/
theorem C28_plain (env : Env) (n : Nat) (w : World) (t : Tpl) (h : ¬ c!"{:" <:+: t.raw) :
    t.render env n w = .ok { t with out := trim t.raw } ∧ t.renderOnce env n w = .ok { t with out := trim t.raw } := by
  have : contains bifOpen t.raw = false := (contains_false_iff (by decide)).2 h
  simp [Tpl.render, Tpl.renderOnce, this]

/-- The text and status of a finished render that ran no BIF. -/
structure Spec.PlainResult (t' : Tpl) (text : Str) : Prop where
  out : t'.out = replacements (trim text)
  code : t'.statusCode = c!"200"
  text : t'.statusText = c!"OK"
  param : t'.statusParam = []
  noBif : t'.shared.count = 0
  noError : t'.hasError = false ∧ t'.getError = .arr []

/-- A render whose source is (after removal of comments, if configured) evaluated to plain text. -/
theorem render_plain {env : Env} {n : Nat} {t t' : Tpl} {sc : Value} {w : World} {text : Str}
    (hcache : ¬ c!"{:!cache;" <:+: trim text)
    (hpass : ∀ sh, Shared.new env w t.schema = some sh → ∀ raw' sh1 inh,
      initShared env t.filePath t.raw sh = .ok (raw', sh1, inh) →
      ∃ sh2 inh2, pass env sh1 inh raw' [] = .ok (trim text) sh2 inh2 ∧ ∃ f, sh2 = { sh1 with indir := f })
    (h : renderWith env n t sc (Shared.new env w t.schema) = .ok t') : PlainResult t' text := by
  unfold renderWith at h
  split at h
  · simp at h
  next sh hsh =>
  split at h
  · simp at h
  next raw' sh1 inh hi =>
  obtain ⟨sh2, inh2, hp, f, rfl⟩ := hpass sh hsh raw' sh1 inh hi
  rw [hp] at h
  simp only [cacheLoop_done env inh n _ _ hcache] at h
  obtain ⟨_, hm, he, _⟩ := initShared_ok hi
  obtain ⟨sc', g, hf⟩ := initShared_frame hi
  obtain ⟨s1, s2, s3, s4, s5, s6, _⟩ := sharedNew_start hsh
  unfold endsRender at h
  rw [show ({ sh1 with indir := f } : Shared).schema = sh1.schema from rfl, applyMoveto_empty hm] at h
  simp only [Option.map_some, RRes.ok.injEq] at h
  subst h
  have c1 : sh1.statusCode = c!"200" := by rw [hf]; exact s1
  have c4 : sh1.redirectJs = [] := by rw [hf]; exact s4
  refine ⟨?_, c1, by rw [Tpl.statusText, hf]; exact s2, by rw [Tpl.statusParam, hf]; exact s3,
    by rw [hf]; exact s5, by rw [Tpl.hasError, hf]; exact s6, he⟩
  have := C40_three_digits { sh1 with indir := f } (replacements (trim text)) 2 0 0 (by omega) (by omega) (by omega) c1
  rw [this, c4]
  simp

/-- **C28 (comments only).** With comment removal configured (the default), a template that is text (without delimiters)
and comments renders to its text: no BIF runs, the status is 200 and there is no error. (`replacements` takes the upline
and unprintable marks out, see C47; a text without marks is unchanged.) -/
theorem C28_comments (env : Env) (n : Nat) (w : World) (t t' : Tpl) (text : Str) (hs : Stripped t.raw text)
    (h1 : ¬ c!"{:" <:+: text) (h2 : ¬ c!":}" <:+: text) (hb : c!"{:" <:+: t.raw)
    (hconf : ∀ sh, Shared.new env w t.schema = some sh → c!"remove" <:+: sh.comments)
    (h : t.render env n w = .ok t') : PlainResult t' text := by
  have hb' : contains bifOpen t.raw = true := (contains_iff (by decide)).2 hb
  unfold Tpl.render at h
  simp only [hb', Bool.not_true, Bool.false_eq_true, if_false] at h
  refine render_plain (fun hx => h1 ?_) ?_ h
  · exact (List.IsInfix.trans (⟨[], c!"!cache;", rfl⟩ : c!"{:" <:+: c!"{:!cache;") hx).trans (trim_infix text)
  · intro sh hsh raw' sh1 inh hi
    have hr := (initShared_ok hi).1
    rw [(contains_iff (by decide)).2 (hconf sh hsh), if_pos rfl, C16_removes _ _ hs, Option.some.injEq] at hr
    subst hr
    exact pass_plain env sh1 inh text [] h1 h2

/-- Only comments: the evaluation prints the text between them. -/
theorem blocksGo_comments (env : Env) (R : Rec) (src only : Str) (sh : Shared) (inh : Inherit) (hexit : sh.exit = false) :
    ∀ (l : List (Nat × Nat)) (p : Nat) (out : Str), (∀ b ∈ l, c!"{:*" <+: part src b.1 b.2) →
    blocksGo env R src only p out l sh inh = .ok (trim (out ++ (outside src p l).flatten)) sh inh := by
  intro l
  induction l with
  | nil => intro p out _; simp only [blocksGo, outside, List.flatten_cons, List.flatten_nil, List.append_nil, part_to_length]
  | cons b r ih =>
    intro p out hl
    obtain ⟨s, e⟩ := b
    have h1 : startsWith c!"{:*" (slice src s e) = true := by
      rw [slice_eq_part]; exact startsWith_iff.2 (hl (s, e) (by simp))
    simp only [blocksGo, hexit, h1, Bool.true_or, if_true, Bool.false_eq_true, if_false]
    rw [ih e _ (fun b hb => hl b (List.mem_cons_of_mem _ hb))]
    simp only [outside, List.flatten_cons, slice_eq_part]
    split
    · rw [List.append_assoc]
    · next hlt =>
      have : part src p s = [] := by
        simp only [part, List.drop_eq_nil_iff, List.length_take]; omega
      rw [this, List.nil_append]

/-- **C28 (comments kept).** Also with comment removal switched off, a template whose blocks are comments renders to the
text outside them. -/
theorem C28_comments_kept (env : Env) (n : Nat) (w : World) (t t' : Tpl) (l : List (Nat × Nat))
    (hwf : WellFormed 0 t.raw l) (hl : ∀ b ∈ l, IsComment (part t.raw b.1 b.2))
    (h1 : ¬ c!"{:" <:+: (outside t.raw 0 l).flatten) (hb : c!"{:" <:+: t.raw)
    (hconf : ∀ sh, Shared.new env w t.schema = some sh → ¬ c!"remove" <:+: sh.comments)
    (h : t.render env n w = .ok t') : PlainResult t' (outside t.raw 0 l).flatten := by
  have hb' : contains bifOpen t.raw = true := (contains_iff (by decide)).2 hb
  unfold Tpl.render at h
  simp only [hb', Bool.not_true, Bool.false_eq_true, if_false] at h
  refine render_plain (fun hx => h1 ?_) ?_ h
  · exact (List.IsInfix.trans (⟨[], c!"!cache;", rfl⟩ : c!"{:" <:+: c!"{:!cache;") hx).trans (trim_infix _)
  · intro sh hsh raw' sh1 inh hi
    have hr := (initShared_ok hi).1
    rw [(contains_false_iff (by decide)).2 (hconf sh hsh), if_neg (by decide), Option.some.injEq] at hr
    subst hr
    unfold pass parseSrc
    rw [C15_complete _ l hwf]
    obtain ⟨sc', g, hf⟩ := initShared_frame hi
    have hex : sh1.exit = false := by rw [hf]; exact (sharedNew_start hsh).2.2.2.2.2.2
    simp only [runBlocks]
    rw [blocksGo_comments env _ t.raw [] sh1 _ hex l 0 [] (fun b hb => by
      obtain ⟨x, hx, _⟩ := hl b hb
      exact ⟨x ++ c!"*:}", by rw [hx, List.append_assoc]⟩)]
    simp only [List.nil_append]
    exact ⟨_, _, rfl, dropBlock_sh _ _⟩

set_option maxRecDepth 10000 in
/-- The premises of the two are met: the first by a text with a nested comment. -/
example : Stripped c!"a {:* x {:* y *:} *:}b" c!"a b" ∧ Sample.outOf (Sample.go [] c!"a {:* x {:* y *:} *:}b") =
    some (c!"a b", c!"200") := by
  refine ⟨?_, by decide +kernel⟩
  refine .chr _ (by decide) (.chr _ (by decide) (.com (b := c!"{:* x {:* y *:} *:}") (s := c!"b") ?_
    (.chr _ (by decide) .nil)))
  refine ⟨c!" x {:* y *:} ", rfl, ?_, by decide⟩
  refine .chr _ (by decide) (by decide) (.chr _ (by decide) (by decide) (.chr _ (by decide) (by decide) ?_))
  refine .com (b := c!" y ") (s := c!" ") ?_ (by decide) (.chr _ (by decide) (by decide) (.nil _))
  exact .chr _ (by decide) (by decide) (.chr _ (by decide) (by decide) (.chr _ (by decide) (by decide) (.nil _)))

/-! ### C29 -/

theorem wellFormed_scan_append {p : Nat} {a : Str} {la : List (Nat × Nat)} (h : WellFormed p a la) {b : Str}
    (h1 : ¬ c!"{" <:+ a) : scanBlocks p 0 (a ++ c!":}" ++ b) = la ++ scanBlocks (p + a.length) 0 (c!":}" ++ b) := by
  induction h with
  | nil p => simp
  | @chr p s l c g1 g2 _ ih =>
    have hs : ¬ c!"{" <:+ s := fun hx => h1 (hx.trans (List.suffix_cons c s))
    have hn : stripPrefix? c!"{:" (c :: (s ++ c!":}" ++ b)) = none := by
      apply stripPrefix?_eq_none.2
      rintro ⟨x, hx⟩
      simp only [List.cons_append, List.nil_append] at hx
      injection hx with hc hx
      cases s with
      | nil => subst hc; exact h1 (List.suffix_refl _)
      | cons d s =>
        simp only [List.cons_append] at hx
        injection hx with hd hx
        subst hc; subst hd
        exact g1 ⟨s, rfl⟩
    have hstep : scanBlocks p 0 (c :: (s ++ c!":}" ++ b)) = scanBlocks (p + 1) 0 (s ++ c!":}" ++ b) := by
      simp only [scanBlocks, hn]
    show scanBlocks p 0 (c :: (s ++ c!":}" ++ b)) = _
    rw [hstep, ih hs, List.length_cons, Nat.add_assoc, Nat.add_comm 1]
  | @block p bl s l hx _ ih =>
    have hs : ¬ c!"{" <:+ s := fun hx => h1 (hx.trans (List.suffix_append bl s))
    rw [List.append_assoc, List.append_assoc, scanBlocks_block hx]
    have := ih hs
    simp only [List.append_assoc] at this
    rw [this, List.length_append, Nat.add_assoc]
    rfl

/-- A `:}` outside the blocks is found. -/
theorem outside_close (src : Str) : ∀ (l : List (Nat × Nat)) (p i : Nat), Ordered src p l → p ≤ i →
    OutsideAll i l → OutsideAll (i + 1) l → c!":}" <+: src.drop i → ∃ t ∈ outside src p l, c!":}" <:+: t := by
  intro l
  induction l with
  | nil =>
    intro p i _ hi _ _ ⟨y, hy⟩
    refine ⟨_, by simp only [outside, List.mem_cons, List.not_mem_nil, or_false]; rfl, ?_⟩
    rw [part_to_length]
    refine ⟨part src p i, y, ?_⟩
    rw [List.append_assoc, hy, ← part_to_length src i, ← part_to_length src p]
    have hil : i ≤ src.length := by
      rcases Nat.lt_or_ge src.length i with hlt | hge
      · rw [List.drop_eq_nil_of_le (by omega)] at hy; simp at hy
      · exact hge
    exact part_append src hi hil
  | cons b r ih =>
    intro p i ho hi h1 h2 hx
    obtain ⟨s, e⟩ := b
    obtain ⟨o1, o2, o3, _, _, o6⟩ := ho
    by_cases his : i < s
    · have h2' := h2 (s, e) (by simp)
      have hs2 : i + 2 ≤ s := by simp only at h2'; omega
      refine ⟨part src p s, by simp [outside], ?_⟩
      obtain ⟨y, hy⟩ := hx
      refine ⟨part src p i, part src (i + 2) s, ?_⟩
      have e1 : part src i (i + 2) = c!":}" := part_of_drop (b := y) hy.symm
      rw [← e1, part_append src hi (by omega), part_append src (by omega) hs2]
    · have h1' := h1 (s, e) (by simp)
      have : e ≤ i := by simp only at h1'; omega
      obtain ⟨t, ht, hc⟩ := ih e i o6 this (fun b hb => h1 b (List.mem_cons_of_mem _ hb))
        (fun b hb => h2 b (List.mem_cons_of_mem _ hb)) hx
      exact ⟨t, by simp [outside, ht], hc⟩

/-- A source with a stray `:}` after a well-formed part is rejected. -/
theorem extract_stray {a b : Str} {la : List (Nat × Nat)} (ha : WellFormed 0 a la) (h1 : ¬ c!"{" <:+ a) :
    ∃ p, extractBlocks (a ++ c!":}" ++ b) = .error p := by
  cases hx : extractBlocks (a ++ c!":}" ++ b) with
  | error p => exact ⟨p, rfl⟩
  | ok l =>
    exfalso
    have hl : l = scanBlocks 0 0 (a ++ c!":}" ++ b) := by
      unfold extractBlocks at hx
      dsimp only at hx
      split at hx
      · simp at hx
      · simp only [Except.ok.injEq] at hx; exact hx.symm
    obtain ⟨ho, hg, _, _⟩ := C14_blocks _ _ hx
    have hscan := wellFormed_scan_append ha (b := b) h1
    have hrest : ∀ e ∈ scanBlocks a.length 0 (c!":}" ++ b), a.length + 2 ≤ e.1 := by
      intro e he
      have h0 : scanBlocks a.length 0 (c!":}" ++ b) = scanBlocks (a.length + 2) 0 b := by
        have n1 : ∀ r, stripPrefix? c!"{:" (':' :: r) = none := fun r => rfl
        have n2 : ∀ r, stripPrefix? c!"{:" ('}' :: r) = none := fun r => rfl
        show scanBlocks a.length 0 (':' :: '}' :: b) = _
        simp only [scanBlocks, n1, n2]
      rw [h0] at he
      have := scanBlocks_ordered (a ++ c!":}" ++ b) b (a.length + 2) 0 (by
        have : a.length + 2 = (a ++ c!":}").length := by simp
        rw [this, List.drop_left]) (by simp)
      exact (ordered_ge this e he).1
    have hout : ∀ i, a.length ≤ i → i < a.length + 2 → OutsideAll i l := by
      intro i h1 h2 e he
      rw [hl, hscan, List.mem_append] at he
      rcases he with he | he
      · have := wellFormed_bounds ha e he
        right; omega
      · rw [Nat.zero_add] at he
        have := hrest e he
        left; omega
    obtain ⟨t, ht, hc⟩ := outside_close _ l 0 a.length ho (Nat.zero_le _) (hout _ (by omega) (by omega))
      (hout _ (by omega) (by omega)) (by rw [List.append_assoc, List.drop_left]; exact ⟨b, rfl⟩)
    exact hg t ht hc

/-- `Source env w t src`: what the parser gets: the source of the template, without its comments if so configured. -/
def Spec.Source (env : Env) (w : World) (t : Tpl) (src : Str) : Prop :=
  ∀ sh, Shared.new env w t.schema = some sh →
    if c!"remove" <:+: sh.comments then Stripped t.raw src else t.raw = src

theorem source_init {env : Env} {w : World} {t : Tpl} {src filePath raw' : Str} {sh sh1 : Shared} {inh : Inherit}
    (h : Source env w t src) (hsh : Shared.new env w t.schema = some sh)
    (hi : initShared env filePath t.raw sh = .ok (raw', sh1, inh)) : raw' = src := by
  have hr := (initShared_ok hi).1
  have hc := h sh hsh
  by_cases hcc : c!"remove" <:+: sh.comments
  · rw [if_pos hcc] at hc
    rw [(contains_iff (by decide)).2 hcc, if_pos rfl, C16_removes _ _ hc, Option.some.injEq] at hr
    exact hr.symm
  · rw [if_neg hcc] at hc
    rw [(contains_false_iff (by decide)).2 hcc, if_neg (by decide), Option.some.injEq] at hr
    rw [← hr, hc]

/-- **C29 (in general).** Whenever the source has no decomposition into blocks (by C14 exactly when some `:}` is outside
of them): no BIF runs, the output is `500 Internal Server Error` and the status is 500. -/
theorem C29_error (env : Env) (n : Nat) (w : World) (t t' : Tpl) (src : Str) (p : Nat)
    (hx : extractBlocks src = .error p) (hb : c!"{:" <:+: t.raw) (hsrc : Source env w t src)
    (h : t.render env n w = .ok t') :
    t'.out = c!"500 Internal Server Error" ∧ t'.statusCode = c!"500" ∧ t'.statusText = c!"Internal Server Error" ∧
      t'.shared.count = 0 := by
  have hb' : contains bifOpen t.raw = true := (contains_iff (by decide)).2 hb
  unfold Tpl.render at h
  simp only [hb', Bool.not_true, Bool.false_eq_true, if_false] at h
  unfold renderWith at h
  split at h
  · simp at h
  next sh hsh =>
  split at h
  · simp at h
  next raw' sh1 inh hi =>
  have hraw := source_init hsrc hsh hi
  subst hraw
  have hpass : ∃ f inh2, pass env sh1 inh raw' [] =
      .ok [] { handleUnmatched sh1 (byteLen (raw'.take p)) with indir := f } inh2 := by
    unfold pass parseSrc
    rw [hx]
    obtain ⟨f, hf⟩ := dropBlock_sh (handleUnmatched sh1 (byteLen (raw'.take p)))
      { inh with blockCount := inh.blockCount + 1 }
    refine ⟨f, { inh with blockCount := inh.blockCount + 1 }, ?_⟩
    simp only
    rw [hf]
  obtain ⟨f, inh2, hpass⟩ := hpass
  rw [hpass] at h
  simp only [cacheLoop_done env inh n _ [] (by decide)] at h
  obtain ⟨_, hm, _, _⟩ := initShared_ok hi
  obtain ⟨sc', g, hf⟩ := initShared_frame hi
  have s5 := (sharedNew_start hsh).2.2.2.2.1
  unfold endsRender at h
  simp only [handleUnmatched, applyMoveto_empty hm, Option.map_some, RRes.ok.injEq] at h
  subst h
  refine ⟨?_, rfl, rfl, by simp only [hf]; exact s5⟩
  rfl

/-- **C29.** If the source of a template with some `{:` is a well-formed part followed by a `:}`, then whatever follows:
no BIF runs (also none of those before), the output is `500 Internal Server Error` and the status is 500. -/
theorem C29_unmatched (env : Env) (n : Nat) (w : World) (t t' : Tpl) (a b : Str) (la : List (Nat × Nat))
    (ha : WellFormed 0 a la) (h1 : ¬ c!"{" <:+ a) (hb : c!"{:" <:+: t.raw)
    (hsrc : Source env w t (a ++ c!":}" ++ b)) (h : t.render env n w = .ok t') :
    t'.out = c!"500 Internal Server Error" ∧ t'.statusCode = c!"500" ∧ t'.statusText = c!"Internal Server Error" ∧
      t'.shared.count = 0 := by
  obtain ⟨p, hp⟩ := extract_stray (b := b) ha h1
  exact C29_error env n w t t' _ p hp hb hsrc h

set_option maxRecDepth 10000 in
/-- The premises are met. -/
example : WellFormed 0 c!"a{:;x:}b" [(1, 7)] ∧ Sample.outOf (Sample.go [] c!"a{:;x:}b:} {:;y:}") =
    some (c!"500 Internal Server Error", c!"500") := by
  refine ⟨.chr _ (by decide) (by decide) (.block (b := c!"{:;x:}") (s := c!"b") (.inl ⟨c!";x", rfl, ?_, by decide⟩)
    (.chr _ (by decide) (by decide) (.nil _))), by decide +kernel⟩
  exact .chr _ (by decide) (by decide) (.chr _ (by decide) (by decide) (.nil _))

/-! ### C30 -/

/-- Two ways of rendering with the same observable result. -/
theorem renderWith_observe (env : Env) (n : Nat) (t : Tpl) (a b : Value) (sh0 : Option Shared) :
    (renderWith env n t a sh0).observe = (renderWith env n t b sh0).observe := by
  unfold renderWith
  split
  · rfl
  split
  · rfl
  split
  · rfl
  · rfl
  split
  · rfl
  · rfl
  split
  · rfl
  · rfl

/-- **C30.** `render_once` and `render` give the same output, status, parameter and errors (or the same panic), for all
templates, schemas and worlds. -/
theorem C30_same (env : Env) (n : Nat) (w : World) (t : Tpl) :
    (t.renderOnce env n w).observe = (t.render env n w).observe := by
  unfold Tpl.render Tpl.renderOnce
  split
  · rfl
  · rw [renderOnceWith_eq]
    exact renderWith_observe env n t _ _ _

/-! ### C31 -/

theorem renderWith_tpl {env : Env} {n : Nat} {t t' : Tpl} {sc : Value} {sh0 : Option Shared}
    (h : renderWith env n t sc sh0 = .ok t') :
    t'.schema = sc ∧ t'.filePath = t.filePath ∧
      ∃ sh, sh0 = some sh ∧ (if contains c!"remove" sh.comments then removeComments t.raw else some t.raw) = some t'.raw := by
  unfold renderWith at h
  split at h
  · simp at h
  next sh =>
  split at h
  · simp at h
  next raw' sh1 inh hi =>
  split at h
  · simp at h
  · simp at h
  split at h
  · simp at h
  · simp at h
  split at h
  · simp at h
  · simp only [RRes.ok.injEq] at h
    subst h
    exact ⟨rfl, rfl, sh, rfl, (initShared_ok hi).1⟩

/-- **C31 (the schema).** Rendering does not change the schema of the template. -/
theorem C31_schema_kept (env : Env) (n : Nat) (w : World) (t t' : Tpl) (h : t.render env n w = .ok t') :
    t'.schema = t.schema := by
  unfold Tpl.render at h
  split at h
  · simp only [RRes.ok.injEq] at h; subst h; rfl
  · exact (renderWith_tpl h).1

theorem initShared_raw {env : Env} {filePath a b x : Str} {sh : Shared}
    (ha : (if contains c!"remove" sh.comments then removeComments a else some a) = some x)
    (hb : (if contains c!"remove" sh.comments then removeComments b else some b) = some x) :
    initShared env filePath a sh = initShared env filePath b sh := by
  unfold initShared; rw [ha, hb]

/-- **C31 (repeated renders), partial.** The full statement is false (`C31_refuted`): `render` replaces the source by the
source without comments, so a second render may see new comments. A second render gives the result of a fresh template
when comments are kept, or when no `{:*` is left after the comments are removed and there is a `{:` left. -/
theorem C31_repeat_partial (env : Env) (n m : Nat) (w w2 : World) (t t' : Tpl) (text : Str)
    (hsrc : ∀ w, Source env w t text)
    (h1 : ¬ c!"{:*" <:+: text) (h2 : c!"{:" <:+: text) (hb : c!"{:" <:+: t.raw)
    (h : t.render env n w = .ok t') : t'.render env m w2 = t.render env m w2 := by
  have hb' : contains bifOpen t.raw = true := (contains_iff (by decide)).2 hb
  unfold Tpl.render at h
  simp only [hb', Bool.not_true, Bool.false_eq_true, if_false] at h
  obtain ⟨e1, e2, sh, hsh, e3⟩ := renderWith_tpl h
  have key : ∀ w sh, Shared.new env w t.schema = some sh →
      (if contains c!"remove" sh.comments then removeComments t.raw else some t.raw) = some text ∧
      (if contains c!"remove" sh.comments then removeComments text else some text) = some text := by
    intro w sh hsh
    have hc := hsrc w sh hsh
    by_cases hcc : c!"remove" <:+: sh.comments
    · rw [if_pos hcc] at hc
      rw [(contains_iff (by decide)).2 hcc, if_pos rfl, if_pos rfl]
      exact ⟨C16_removes _ _ hc, C16_unchanged _ h1⟩
    · rw [if_neg hcc] at hc
      rw [(contains_false_iff (by decide)).2 hcc, if_neg (by decide), if_neg (by decide)]
      exact ⟨by rw [hc], rfl⟩
  have hraw : t'.raw = text := by
    rw [(key w sh hsh).1] at e3; exact (Option.some.inj e3).symm
  have hc2 : contains bifOpen text = true := (contains_iff (by decide)).2 h2
  unfold Tpl.render
  rw [hraw, e1, hb', hc2]
  simp only [Bool.not_true, Bool.false_eq_true, if_false]
  unfold renderWith
  split
  · rfl
  next sh' hsh' =>
  have hk := key w2 sh' hsh'
  rw [hraw, e2, initShared_raw (a := text) (b := t.raw) hk.2 hk.1]

/-- Text without `{:`: the second render gives the first result again. -/
theorem C31_repeat_plain (env : Env) (n m : Nat) (w w2 : World) (t t' : Tpl) (hb : ¬ c!"{:" <:+: t.raw)
    (h : t.render env n w = .ok t') : t'.render env m w2 = .ok t' := by
  rw [(C28_plain env n w t hb).1, RRes.ok.injEq] at h
  subst h
  exact (C28_plain env m w2 { t with out := trim t.raw } hb).1

/-- **C31 (what a second render sees).** For every template, world and number of rounds: after a render of a template with
some `{:`, the source held by the template is its source without comments (the source itself when comments are kept); if
that still has a `{:`, rendering again is exactly rendering a fresh template with that source and the same schema, in any
world; otherwise it gives that text, trimmed, and the status and errors of the first render. -/
theorem C31_second (env : Env) (n m : Nat) (w w2 : World) (t t' : Tpl) (hb : c!"{:" <:+: t.raw) (h : t.render env n w = .ok t') :
    (∀ text, Source env w t text → t'.raw = text) ∧
    (c!"{:" <:+: t'.raw → t'.render env m w2 = (t.setSrcStr t'.raw).render env m w2) ∧
    (¬ c!"{:" <:+: t'.raw → t'.render env m w2 = .ok { t' with out := trim t'.raw }) := by
  have hb' : contains bifOpen t.raw = true := (contains_iff (by decide)).2 hb
  unfold Tpl.render at h
  simp only [hb', Bool.not_true, Bool.false_eq_true, if_false] at h
  obtain ⟨e1, e2, sh, hsh, e3⟩ := renderWith_tpl h
  refine ⟨?_, ?_, fun hc => (C28_plain env m w2 t' hc).1⟩
  · intro text hs
    have hc := hs sh hsh
    by_cases hcc : c!"remove" <:+: sh.comments
    · rw [if_pos hcc] at hc
      rw [(contains_iff (by decide)).2 hcc, if_pos rfl, C16_removes _ _ hc] at e3
      exact (Option.some.inj e3).symm
    · rw [if_neg hcc] at hc
      rw [(contains_false_iff (by decide)).2 hcc, if_neg (by decide)] at e3
      rw [← Option.some.inj e3, hc]
  · intro hc
    have hc' : contains bifOpen t'.raw = true := (contains_iff (by decide)).2 hc
    unfold Tpl.render Tpl.setSrcStr
    simp only [hc', Bool.not_true, Bool.false_eq_true, if_false, e1]
    unfold renderWith
    simp only [e2]

/-- **C31 (comments kept).** With comment removal switched off a template with some `{:` can be rendered any number of times. -/
theorem C31_kept (env : Env) (n m : Nat) (w w2 : World) (t t' : Tpl) (hb : c!"{:" <:+: t.raw)
    (hk : ∀ sh, Shared.new env w t.schema = some sh → ¬ c!"remove" <:+: sh.comments)
    (h : t.render env n w = .ok t') : t'.render env m w2 = t.render env m w2 := by
  obtain ⟨h1, h2, _⟩ := C31_second env n m w w2 t t' hb h
  have : t'.raw = t.raw := h1 _ (fun sh hsh => by rw [if_neg (hk sh hsh)])
  rw [this] at h2
  exact h2 hb

/-- Render twice. -/
def Sample.twice (src : Str) : RRes :=
  match Sample.go [(c!"x", .str c!"X")] src with
  | .ok t => t.render Sample.env 10 Sample.world
  | r => r

set_option maxRecDepth 10000 in
/-- **C31 (refuted).** The same template rendered twice: `{:* q X` first, then `}`. -/
theorem C31_refuted :
    Sample.outOf (Sample.go [(c!"x", .str c!"X")] c!"{:{:* a *:}* q {:;x:}") = some (c!"{:* q X", c!"200") ∧
    Sample.outOf (Sample.twice c!"{:{:* a *:}* q {:;x:}") = some (c!"}", c!"200") := by
  constructor <;> decide +kernel

set_option maxRecDepth 10000 in
/-- **C31 (refuted, errors).** A stray `:}` is reported by the first render only: the second one prints it, still with the
status of the first. -/
theorem C31_refuted_error :
    Sample.outOf (Sample.go [(c!"x", .str c!"X")] c!"{:* a *:}b:}") = some (c!"500 Internal Server Error", c!"500") ∧
    Sample.outOf (Sample.twice c!"{:* a *:}b:}") = some (c!"b:}", c!"500") := by
  constructor <;> decide +kernel

set_option maxRecDepth 10000 in
/-- The premises of the partial theorem are met. -/
example : Stripped c!"{:* a *:}{:;x:}" c!"{:;x:}" ∧
    Sample.outOf (Sample.twice c!"{:* a *:}{:;x:}") = some (c!"X", c!"200") := by
  refine ⟨.com (b := c!"{:* a *:}") (s := c!"{:;x:}") ⟨c!" a ", rfl, ?_, by decide⟩ ?_, by decide +kernel⟩
  · exact .chr _ (by decide) (by decide) (.chr _ (by decide) (by decide) (.chr _ (by decide) (by decide) (.nil _)))
  · repeat first | exact .nil | refine .chr _ (by decide) ?_

/-! ### C32 -/

/-- **C32 (refuted).** After a successful `render_once` of a template with BIFs, every later `render` of any source with
a `{:` panics: the documentation promises empty variables. -/
theorem C32_refuted (env : Env) (n m : Nat) (w w2 : World) (t t' : Tpl) (src : Str) (hb : c!"{:" <:+: t.raw)
    (hs : c!"{:" <:+: src) (h : t.renderOnce env n w = .ok t') :
    (t'.setSrcStr src).render env m w2 = .panic .unwrap ∧ (t'.setSrcStr src).renderOnce env m w2 = .panic .unwrap := by
  have hb' : contains bifOpen t.raw = true := (contains_iff (by decide)).2 hb
  have hs' : contains bifOpen src = true := (contains_iff (by decide)).2 hs
  unfold Tpl.renderOnce at h
  simp only [hb', Bool.not_true, Bool.false_eq_true, if_false, renderOnceWith_eq] at h
  have hsc : t'.schema = .null := (renderWith_tpl h).1
  have hn : Shared.new env w2 .null = none := rfl
  unfold Tpl.render Tpl.renderOnce Tpl.setSrcStr
  simp only [hs', hsc, hn, Bool.not_true, Bool.false_eq_true, if_false, renderOnceWith_eq]
  exact ⟨rfl, rfl⟩

set_option maxRecDepth 10000 in
/-- Such a `render_once` exists. -/
example : Sample.outOf ((Sample.tpl (Sample.schema 1000 [(c!"x", .str c!"X")] Sample.inherit) c!"{:;x:}").renderOnce
    Sample.env 10 Sample.world) = some (c!"X", c!"200") := by decide +kernel

/-- **C32, partial.** What still works after `render_once`: sources without `{:`. -/
theorem C32_plain_partial (env : Env) (n m : Nat) (w w2 : World) (t t' : Tpl) (src : Str)
    (_ : t.renderOnce env n w = .ok t') (hs : ¬ c!"{:" <:+: src) :
    ∃ t2, (t'.setSrcStr src).render env m w2 = .ok t2 ∧ t2.out = trim src :=
  ⟨_, (C28_plain env m w2 (t'.setSrcStr src) hs).1, rfl⟩

/-! ### C55 -/

/-- **C55, partial.** The full statement is false (`C55_refuted`). For a source with a `{:`, the result of a render (output,
status, errors, everything) depends only on source, path and schema: not on what was rendered before. -/
theorem C55_fresh_partial (env : Env) (n : Nat) (w : World) (t u : Tpl) (h1 : u.raw = t.raw) (h2 : u.filePath = t.filePath)
    (h3 : u.schema = t.schema) (hb : c!"{:" <:+: t.raw) : u.render env n w = t.render env n w := by
  have hb' : contains bifOpen t.raw = true := (contains_iff (by decide)).2 hb
  unfold Tpl.render
  rw [h1, h3, hb']
  simp only [Bool.not_true, Bool.false_eq_true, if_false]
  unfold renderWith
  rw [h1, h2]


/-- Render one text, then another with the same template object. -/
def Sample.andThen (a b : Str) : RRes :=
  match Sample.go [] a with
  | .ok t => (t.setSrcStr b).render Sample.env 10 Sample.world
  | r => r

set_option maxRecDepth 10000 in
/-- **C55 (refuted).** A template object that rendered an error page (404, with an error) reports 404 and the error also
after rendering a plain text. -/
theorem C55_refuted :
    Sample.outOf (Sample.andThen c!"{:exit; 404 :}" c!"plain") = some (c!"plain", c!"404") ∧
    Sample.errorCount (Sample.andThen c!"{:nobif; :}" c!"plain") = some (true, 1) := by
  constructor <;> decide +kernel

/-! ### C20 -/

/-- The text that makes the loop run forever. -/
abbrev Spec.stuckText : Str := c!"{:!cache; foo"

theorem pass_stuck (env : Env) (sh : Shared) (inh : Inherit) (only : Str) :
    ∃ sh' inh', pass env sh inh stuckText only = .ok stuckText sh' inh' := by
  have h : extractBlocks stuckText = .ok [] := by rfl
  have ht : trim stuckText = stuckText := by decide
  unfold pass parseSrc
  rw [h]
  simp only [runBlocks, blocksGo, List.nil_append, List.drop_zero, ht]
  exact ⟨_, _, rfl⟩

theorem cacheLoop_stuck (env : Env) (inh : Inherit) (n : Nat) : ∀ sh, cacheLoop env inh n sh stuckText = .oof := by
  have hc : contains c!"{:!cache;" stuckText = true := by decide
  induction n with
  | zero => intro sh; simp only [cacheLoop, hc, if_true]
  | succ n ih =>
    intro sh
    obtain ⟨sh', inh', hp⟩ := pass_stuck env sh inh c!"!cache"
    simp only [cacheLoop, hc, if_true, hp, ih]

/-- **C20 (refuted).** The template `{:!cache; foo` never finishes rendering: with any number of iterations, in any
environment, with any schema, `render` does not return. -/
theorem C20_refuted (env : Env) (n : Nat) (w : World) (t t' : Tpl) (h : t.raw = stuckText) :
    t.render env n w ≠ .ok t' ∧ t.renderOnce env n w ≠ .ok t' := by
  have hb : contains bifOpen t.raw = true := by rw [h]; decide
  have key : ∀ sc sh0, renderWith env n t sc sh0 ≠ .ok t' := by
    intro sc sh0 hx
    unfold renderWith at hx
    split at hx
    · simp at hx
    next sh =>
    split at hx
    · simp at hx
    next raw' sh1 inh hi =>
    have hr := (initShared_ok hi).1
    have hu : removeComments stuckText = some stuckText := by rfl
    have : raw' = stuckText := by
      rw [h, hu] at hr
      split at hr <;> exact (Option.some.inj hr).symm
    subst this
    obtain ⟨sh', inh', hp⟩ := pass_stuck env sh1 inh []
    rw [hp] at hx
    simp only [cacheLoop_stuck] at hx
    simp at hx
  unfold Tpl.render Tpl.renderOnce
  rw [hb]
  simp only [Bool.not_true, Bool.false_eq_true, if_false, renderOnceWith_eq]
  exact ⟨key _ _, key _ _⟩

set_option maxRecDepth 10000 in
/-- With a good schema it does not panic either: it is still running after any number of iterations (here 10). -/
example : Sample.oofOf (Sample.go [] stuckText) = true := by decide +kernel

/-- A text that keeps the loop busy without running a BIF: it has `{:!cache;` but no complete BIF. -/
def Spec.Stuck (text : Str) : Prop :=
  c!"{:!cache;" <:+: text ∧ ∃ l, extractBlocks text = .ok l ∧ ∀ b ∈ l, c!"{:*" <+: part text b.1 b.2

theorem blocksGo_progress (env : Env) (n : Nat) (src only : Str) (sh : Shared) (inh : Inherit) (halias : inh.alias = [])
    (hexit : sh.exit = false) : ∀ (l : List (Nat × Nat)) (p : Nat) (out : Str),
    (∃ b ∈ l, ¬ c!"{:*" <+: part src b.1 b.2) → ∀ x sh' inh',
    blocksGo env (runBlocks env n) src only p out l sh inh = .ok x sh' inh' → sh.count + 1 ≤ sh'.count := by
  intro l
  induction l with
  | nil => rintro p out ⟨b, hb, _⟩; simp at hb
  | cons b r ih =>
    rintro p out ⟨b', hb', hn⟩ x sh' inh' h
    obtain ⟨s, e⟩ := b
    by_cases hc : c!"{:*" <+: part src s e
    · have h1 : startsWith c!"{:*" (slice src s e) = true := by rw [slice_eq_part]; exact startsWith_iff.2 hc
      simp only [blocksGo, hexit, h1, Bool.true_or, if_true, Bool.false_eq_true, if_false] at h
      refine ih _ _ ⟨b', ?_, hn⟩ _ _ _ h
      rcases List.mem_cons.1 hb' with rfl | hm
      · exact absurd hc hn
      · exact hm
    · have h1 : startsWith c!"{:*" (slice src s e) = false := by
        rw [slice_eq_part, Bool.eq_false_iff]; exact fun hx => hc (startsWith_iff.1 hx)
      have h2 : (inh.alias = c!"coalesce") = False := by rw [halias]; simp
      simp only [blocksGo, hexit, h1, h2, decide_false, Bool.and_false, Bool.or_false, Bool.false_eq_true, if_false] at h
      have hr := C19_each_counts env n sh inh (slice src s e) only
      cases hb : runBif env (runBlocks env n) sh inh (slice src s e) only with
      | panic q => rw [hb] at h; simp at h
      | oof => rw [hb] at h; simp at h
      | ok y sh2 inh2 =>
        rw [hb] at h
        simp only at h
        have hg := blocksGo_rel counted_closed env (counted_runBlocks env n) (fun _ => OpsIn_true _) src only r
          e ((if p < s then out ++ slice src p s else out) ++ y) sh2 inh2
        rw [h] at hg
        have := (hr.2 y sh2 inh2 hb).1
        have := hg.2.1
        omega

/-- One iteration of the loop runs a BIF, or empties the text, or the text is stuck. -/
theorem pass_progress (env : Env) (sh : Shared) (inh : Inherit) (text only : Str) (halias : inh.alias = [])
    (hc : c!"{:!cache;" <:+: text) (hs : ¬ Stuck text) (out : Str) (sh' : Shared) (inh' : Inherit)
    (h : pass env sh inh text only = .ok out sh' inh') : sh.count + 1 ≤ sh'.count ∨ out = [] := by
  unfold pass parseSrc at h
  cases hx : extractBlocks text with
  | error p =>
    rw [hx] at h
    simp only [PRes.ok.injEq] at h
    exact .inr h.1.symm
  | ok l =>
    rw [hx] at h
    simp only [runBlocks] at h
    have hex : ∃ b ∈ l, ¬ c!"{:*" <+: part text b.1 b.2 := by
      apply Classical.byContradiction
      intro hno
      apply hs
      refine ⟨hc, l, hx, fun b hb => Classical.byContradiction fun hn => hno ⟨b, hb, hn⟩⟩
    cases he : sh.exit with
    | true =>
      obtain ⟨b, hb, _⟩ := hex
      cases l with
      | nil => simp at hb
      | cons y r =>
        simp only [blocksGo, he, if_true, PRes.ok.injEq] at h
        exact .inr h.1.symm
    | false =>
      left
      cases hb : blocksGo env (runBlocks env sh.max) text only 0 [] l sh { inh with blockCount := inh.blockCount + 1 } with
      | panic q => rw [hb] at h; simp at h
      | oof => rw [hb] at h; simp at h
      | ok o s2 i2 =>
        rw [hb] at h
        simp only [PRes.ok.injEq] at h
        have := blocksGo_progress env sh.max text only sh { inh with blockCount := inh.blockCount + 1 } halias he l 0 []
          hex o s2 i2 hb
        obtain ⟨f, hf⟩ := dropBlock_sh s2 i2
        rw [← h.2.1, hf]
        exact this

/-- `Intermediate env inh sh out text`: starting with the output `out`, the loop comes to the output `text`. -/
inductive Spec.Intermediate (env : Env) (inh : Inherit) : Shared → Str → Str → Prop
  | here (sh : Shared) (out : Str) : Intermediate env inh sh out out
  | next {sh sh' : Shared} {inh' : Inherit} {out out' text : Str} : c!"{:!cache;" <:+: out →
      pass env sh inh out c!"!cache" = .ok out' sh' inh' → Intermediate env inh sh' out' text →
      Intermediate env inh sh out text

theorem cacheLoop_oof (env : Env) (inh : Inherit) (halias : inh.alias = []) (n : Nat) : ∀ sh out, sh.count ≤ sh.max →
    sh.max < sh.count + n → cacheLoop env inh n sh out = .oof →
    ∃ text, Intermediate env inh sh out text ∧ Stuck text := by
  induction n with
  | zero => intro sh out h1 h2 _; omega
  | succ n ih =>
    intro sh out h1 h2 h
    apply Classical.byContradiction
    intro hno
    simp only [cacheLoop] at h
    split at h
    · next hc =>
      have hc := (contains_iff (by decide)).1 hc
      have hcnt := pass_rel counted_closed env (fun _ => OpsIn_true _) sh inh out c!"!cache"
      cases hp : pass env sh inh out c!"!cache" with
      | panic q => rw [hp] at h; simp at h
      | oof => exact pass_noOof env sh inh out _ h1 hp
      | ok o s2 i2 =>
        rw [hp] at h hcnt
        simp only at h
        have hcnt : Counted sh s2 := hcnt
        rcases pass_progress env sh inh out _ halias hc (fun hs => hno ⟨out, .here _ _, hs⟩) o s2 i2 hp with hx | hx
        · obtain ⟨text, ht, hs⟩ := ih s2 o (hcnt.2.2 h1) (by have := hcnt.1; omega) h
          exact hno ⟨text, .next hc hp ht, hs⟩
        · rw [hx, cacheLoop_done env inh n s2 [] (by decide)] at h
          simp at h
    · simp at h

/-- **C20, partial.** The full statement is false (`C20_refuted`). A render that does not finish within
`infinite_loop_max_bifs + 1` iterations has come to an intermediate output that contains `{:!cache;` but no complete BIF
(and so to such an output only: every other iteration runs a BIF). -/
theorem C20_stuck_partial (env : Env) (n limit : Nat) (w : World) (t : Tpl)
    (hlimit : ((t.schema.index c!"config").index c!"infinite_loop_max_bifs").asU64? = some limit) (hn : limit < n)
    (h : t.render env n w = .oof) :
    ∃ sh raw sh1 inh out sh2 inh2 text, Shared.new env w t.schema = some sh ∧
      initShared env t.filePath t.raw sh = .ok (raw, sh1, inh) ∧ pass env sh1 inh raw [] = .ok out sh2 inh2 ∧
      Intermediate env inh sh2 out text ∧ Stuck text := by
  unfold Tpl.render at h
  split at h
  · simp at h
  unfold renderWith at h
  split at h
  · simp at h
  next sh hsh =>
  split at h
  · simp at h
  next raw' sh1 inh hi =>
  have hmax : sh.max = limit ∧ sh.count = 0 := by
    have := hsh
    unfold Shared.new at this
    dsimp only at this
    rw [hlimit] at this
    split at this
    · next hm _ =>
      simp only [Option.some.injEq] at hm this
      subst this
      exact ⟨hm.symm, rfl⟩
    · simp at this
  obtain ⟨sc', g, hf⟩ := initShared_frame hi
  have hm1 : sh1.max = limit ∧ sh1.count = 0 := by rw [hf]; exact hmax
  have hcnt := pass_rel counted_closed env (fun _ => OpsIn_true _) sh1 inh raw' []
  split at h
  · simp at h
  · next hp => exact absurd hp (pass_noOof env sh1 inh raw' [] (by omega))
  next out sh2 inh2 hp =>
  rw [hp] at hcnt
  have hcnt : Counted sh1 sh2 := hcnt
  split at h
  · simp at h
  · next hl =>
    obtain ⟨text, ht, hs⟩ := cacheLoop_oof env inh (initShared_ok hi).2.2.2 n sh2 out (hcnt.2.2 (by omega))
      (by have := hcnt.1; omega) hl
    exact ⟨sh, raw', sh1, inh, out, sh2, inh2, text, hsh, hi, hp, ht, hs⟩
  split at h
  · simp at h
  · simp at h

/-- The stuck text of `C20_refuted` is one; a text with a complete BIF is not. -/
example : Stuck stuckText ∧ ¬ Stuck c!"{:!cache; x :}" := by
  constructor
  · exact ⟨⟨[], c!" foo", rfl⟩, [], rfl, by simp⟩
  · rintro ⟨_, l, h1, h2⟩
    have : extractBlocks c!"{:!cache; x :}" = .ok [(0, 14)] := by rfl
    rw [this, Except.ok.injEq] at h1
    subst h1
    exact absurd (h2 (0, 14) (by simp)) (by decide)

/-! ### C16, for whole renders -/

theorem stripped_same {s t : Str} (h : Stripped s t) : s = t ∨ c!"{:" <:+: s := by
  induction h with
  | nil => exact .inl rfl
  | chr c _ _ ih =>
    rcases ih with rfl | h
    · exact .inl rfl
    · exact .inr (h.trans ⟨[c], [], by simp⟩)
  | com hc _ _ =>
    obtain ⟨b, rfl, _⟩ := hc
    exact .inr ⟨[], '*' :: (b ++ c!"*:}") ++ _, by simp; rfl⟩

/-- **C16 (renders).** When comments are to be removed, the render of a source with comments (nested to any depth) is exactly the
render of the source without them: output, status, errors, data, files, and the source kept in the template.  For `render_once` too. -/
theorem C16_render (env : Env) (n : Nat) (w : World) (t : Tpl) (src : Str) (hs : Stripped t.raw src) (hsrc : ¬ c!"{:*" <:+: src)
    (hb : c!"{:" <:+: src)
    (hmode : ∀ sh, Shared.new env w t.schema = some sh → c!"remove" <:+: sh.comments) :
    t.render env n w = Tpl.render env n w { t with raw := src } ∧ t.renderOnce env n w = Tpl.renderOnce env n w { t with raw := src } := by
  have h1 : contains bifOpen t.raw = true := (contains_iff (by decide)).2 (by
    rcases stripped_same hs with h | h
    · rw [h]; exact hb
    · exact h)
  have h2 : contains bifOpen src = true := (contains_iff (by decide)).2 hb
  have r1 := C16_removes _ _ hs
  have r2 := C16_unchanged src hsrc
  have hinit : ∀ sh, Shared.new env w t.schema = some sh → initShared env t.filePath t.raw sh = initShared env t.filePath src sh := by
    intro sh hn
    unfold initShared
    rw [if_pos ((contains_iff (by decide)).2 (hmode sh hn)), if_pos ((contains_iff (by decide)).2 (hmode sh hn)), r1, r2]
  have hw : ∀ x, renderWith env n t x (Shared.new env w t.schema) = renderWith env n { t with raw := src } x (Shared.new env w t.schema) := by
    intro x
    unfold renderWith
    cases hn : Shared.new env w t.schema with
    | none => rfl
    | some sh => simp only [hinit sh hn]
  constructor
  · unfold Tpl.render
    simp only [h1, h2, Bool.not_true, Bool.false_eq_true, if_false]
    exact hw _
  · unfold Tpl.renderOnce
    simp only [h1, h2, Bool.not_true, Bool.false_eq_true, if_false]
    rw [renderOnceWith_eq]
    exact hw _

/-- The premises of C16_render are met, with nested comments. -/
example : Stripped c!"a{:* b {:* {:;x:} *:} *:}{:;x:}" c!"a{:;x:}" ∧ c!"{:" <:+: c!"a{:;x:}" ∧ ¬ c!"{:*" <:+: c!"a{:;x:}" := by
  refine ⟨.chr 'a' (by decide) (.com (b := c!"{:* b {:* {:;x:} *:} *:}") ⟨c!" b {:* {:;x:} *:} ", rfl, ?_, by decide⟩ ?_), by decide, by decide⟩
  · refine .chr _ (by decide) (by decide) (.chr _ (by decide) (by decide) (.chr _ (by decide) (by decide) ?_))
    exact .com (b := c!" {:;x:} ") (s := c!" ") (by repeat (first | exact .nil _ | refine .chr _ (by decide) (by decide) ?_)) (by decide) (by repeat (first | exact .nil _ | refine .chr _ (by decide) (by decide) ?_))
  · repeat (first | exact .nil | refine .chr _ (by decide) ?_)

end Nts
