import Verif.Props.Var
import Verif.Props.Filter
/-
C26: data is not evaluated, for templates made of text and variables.
-/
set_option autoImplicit false
namespace Nts
open Spec

/-- A piece of such a template: some text, and a variable with its modifiers after it. -/
structure Spec.Piece where
  lit : Str
  mods : Str
  name : Str

/-- The template: the pieces, and a final text. -/
def Spec.layout (l : List Piece) (last : Str) : Str :=
  l.foldr (fun p s => p.lit ++ bifText p.mods [] p.name ++ s) last

/-- The text after a variable. -/
def Spec.after (l : List Piece) (last : Str) : Str := match l with
  | [] => last
  | p :: _ => p.lit

/-- `Filled F sh inh l last out`: `out` is the template with each variable replaced by the printed form of its value. -/
inductive Spec.Filled (F : F64Ops) (sh : Shared) (inh : Inherit) : List Piece → Str → Str → Prop
  | nil (last : Str) : Filled F sh inh [] last last
  | cons {p : Piece} {l : List Piece} {last y out : Str} :
      Printed sh p.mods (trim p.name) (textOf F (Spec.named sh inh (trim p.name))) y → Filled F sh inh l last out →
      Filled F sh inh (p :: l) last (p.lit ++ trim (if '^' ∈ p.mods then c!"&#9224" ++ y else y) ++ out)

/-- The texts and the variables of the template do not touch each other in a way that makes a `{:`: no text contains a
delimiter or ends with `{`, a text after a variable does not start with `:`, and between two variables there is a text. -/
def Spec.Apart (l : List Piece) (last : Str) : Prop :=
  (∀ p ∈ l, Mods p.mods ∧ '+' ∉ p.mods ∧ '{' ∉ p.name ∧ '}' ∉ p.name ∧ trim p.name ≠ [] ∧
    ¬ c!"{:" <:+: p.lit ∧ ¬ c!":}" <:+: p.lit ∧ p.lit.getLast? ≠ some '{') ∧
  (¬ c!"{:" <:+: last ∧ ¬ c!":}" <:+: last) ∧
  (∀ p ∈ l.tail, p.lit ≠ [] ∧ p.lit.head? ≠ some ':') ∧ (l ≠ [] → last.head? ≠ some ':')

theorem wellFormed_lit {lit : Str} (h1 : ¬ c!"{:" <:+: lit) (h2 : ¬ c!":}" <:+: lit) :
    ∀ {p : Nat} {s : Str} {l : List (Nat × Nat)}, (s = [] ∨ ∃ r, s = '{' :: r) → WellFormed (p + lit.length) s l →
    WellFormed p (lit ++ s) l := by
  induction lit with
  | nil => intro p s l _ h; exact h
  | cons c lit ih =>
    intro p s l hs h
    rw [pair_cons, not_or] at h1 h2
    have hh : ∀ b : Char, b ≠ '{' → (lit ++ s).head? = some b → lit.head? = some b := by
      intro b hb hx
      cases lit with
      | nil =>
        rcases hs with rfl | ⟨r, rfl⟩
        · exact hx
        · simp at hx; exact absurd hx.symm hb
      | cons d lit => exact hx
    refine .chr c ?_ ?_ (ih h1.2 h2.2 hs (by rw [List.length_cons] at h; rw [Nat.add_assoc, Nat.add_comm 1]; exact h))
    · rw [pair_prefix]; rintro ⟨rfl, hx⟩; exact h1.1 ⟨rfl, hh _ (by decide) hx⟩
    · rw [pair_prefix]; rintro ⟨rfl, hx⟩; exact h2.1 ⟨rfl, hh _ (by decide) hx⟩

theorem bal_chars {s : Str} (h1 : '{' ∉ s) (h2 : '}' ∉ s) : Bal c!":}" s := by
  induction s with
  | nil => exact .nil _
  | cons c s ih =>
    simp only [List.mem_cons, not_or] at h1 h2
    refine .chr c ?_ ?_ (ih h1.2 h2.2)
    · rw [List.cons_append, pair_prefix]; rintro ⟨rfl, _⟩; exact h1.1 rfl
    · rw [List.cons_append, pair_prefix]
      rintro ⟨rfl, hx⟩
      cases s with
      | nil => simp at hx
      | cons d s => simp at hx; exact h2.2 (by simp [hx])

theorem isBif_var {mods name : Str} (hm : Mods mods) (h1 : '{' ∉ name) (h2 : '}' ∉ name) : IsBif (bifText mods [] name) := by
  refine ⟨mods ++ c!";" ++ name, by simp [bifText], bal_chars ?_ ?_, ?_⟩
  · intro h
    simp only [List.mem_append, List.mem_cons, List.not_mem_nil, or_false] at h
    rcases h with (h | h) | h
    · rcases hm _ h with h | h | h | h <;> exact absurd h (by decide)
    · exact absurd h (by decide)
    · exact h1 h
  · intro h
    simp only [List.mem_append, List.mem_cons, List.not_mem_nil, or_false] at h
    rcases h with (h | h) | h
    · rcases hm _ h with h | h | h | h <;> exact absurd h (by decide)
    · exact absurd h (by decide)
    · exact h2 h
  · rintro ⟨r, hr⟩
    cases mods with
    | nil => injection hr with h _; exact absurd h (by decide)
    | cons c m =>
      injection hr with h _
      subst h
      rcases hm '*' (by simp) with h | h | h | h <;> exact absurd h (by decide)

/-- The positions of the variables. -/
def piecesAt : Nat → List Piece → List (Nat × Nat)
  | _, [] => []
  | p, x :: l => (p + x.lit.length, p + x.lit.length + (bifText x.mods [] x.name).length) ::
      piecesAt (p + x.lit.length + (bifText x.mods [] x.name).length) l

theorem wellFormed_layout {last : Str} (l : List Piece) (h : ∀ p ∈ l, Mods p.mods ∧ '{' ∉ p.name ∧ '}' ∉ p.name ∧
    ¬ c!"{:" <:+: p.lit ∧ ¬ c!":}" <:+: p.lit) (h1 : ¬ c!"{:" <:+: last) (h2 : ¬ c!":}" <:+: last) :
    ∀ p, WellFormed p (layout l last) (piecesAt p l) := by
  induction l with
  | nil => intro p; exact wellFormed_plain h1 h2 p
  | cons x l ih =>
    intro p
    obtain ⟨g1, g2, g3, g4, g5⟩ := h x (by simp)
    show WellFormed p (x.lit ++ bifText x.mods [] x.name ++ layout l last) _
    rw [List.append_assoc]
    refine wellFormed_lit g4 g5 (.inr ⟨_, rfl⟩) ?_
    exact .block (.inl (isBif_var g1 g2 g3)) (ih (fun q hq => h q (by simp [hq])) _)

/-- A block that is evaluated. -/
theorem blocksGo_bif {env : Env} {R : Rec} {src only out : Str} {p s e : Nat} {r : List (Nat × Nat)} {sh : Shared} {inh : Inherit}
    (hx : sh.exit = false) (hc : (startsWith c!"{:*" (slice src s e) || (inh.lastCoalesceOut && decide (inh.alias = c!"coalesce"))) = false) :
    blocksGo env R src only p out ((s, e) :: r) sh inh =
      match runBif env R sh inh (slice src s e) only with
      | .ok x sh' inh' => blocksGo env R src only e ((if p < s then out ++ slice src p s else out) ++ x) r sh' inh'
      | .panic p => .panic p
      | .oof => .oof := by
  rw [blocksGo, if_neg (by simp [hx])]
  dsimp only
  rw [if_neg (by rw [hc]; decide)]
  rfl

/-- Evaluating the pieces. -/
theorem blocksGo_layout (env : Env) (n : Nat) (src last : Str) (sh : Shared) (inh : Inherit)
    (hexit : sh.exit = false) (hal : inh.alias ≠ c!"coalesce") :
    ∀ (l : List Piece) (p k : Nat) (out0 : Str) (inh1 : Inherit), src.drop p = layout l last →
    (∀ p ∈ l, Mods p.mods ∧ '+' ∉ p.mods ∧ '{' ∉ p.name ∧ '}' ∉ p.name ∧ trim p.name ≠ []) →
    k + l.length ≤ sh.max → inh1.indir = inh.indir → inh1.alias = inh.alias →
    ∃ out inh2, blocksGo env (runBlocks env n) src [] p out0 (piecesAt p l) { sh with count := k } inh1 =
        .ok (trim (out0 ++ out)) { sh with count := k + l.length } inh2 ∧ Filled env.f64 sh inh l last out := by
  intro l
  induction l with
  | nil =>
    intro p k out0 inh1 hd _ _ _ _
    refine ⟨last, inh1, ?_, .nil _⟩
    simp only [piecesAt, blocksGo]
    rw [hd]; rfl
  | cons x l ih =>
    intro p k out0 inh1 hd hl hk hi ha
    obtain ⟨g1, g2, g3, g4, g5⟩ := hl x (by simp)
    have hd1 : src.drop p = x.lit ++ (bifText x.mods [] x.name ++ layout l last) := by
      rw [hd]; show x.lit ++ bifText x.mods [] x.name ++ layout l last = _; rw [List.append_assoc]
    have hd2 : src.drop (p + x.lit.length) = bifText x.mods [] x.name ++ layout l last := by
      rw [← List.drop_drop, hd1, List.drop_left]
    have hd3 : src.drop (p + x.lit.length + (bifText x.mods [] x.name).length) = layout l last := by
      rw [← List.drop_drop, hd2, List.drop_left]
    simp only [List.length_cons] at hk
    have hlit : ¬ c!"{:" <:+: trim x.name := by
      intro hx
      exact g3 ((trim_infix _).subset (hx.subset (by simp)))
    obtain ⟨y, hy, hp⟩ := C25_value env n { sh with count := k } { sh with count := k + 1 } inh1
      { inh1 with bifCount := k + 1, inOnly := true } x.mods x.name [] (trim x.name) g1 g2 (show k < sh.max by omega) (.inl rfl) g5
      (fun h => absurd h hlit) (nested_plain hlit)
    obtain ⟨out, inh2, h1, h2⟩ := ih (p + x.lit.length + (bifText x.mods [] x.name).length) (k + 1)
      (out0 ++ x.lit ++ trim (if '^' ∈ x.mods then c!"&#9224" ++ y else y))
      { inh1 with bifCount := k + 1, inOnly := true, lastBifOut := !y.isEmpty, lastCoalesceOut := !y.isEmpty }
      hd3 (fun q hq => hl q (by simp [hq])) (by omega) hi ha
    have hn : Spec.named { sh with count := k + 1 } { inh1 with bifCount := k + 1, inOnly := true } (trim x.name) =
        Spec.named sh inh (trim x.name) := by
      unfold Spec.named
      simp only [hi]
      rfl
    rw [hn] at hp
    have hp' : Printed sh x.mods (trim x.name) (textOf env.f64 (Spec.named sh inh (trim x.name))) y :=
      ⟨hp.filtered, hp.context, hp.plain, hp.same⟩
    refine ⟨_, inh2, ?_, .cons hp' h2⟩
    have e1 : slice src (p + x.lit.length) (p + x.lit.length + (bifText x.mods [] x.name).length) = bifText x.mods [] x.name := by
      rw [slice_eq_part]; exact part_of_drop hd2
    have e2 : (if p < p + x.lit.length then out0 ++ slice src p (p + x.lit.length) else out0) = out0 ++ x.lit := by
      split
      · rw [slice_eq_part, part_of_drop hd1]
      · have : x.lit = [] := List.eq_nil_of_length_eq_zero (by omega)
        rw [this, List.append_nil]
    have e3 : startsWith c!"{:*" (bifText x.mods [] x.name) = false := by
      rw [← Bool.not_eq_true, startsWith_iff]
      obtain ⟨b, hb, _, h3⟩ := isBif_var g1 g3 g4
      rintro ⟨r, hr⟩
      rw [hb] at hr
      cases b with
      | nil =>
        injection hr with _ hr; injection hr with _ hr; injection hr with hr _
        exact absurd hr (by decide)
      | cons c b =>
        injection hr with _ hr; injection hr with _ hr; injection hr with hr _
        exact h3 ⟨b, by rw [← hr]; rfl⟩
    have e4 : (inh1.lastCoalesceOut && decide (inh1.alias = c!"coalesce")) = false := by
      rw [ha]; simp [hal]
    rw [piecesAt, blocksGo_bif (by exact hexit) (by rw [e1, e3, e4]; rfl), e1, e2, hy]
    simp only [finish, decide_eq_true_eq]
    have e5 : k + 1 + l.length = k + (x :: l).length := by simp only [List.length_cons]; omega
    rw [e5] at h1
    rw [h1]
    simp only [List.append_assoc]

theorem printed_noOpen {F : F64Ops} {sh : Shared} {inh : Inherit} {mods name y : Str} (hfb : sh.filterBifs = true)
    (hctx : AllClean ((sh.schema.index c!"data").index c!"CONTEXT")) (hshow : ∀ b, ∀ c ∈ F.show_ b, c ∉ special true)
    (h : Printed sh mods name (textOf F (Spec.named sh inh name)) y) : ¬ c!"{:" <:+: y := by
  by_cases hf : Filtering sh mods
  · suffices hs : ∀ c ∈ y, c ∉ special true by
      intro hx
      exact hs '{' (hx.subset (by simp)) (by decide)
    by_cases hc : c!"CONTEXT->" <+: name
    · rw [h.context hf hc]
      obtain ⟨rest, rfl⟩ := hc
      have hn : Spec.named sh inh (c!"CONTEXT->" ++ rest) = resolvePointer (sh.schema.index c!"data") (c!"CONTEXT->" ++ rest) := by
        unfold Spec.named; rfl
      rw [hn]
      cases hv : resolvePointer (sh.schema.index c!"data") (c!"CONTEXT->" ++ rest) with
      | none => simp [textOf]
      | some w =>
        have hb := resolve_context hv
        cases w with
        | str s => exact (hctx.1 s hb).1
        | num k =>
          cases k with
          | int i =>
            intro c hc
            simp only [textOf, showNum, showInt] at hc
            split at hc
            · rcases List.mem_cons.1 hc with rfl | hc
              · decide
              · exact digit_not_special (showNat_digits _ c hc)
            · exact digit_not_special (showNat_digits _ c hc)
          | flt b => exact hshow b
        | bool b => cases b <;> (simp only [textOf]; decide)
        | _ => simp [textOf]
    · exact (h.filtered hf hc).1.1
  · exact (h.plain hf hfb).1

theorem head_append_ne {a b : Str} {c : Char} (h1 : a.head? ≠ some c) (h2 : b.head? ≠ some c) : (a ++ b).head? ≠ some c := by
  cases a with
  | nil => exact h2
  | cons d a => exact h1

/-- The filled template contains no `{:`. -/
theorem filled_noOpen {F : F64Ops} {sh : Shared} {inh : Inherit} {l : List Piece} {last out : Str}
    (hfb : sh.filterBifs = true) (hctx : AllClean ((sh.schema.index c!"data").index c!"CONTEXT"))
    (hshow : ∀ b, ∀ c ∈ F.show_ b, c ∉ special true) (ha : Apart l last) (h : Filled F sh inh l last out) :
    ¬ c!"{:" <:+: out ∧ (∀ p ∈ l.head?, p.lit ≠ [] → p.lit.head? ≠ some ':' → out.head? ≠ some ':') ∧ (l = [] → out = last) := by
  induction h with
  | nil last => exact ⟨ha.2.1.1, by simp, by simp⟩
  | @cons p l last y out hp hf ih =>
    obtain ⟨a1, a2, a3, a4⟩ := ha
    have ha' : Apart l last := ⟨fun q hq => a1 q (by simp [hq]), a2, fun q hq => a3 q (List.mem_of_mem_tail hq), fun _ => a4 (by simp)⟩
    obtain ⟨i1, i2, i3⟩ := ih ha'
    obtain ⟨_, _, _, _, _, g6, g7, g8⟩ := a1 p (by simp)
    have hy := printed_noOpen hfb hctx hshow hp
    have hx : ¬ c!"{:" <:+: trim (if '^' ∈ p.mods then c!"&#9224" ++ y else y) :=
      upline_pair (up := '^' ∈ p.mods) (out := y) (by decide) (by decide) rfl hy
    have ho : out.head? ≠ some ':' := by
      cases l with
      | nil => rw [i3 rfl]; exact a4 (by simp)
      | cons q l =>
        have := a3 q (by simp)
        exact i2 q (by simp) this.1 this.2
    refine ⟨?_, ?_, by simp⟩
    · rw [List.append_assoc]
      exact pair_append g6 (pair_append hx i1 (.inr ho)) (.inl g8)
    · intro q hq hne hh
      simp only [List.head?_cons, Option.mem_def, Option.some.injEq] at hq
      subst hq
      cases hlit : p.lit with
      | nil => exact absurd hlit hne
      | cons d r => rw [hlit] at hh; exact hh

theorem filled_congr {F : F64Ops} {sh : Shared} {inh inh' : Inherit} {l : List Piece} {last out : Str}
    (hi : inh'.indir = inh.indir) (h : Filled F sh inh l last out) : Filled F sh inh' l last out := by
  induction h with
  | nil last => exact .nil _
  | cons hp _ ih =>
    refine .cons ?_ ih
    have : ∀ x, Spec.named sh inh' x = Spec.named sh inh x := by intro x; unfold Spec.named; rw [hi]
    rw [this]; exact hp

theorem stripped_self {s : Str} (h : ¬ c!"{:*" <:+: s) : Stripped s s := by
  induction s with
  | nil => exact .nil
  | cons c s ih =>
    rw [List.infix_cons_iff, not_or] at h
    exact .chr c h.1 (ih h.2)

/-- The text and status of a finished render that recorded no error. -/
structure Spec.TextResult (t' : Tpl) (text : Str) (bifs : Nat) : Prop where
  out : t'.out = replacements (trim text)
  code : t'.statusCode = c!"200"
  text : t'.statusText = c!"OK"
  param : t'.statusParam = []
  ran : t'.shared.count = bifs
  noError : t'.hasError = false ∧ t'.getError = .arr []

/-- A render whose source is evaluated by `k` BIFs that only print. -/
theorem render_text {env : Env} {n : Nat} {t t' : Tpl} {sc : Value} {w : World} {k : Nat} {P : Str → Prop}
    (hcache : ∀ text, P text → ¬ c!"{:!cache;" <:+: trim text)
    (hpass : ∀ sh, Shared.new env w t.schema = some sh → ∀ raw' sh1 inh,
      initShared env t.filePath t.raw sh = .ok (raw', sh1, inh) →
      ∃ text sh2 inh2, pass env sh1 inh raw' [] = .ok (trim text) sh2 inh2 ∧ P text ∧ ∃ f, sh2 = { sh1 with indir := f, count := k })
    (h : renderWith env n t sc (Shared.new env w t.schema) = .ok t') : ∃ text, P text ∧ TextResult t' text k := by
  unfold renderWith at h
  split at h
  · simp at h
  next sh hsh =>
  split at h
  · simp at h
  next raw' sh1 inh hi =>
  obtain ⟨text, sh2, inh2, hp, hP, f, rfl⟩ := hpass sh hsh raw' sh1 inh hi
  rw [hp] at h
  simp only [cacheLoop_done env inh n _ _ (hcache text hP)] at h
  obtain ⟨_, hm, he, _⟩ := initShared_ok hi
  obtain ⟨sc', g, hf⟩ := initShared_frame hi
  obtain ⟨s1, s2, s3, s4, s5, s6, _⟩ := sharedNew_start hsh
  unfold endsRender at h
  rw [show ({ sh1 with indir := f, count := k } : Shared).schema = sh1.schema from rfl, applyMoveto_empty hm] at h
  simp only [Option.map_some, RRes.ok.injEq] at h
  subst h
  have c1 : sh1.statusCode = c!"200" := by rw [hf]; exact s1
  have c4 : sh1.redirectJs = [] := by rw [hf]; exact s4
  refine ⟨text, hP, ?_, c1, by rw [Tpl.statusText, hf]; exact s2, by rw [Tpl.statusParam, hf]; exact s3,
    rfl, by rw [Tpl.hasError, hf]; exact s6, he⟩
  have := C40_three_digits { sh1 with indir := f, count := k } (replacements (trim text)) 2 0 0 (by omega) (by omega) (by omega) c1
  rw [this, c4]
  simp

/-- **C26, for templates of text and variables.** For every schema with the cache enabled (the default), every data value
(request data, local data, any types), every list of variables with any modifiers but `+`: the render prints the text with
the values (in their printed form) in place of the variables, runs exactly one BIF per variable of the source, and leaves
the status at 200 with no error. Nothing in the data is evaluated, in either pass. Missing from the full statement: other
BIFs (`join` does evaluate data: `C26_refuted`), variables that touch each other or a `{` / `:` of the text
(`C26_refuted`), and `cache_disable`. -/
theorem C26_partial (env : Env) (n : Nat) (w : World) (t t' : Tpl) (l : List Piece) (last : Str) (ha : Apart l last)
    (hsrc : Source env w t (layout l last))
    (hshow : ∀ b, ∀ c ∈ env.f64.show_ b, c ∉ special true)
    (hconf : ∀ sh, Shared.new env w t.schema = some sh → sh.cacheDisable = false ∧ l.length ≤ sh.max)
    (hb : c!"{:" <:+: t.raw) (h : t.render env n w = .ok t') :
    ∃ out, (∀ sh sh1 raw' inh, Shared.new env w t.schema = some sh → initShared env t.filePath t.raw sh = .ok (raw', sh1, inh) →
        Filled env.f64 sh1 inh l last out) ∧ TextResult t' out l.length := by
  have hb' : contains bifOpen t.raw = true := (contains_iff (by decide)).2 hb
  unfold Tpl.render at h
  simp only [hb', Bool.not_true, Bool.false_eq_true, if_false] at h
  cases hnew : Shared.new env w t.schema with
  | none => rw [hnew] at h; simp [renderWith] at h
  | some sh =>
  cases hinit : initShared env t.filePath t.raw sh with
  | error e => rw [hnew] at h; simp [renderWith, hinit] at h
  | ok r =>
  obtain ⟨raw', sh1, inh⟩ := r
  have hfb1 : sh1.filterBifs = true := by
    obtain ⟨sc', g, hf⟩ := initShared_frame hinit
    have := C25_default env w t.schema sh hnew
    rw [hf]
    show sh.filterBifs = true
    rw [this, (hconf sh hnew).1]; rfl
  suffices hmain : ∃ text, Filled env.f64 sh1 inh l last text ∧ TextResult t' text l.length by
    obtain ⟨text, hP, hR⟩ := hmain
    refine ⟨text, ?_, hR⟩
    intro sh' sh1' raw2 inh' h1 h2
    simp only [Option.some.injEq] at h1
    subst h1
    simp only [hinit, Except.ok.injEq, Prod.mk.injEq] at h2
    obtain ⟨_, rfl, rfl⟩ := h2
    exact hP
  refine render_text (k := l.length) (P := fun text => Filled env.f64 sh1 inh l last text) ?_ ?_ h
  · intro text hP hx
    have := (filled_noOpen hfb1 (C04_context_clean hinit) hshow ha hP).1
    exact this ((List.IsInfix.trans (⟨[], c!"!cache;", rfl⟩ : c!"{:" <:+: c!"{:!cache;") hx).trans (trim_infix text))
  · intro sh' hsh' raw2 sh1' inh' hi'
    rw [hnew, Option.some.injEq] at hsh'
    subst hsh'
    rw [hinit, Except.ok.injEq, Prod.mk.injEq, Prod.mk.injEq] at hi'
    obtain ⟨rfl, rfl, rfl⟩ := hi'
    have hraw := source_init hsrc hnew hinit
    subst hraw
    obtain ⟨sc', g, hf⟩ := initShared_frame hinit
    have hst := sharedNew_start hnew
    have hex : sh1.exit = false := by rw [hf]; exact hst.2.2.2.2.2.2
    have hc0 : sh1.count = 0 := by rw [hf]; exact hst.2.2.2.2.1
    have hmax : sh1.max = sh.max := by rw [hf]
    have hal : inh.alias = [] := (initShared_ok hinit).2.2.2
    have hwf : ∀ p, WellFormed p (layout l last) (piecesAt p l) := wellFormed_layout l (fun p hp => by
      obtain ⟨g1, _, g3, g4, _, g6, g7, _⟩ := ha.1 p hp
      exact ⟨g1, g3, g4, g6, g7⟩) ha.2.1.1 ha.2.1.2
    obtain ⟨out, inh2, h1, h2⟩ := blocksGo_layout env sh1.max (layout l last) last sh1
      { inh with blockCount := inh.blockCount + 1 } hex (by rw [hal]; decide) l 0 0 []
      { inh with blockCount := inh.blockCount + 1 } rfl (fun p hp => by
        obtain ⟨g1, g2, g3, g4, g5, _⟩ := ha.1 p hp
        exact ⟨g1, g2, g3, g4, g5⟩) (by rw [hmax]; have := (hconf sh hnew).2; omega) rfl rfl
    refine ⟨out, ?_⟩
    unfold pass parseSrc
    rw [C15_complete _ _ (hwf 0)]
    simp only [runBlocks]
    have e0 : ({ sh1 with count := 0 } : Shared) = sh1 := by rw [← hc0]
    rw [e0] at h1
    rw [h1]
    simp only [List.nil_append, Nat.zero_add]
    obtain ⟨f, hf'⟩ := dropBlock_sh { sh1 with count := l.length } inh2
    refine ⟨_, _, rfl, ?_, f, hf'⟩
    exact filled_congr (inh := { inh with blockCount := inh.blockCount + 1 }) rfl h2

set_option maxRecDepth 10000 in
/-- The premises are met, with hostile data in a text between two variables; and the rendered text. -/
example :
    let l : List Piece := [⟨c!"a ", [], c!"x"⟩, ⟨c!" b ", c!"&^", c!" x "⟩]
    let t := Sample.tpl (Sample.schema 1000 [(c!"x", .str c!"{:!cache;{:exit;404:}:}")] Sample.inherit) (layout l c!"!")
    layout l c!"!" = c!"a {:;x:} b {:&^; x :}!" ∧ Apart l c!"!" ∧ Source Sample.env Sample.world t (layout l c!"!") ∧
    (∀ sh, Shared.new Sample.env Sample.world t.schema = some sh → sh.cacheDisable = false ∧ l.length ≤ sh.max) ∧
    c!"{:" <:+: t.raw ∧ Sample.outOf (t.render Sample.env 10 Sample.world) =
      some (c!"a &#123;:!cache;&#123;:exit;404:&#125;:&#125; b&#123;:!cache;&#123;:exit;404:&#125;:&#125;!", c!"200") := by
  refine ⟨by decide, ⟨?_, by decide, ?_, by decide⟩, ?_, ?_, by decide, by decide +kernel⟩
  · intro p hp
    simp only [List.mem_cons, List.not_mem_nil, or_false] at hp
    rcases hp with rfl | rfl
    · exact ⟨by unfold Mods; decide, by decide⟩
    · exact ⟨by unfold Mods; decide, by decide⟩
  · intro p hp
    simp only [List.tail_cons, List.mem_cons, List.not_mem_nil, or_false] at hp
    subst hp
    decide
  · intro sh _
    split
    · exact stripped_self (by decide)
    · rfl
  · intro sh hsh
    have : Shared.new Sample.env Sample.world (Sample.schema 1000 [(c!"x", .str c!"{:!cache;{:exit;404:}:}")] Sample.inherit) = some sh := hsh
    have h2 := congrArg (fun o => o.map (fun s => (s.cacheDisable, decide (2 ≤ s.max)))) this
    have h3 : some (false, true) = some (sh.cacheDisable, decide (2 ≤ sh.max)) := by
      rw [← Option.map_some (f := fun s : Shared => (s.cacheDisable, decide (2 ≤ s.max))), ← h2]; rfl
    simp only [Option.some.injEq, Prod.mk.injEq] at h3
    exact ⟨h3.1.symm, by simpa using h3.2.symm⟩

end Nts
