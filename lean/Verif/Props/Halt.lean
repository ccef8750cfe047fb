import Verif.Props.Render
import Verif.Lemmas.Good
/-
C20: exactly which renders return.
-/
set_option autoImplicit false
namespace Nts
open Spec

/-- A text at which the loop of `render` makes no progress: `{:!cache;` is in it, and nothing is ever closed. -/
def Spec.NeverClosed (text : Str) : Prop := c!"{:!cache;" <:+: text ∧ ¬ c!":}" <:+: text

theorem infix_part {p s : Str} {a b : Nat} (h : p <:+: part s a b) : p <:+: s := by
  refine h.trans ?_
  unfold part
  exact ((s.take b).drop_suffix a).isInfix.trans (s.take_prefix b).isInfix

/-- No block without `:}`. -/
theorem extractBlocks_open {s : Str} (h : ¬ c!":}" <:+: s) : extractBlocks s = .ok [] := by
  cases hx : extractBlocks s with
  | error p => exact absurd ((C14_error s p hx).1.isInfix.trans (s.drop_suffix p).isInfix) h
  | ok l =>
    cases l with
    | nil => rfl
    | cons b r =>
      obtain ⟨x, y⟩ := b
      exact absurd (infix_part (C14_blocks s _ hx).1.2.2.2.2.1.isInfix) h

theorem extractBlocks_nil {s : Str} (h : extractBlocks s = .ok []) : ¬ c!":}" <:+: s := by
  have := (C14_blocks s [] h).2.1 s (by simp [outside, part])
  exact this

theorem infix_blankStart {p : Str} (hp : p ≠ []) (hw : ∀ c ∈ p, isWs c = false) : ∀ {w s : Str}, Blank w → p <:+: w ++ s → p <:+: s := by
  intro w
  induction w with
  | nil => intro s _ h; exact h
  | cons c w ih =>
    intro s hb h
    rw [List.cons_append, List.infix_cons_iff] at h
    rcases h with h | h
    · obtain ⟨d, p', rfl⟩ := List.exists_cons_of_ne_nil hp
      obtain ⟨t, ht⟩ := h
      injection ht with h1 _
      have := hw d (by simp)
      rw [h1, hb c (by simp)] at this
      cases this
    · exact ih (fun x hx => hb x (by simp [hx])) h

theorem infix_trim {p s : Str} (hp : p ≠ []) (hw : ∀ c ∈ p, isWs c = false) (h : p <:+: s) : p <:+: trim s := by
  obtain ⟨w1, w2, e, b1, b2⟩ := trim_parts s
  rw [e] at h
  have h1 := infix_blankStart hp hw b1 h
  have h2 : p.reverse <:+: w2.reverse ++ (trim s).reverse := by
    rw [← List.reverse_append]; exact List.reverse_infix.2 h1
  have h3 := infix_blankStart (p := p.reverse) (by simpa using hp) (fun c hc => hw c (by simpa using hc))
    (w := w2.reverse) (fun c hc => b2 c (by simpa using hc)) h2
  exact List.reverse_infix.1 h3

theorem neverClosed_trim {s : Str} (h : NeverClosed s) : NeverClosed (trim s) :=
  ⟨infix_trim (by simp) (by decide) h.1, fun h' => h.2 (h'.trans (trim_infix s))⟩

theorem pass_open (env : Env) (sh : Shared) (inh : Inherit) (text only : Str) (h : ¬ c!":}" <:+: text) :
    ∃ sh' inh', pass env sh inh text only = .ok (trim text) sh' inh' := by
  unfold pass parseSrc
  rw [extractBlocks_open h]
  simp only [runBlocks, blocksGo, List.nil_append, List.drop_zero]
  exact ⟨_, _, rfl⟩

theorem cacheLoop_neverClosed (env : Env) (inh : Inherit) (n : Nat) : ∀ sh text, NeverClosed text →
    cacheLoop env inh n sh text = .oof := by
  induction n with
  | zero =>
    intro sh text h
    simp only [cacheLoop, (contains_iff (by decide)).2 h.1, if_true]
  | succ n ih =>
    intro sh text h
    obtain ⟨sh', inh', hp⟩ := pass_open env sh inh text c!"!cache" h.2
    simp only [cacheLoop, (contains_iff (by decide)).2 h.1, if_true, hp]
    exact ih _ _ (neverClosed_trim h)

theorem cacheLoop_from {env : Env} {inh : Inherit} {sh : Shared} {out text : Str} (h : Intermediate env inh sh out text)
    (hs : NeverClosed text) : ∀ n, cacheLoop env inh n sh out = .oof := by
  induction h with
  | here sh out => intro n; exact cacheLoop_neverClosed env inh n sh out hs
  | next hc hp _ ih =>
    intro n
    cases n with
    | zero => simp only [cacheLoop, (contains_iff (by decide)).2 hc, if_true]
    | succ n => simp only [cacheLoop, (contains_iff (by decide)).2 hc, if_true, hp]; exact ih hs n

/-- A pass over comments only shortens the text. -/
theorem blocksGo_onlyComments (env : Env) (R : Rec) (src only : Str) (sh : Shared) (inh : Inherit) : ∀ (l : List (Nat × Nat)) (p : Nat)
    (out : Str), Ordered src p l → (∀ b ∈ l, c!"{:*" <+: part src b.1 b.2) →
    ∃ x, blocksGo env R src only p out l sh inh = .ok x sh inh ∧ x.length + (if l = [] then 0 else 1) ≤ out.length + (src.length - p) := by
  intro l
  induction l with
  | nil =>
    intro p out _ _
    refine ⟨_, rfl, ?_⟩
    have := (trim_infix (out ++ src.drop p)).length_le
    simp only [List.length_append, List.length_drop] at this
    simpa using this
  | cons b r ih =>
    obtain ⟨s, e⟩ := b
    intro p out ho hc
    obtain ⟨h1, h2, h3, _, _, h6⟩ := ho
    by_cases hex : sh.exit
    · refine ⟨out, by simp only [blocksGo, hex, if_true], ?_⟩
      simp only [List.cons_ne_nil, if_false]; omega
    · have hst : startsWith c!"{:*" (slice src s e) = true := by
        rw [slice_eq_part]; exact startsWith_iff.2 (hc (s, e) (by simp))
      obtain ⟨x, hx, hl⟩ := ih e (if p < s then out ++ slice src p s else out) h6 (fun b hb => hc b (by simp [hb]))
      refine ⟨x, ?_, ?_⟩
      · simp only [blocksGo, hst, Bool.true_or, if_true]
        rw [if_neg hex]; exact hx
      · have : (if p < s then out ++ slice src p s else out).length ≤ out.length + (s - p) := by
          split
          · rw [slice_eq_part]; unfold part; simp only [List.length_append, List.length_take, List.length_drop]; omega
          · omega
        simp only [List.cons_ne_nil, if_false]
        omega

theorem cacheLoop_always (env : Env) (inh : Inherit) (halias : inh.alias = []) (k : Nat) : ∀ (j : Nat) (sh : Shared) (out : Str),
    sh.max - sh.count < k → out.length < j → sh.count ≤ sh.max → (∀ n, cacheLoop env inh n sh out = .oof) →
    ∃ text, Intermediate env inh sh out text ∧ NeverClosed text := by
  induction k with
  | zero => intro j sh out h; omega
  | succ k ihk =>
    intro j
    induction j with
    | zero => intro sh out _ h; omega
    | succ j ihj =>
      intro sh out h1 h2 h3 h
      have hc : contains c!"{:!cache;" out = true := by
        have := h 0
        simp only [cacheLoop] at this
        split at this
        · next hc => exact hc
        · cases this
      have hc' := (contains_iff (by decide)).1 hc
      have hcnt := pass_rel counted_closed env (fun _ => OpsIn_true _) sh inh out c!"!cache"
      cases hp : pass env sh inh out c!"!cache" with
      | oof => exact absurd hp (pass_noOof env sh inh out _ h3)
      | panic q =>
        have := h 1
        simp only [cacheLoop, hc, if_true, hp] at this
        cases this
      | ok o s2 i2 =>
        rw [hp] at hcnt
        have hcnt : Counted sh s2 := hcnt
        have hn : ∀ n, cacheLoop env inh n s2 o = .oof := by
          intro n
          have := h (n + 1)
          simp only [cacheLoop, hc, if_true, hp] at this
          exact this
        have hne : o ≠ [] := by
          intro he
          have := hn 0
          rw [he, cacheLoop_done env inh 0 s2 [] (by decide)] at this
          cases this
        by_cases hs : Stuck out
        · obtain ⟨_, l, hx, hl⟩ := hs
          cases l with
          | nil => exact ⟨out, .here _ _, hc', extractBlocks_nil hx⟩
          | cons b r =>
            have hshort : o.length < out.length := by
              obtain ⟨x, hx1, hx2⟩ := blocksGo_onlyComments env (runBlocks env sh.max) out c!"!cache" sh
                { inh with blockCount := inh.blockCount + 1 } (b :: r) 0 [] (C14_blocks out _ hx).1 hl
              have hp' := hp
              unfold pass parseSrc at hp'
              rw [hx] at hp'
              simp only [runBlocks, hx1, PRes.ok.injEq] at hp'
              rw [← hp'.1]
              simp at hx2
              omega
            have := hcnt.1
            have := hcnt.2.1
            obtain ⟨text, ht, hs⟩ := ihj s2 o (by omega) (by omega) (hcnt.2.2 h3) hn
            exact ⟨text, .next hc' hp ht, hs⟩
        · rcases pass_progress env sh inh out _ halias hc' hs o s2 i2 hp with hx | hx
          · have h5 := hcnt.1
            have h6 := hcnt.2.1
            have h7 := hcnt.2.2 h3
            obtain ⟨text, ht, hs⟩ := ihk (o.length + 1) s2 o (by omega) (by omega) h7 hn
            exact ⟨text, .next hc' hp ht, hs⟩
          · exact absurd hx hne

theorem renderWith_never (env : Env) (t : Tpl) (sc : Value) (sh0 : Option Shared) (h0 : ∀ sh, sh0 = some sh → sh.count = 0) :
    (∀ n, renderWith env n t sc sh0 = .oof) ↔
    ∃ sh raw sh1 inh out sh2 inh2 text, sh0 = some sh ∧
      initShared env t.filePath t.raw sh = .ok (raw, sh1, inh) ∧ pass env sh1 inh raw [] = .ok out sh2 inh2 ∧
      Intermediate env inh sh2 out text ∧ NeverClosed text := by
  constructor
  · intro h
    cases hsh : sh0 with
    | none => have := h 0; rw [hsh] at this; cases this
    | some sh =>
      cases hi : initShared env t.filePath t.raw sh with
      | error p =>
        have := h 0
        simp only [renderWith, hsh, hi] at this
        cases this
      | ok q =>
        obtain ⟨raw, sh1, inh⟩ := q
        obtain ⟨sc', g, hf⟩ := initShared_frame hi
        have hc0 : sh1.count = 0 := by rw [hf]; exact h0 sh hsh
        have hcnt := pass_rel counted_closed env (fun _ => OpsIn_true _) sh1 inh raw []
        cases hp : pass env sh1 inh raw [] with
        | oof => exact absurd hp (pass_noOof env sh1 inh raw [] (by omega))
        | panic p =>
          have := h 0
          simp only [renderWith, hsh, hi, hp] at this
          cases this
        | ok out sh2 inh2 =>
          rw [hp] at hcnt
          have hcnt : Counted sh1 sh2 := hcnt
          have hn : ∀ n, cacheLoop env inh n sh2 out = .oof := by
            intro n
            have hh := h n
            simp only [renderWith, hsh, hi, hp] at hh
            cases hl : cacheLoop env inh n sh2 out with
            | oof => rfl
            | panic p => rw [hl] at hh; cases hh
            | ok o s3 i3 =>
              rw [hl] at hh
              dsimp only at hh
              cases he : endsRender s3 o with
              | none => rw [he] at hh; cases hh
              | some o3 => rw [he] at hh; cases hh
          obtain ⟨text, ht, hs⟩ := cacheLoop_always env inh (initShared_ok hi).2.2.2 (sh2.max - sh2.count + 1) (out.length + 1) sh2 out
            (Nat.lt_succ_self _) (Nat.lt_succ_self _) (hcnt.2.2 (by omega)) hn
          exact ⟨sh, raw, sh1, inh, out, sh2, inh2, text, rfl, hi, hp, ht, hs⟩
  · rintro ⟨sh, raw, sh1, inh, out, sh2, inh2, text, rfl, hi, hp, ht, hs⟩ n
    simp only [renderWith, hi, hp, cacheLoop_from ht hs n]

theorem sharedNew_count {env : Env} {w : World} {v : Value} {sh : Shared} (h : Shared.new env w v = some sh) : sh.count = 0 := by
  unfold Shared.new at h
  dsimp only at h
  split at h
  · simp only [Option.some.injEq] at h
    subst h; rfl
  · cases h

/-- **C20, exactly** (full claim: `render` always returns).  `render` runs forever exactly when the template contains `{:` and
the evaluation of the template, or a later round of the loop, gives a text that contains `{:!cache;` and no `:}` at all. In
every other case some number of rounds is enough for an output or a panic. -/
theorem C20_exact (env : Env) (w : World) (t : Tpl) :
    (∀ n, t.render env n w = .oof) ↔ c!"{:" <:+: t.raw ∧
    ∃ sh raw sh1 inh out sh2 inh2 text, Shared.new env w t.schema = some sh ∧
      initShared env t.filePath t.raw sh = .ok (raw, sh1, inh) ∧ pass env sh1 inh raw [] = .ok out sh2 inh2 ∧
      Intermediate env inh sh2 out text ∧ NeverClosed text := by
  have key := renderWith_never env t t.schema (Shared.new env w t.schema) (fun sh h => sharedNew_count h)
  unfold Tpl.render
  cases hb : contains bifOpen t.raw with
  | false =>
    have hb' : ¬ c!"{:" <:+: t.raw := fun h => by
      rw [show contains bifOpen t.raw = true from (contains_iff (by decide)).2 h] at hb; cases hb
    constructor
    · intro h; cases h 0
    · intro h; exact absurd h.1 hb'
  | true =>
    have hb' : c!"{:" <:+: t.raw := (contains_iff (p := bifOpen) (by decide)).1 hb
    simp only [Bool.not_true, Bool.false_eq_true, if_false]
    rw [key]
    exact ⟨fun h => ⟨hb', h⟩, fun h => h.2⟩

/-- **C20, exactly**, for `render_once`: it runs forever exactly when `render` would. -/
theorem C20_exact_once (env : Env) (w : World) (t : Tpl) :
    (∀ n, t.renderOnce env n w = .oof) ↔ (∀ n, t.render env n w = .oof) := by
  unfold Tpl.render Tpl.renderOnce
  rw [renderOnceWith_eq]
  split
  · constructor
    · intro h; cases h 0
    · intro h; cases h 0
  · rw [renderWith_never env t _ _ (fun sh h => sharedNew_count h), renderWith_never env t _ _ (fun sh h => sharedNew_count h)]

/-- The text of `C20_refuted` is such a text, a complete `{:!cache; … :}` is not. -/
example : NeverClosed stuckText ∧ ¬ NeverClosed c!"{:!cache; x :}" :=
  ⟨⟨⟨[], c!" foo", rfl⟩, by intro h; rw [← contains_iff (by decide)] at h; exact absurd h (by decide)⟩,
    fun h => h.2 ⟨c!"{:!cache; x ", [], rfl⟩⟩

/-- The output of the first pass of a render, if it gets there. -/
def firstOut (env : Env) (w : World) (t : Tpl) : Option Str :=
  match Shared.new env w t.schema with
  | none => none
  | some sh =>
    match initShared env t.filePath t.raw sh with
    | .error _ => none
    | .ok (raw, sh1, inh) =>
      match pass env sh1 inh raw [] with
      | .ok out _ _ => some out
      | _ => none

theorem never_firstOut (env : Env) (w : World) (t : Tpl) (out : Str) (hb : c!"{:" <:+: t.raw) (h : firstOut env w t = some out)
    (hs : NeverClosed out) : ∀ n, t.render env n w = .oof := by
  refine (C20_exact env w t).2 ⟨hb, ?_⟩
  unfold firstOut at h
  split at h
  · cases h
  next sh hsh =>
  split at h
  · cases h
  next raw sh1 inh hi =>
  split at h
  next o s2 i2 hp =>
    injection h with h; subst h
    exact ⟨sh, raw, sh1, inh, o, s2, i2, o, hsh, hi, hp, .here _ _, hs⟩
  · cases h

/-- A request whose parameter `x` is the given text. -/
def request (x : Str) : Obj := [(c!"CONTEXT", .obj [(c!"GET", .obj [(c!"x", .str x)])])]

set_option maxRecDepth 10000 in
/-- **C20 (refuted by a request).** A template without any `!cache` of its own, `a = {{:;CONTEXT->GET->x:}};`, renders forever
when the request parameter is `:!cache; <a>`: `filter_value` escapes `{` and `}`, but the brace comes from the template. -/
theorem C20_refuted_request (n : Nat) :
    (Sample.tpl (Sample.schema 1000 (request c!":!cache; <a>") Sample.inherit) c!"a = {{:;CONTEXT->GET->x:}};").render
      Sample.env n Sample.world = .oof := by
  refine never_firstOut _ _ _ c!"a = {:!cache; &lt;a&gt;};" ⟨c!"a = {", c!";CONTEXT->GET->x:}};", rfl⟩ ?_ ?_ n
  · decide +kernel
  · refine ⟨⟨c!"a = ", c!" &lt;a&gt;};", rfl⟩, ?_⟩
    intro h
    rw [← contains_iff (by decide)] at h
    exact absurd h (by decide)

set_option maxRecDepth 10000 in
/-- With an ordinary parameter the same template renders. -/
example : (Sample.outOf (Sample.go (request c!"<a>") c!"a = {{:;CONTEXT->GET->x:}};")).map (·.1) = some c!"a = {&lt;a&gt;};" := by
  decide +kernel

end Nts
