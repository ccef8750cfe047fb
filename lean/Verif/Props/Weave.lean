import Verif.Spec.Weave
import Verif.Props.Ends
import Verif.Props.Cond
import Verif.Props.Flags
import Verif.Props.Loop
/-
C128: the texts of a page have no influence on its BIFs.
-/
set_option autoImplicit false
namespace Nts
open Spec

/-- The BIFs `l`, one after the other: what they print and the state they leave. -/
inductive InTurn (env : Env) (R : Rec) (only : Str) : List Str → Shared → Inherit → List Str → Shared → Inherit → Prop
  | nil (sh : Shared) (inh : Inherit) : InTurn env R only [] sh inh [] sh inh
  | stop {l : List Str} {sh : Shared} {inh : Inherit} : sh.exit = true → InTurn env R only l sh inh [] sh inh
  | skipped {b : Str} {l xs : List Str} {sh sh' : Shared} {inh inh' : Inherit} : sh.exit = false → inh.alias = c!"coalesce" →
      inh.lastCoalesceOut = true → InTurn env R only l sh inh xs sh' inh' → InTurn env R only (b :: l) sh inh ([] :: xs) sh' inh'
  | evaluated {b x : Str} {l xs : List Str} {sh sh1 sh' : Shared} {inh inh1 inh' : Inherit} : sh.exit = false →
      ¬ (inh.alias = c!"coalesce" ∧ inh.lastCoalesceOut = true) → runBif env R sh inh b only = .ok x sh1 inh1 →
      InTurn env R only l sh1 inh1 xs sh' inh' → InTurn env R only (b :: l) sh inh (x :: xs) sh' inh'

theorem produces_plain_inv {env : Env} {R : Rec} {only : Str} {sh sh' : Shared} {inh inh' : Inherit} {e : Bool} :
    ∀ {s y : Str}, ¬ c!"{:" <:+: s → Produces env R only s sh inh e y sh' inh' → e = true ∧ y = s ∧ sh' = sh ∧ inh' = inh
  | [], y, _, h => produces_nil h
  | c :: s, y, hn, h => by
    have h2 : ¬ c!"{:" <:+: s := fun ht => hn (ht.trans ⟨[c], [], by simp⟩)
    rcases produces_chr (fun hp => hn hp.isInfix) h with ⟨_, h3, _⟩ | ⟨_, z, rfl, h3⟩
    · exact absurd h3 h2
    · obtain ⟨h4, rfl, h5, h6⟩ := produces_plain_inv h2 h3
      exact ⟨h4, rfl, h5, h6⟩

theorem woven_plain : ∀ {s : Str}, ¬ c!"{:" <:+: s → Woven s [] true s
  | [], _ => .nil
  | c :: s, hn => .chr c (fun hp => hn hp.isInfix) (by simp) (woven_plain fun ht => hn (ht.trans ⟨[c], [], by simp⟩))

/-- What a page that has ended produces. -/
theorem produces_over {env : Env} {R : Rec} {only s y : Str} {sh sh' : Shared} {inh inh' : Inherit} {e : Bool}
    (h : Produces env R only s sh inh e y sh' inh') (hx : sh.exit = true) : Woven s [] e y ∧ sh' = sh ∧ inh' = inh := by
  by_cases ho : c!"{:" <:+: s
  · obtain ⟨rfl, rfl, h1, h2⟩ := produces_exit hx ho h
    exact ⟨.cut ho, h1, h2⟩
  · obtain ⟨rfl, rfl, h1, h2⟩ := produces_plain_inv ho h
    exact ⟨woven_plain ho, h1, h2⟩

/-- Unless a page has ended, its output holds what its first BIF prints. -/
theorem inTurn_live {env : Env} {R : Rec} {only : Str} {l xs : List Str} {sh sh' : Shared} {inh inh' : Inherit}
    (h : InTurn env R only l sh inh xs sh' inh') (hx : sh.exit = false) : xs = [] → l = [] := by
  cases h with
  | nil => exact fun _ => rfl
  | stop h1 => rw [hx] at h1; cases h1
  | skipped => intro h; cases h
  | evaluated => intro h; cases h

theorem produces_live {env : Env} {R : Rec} {only s y : Str} {sh sh' : Shared} {inh inh' : Inherit} {e : Bool} {l : List Str}
    (hb : BifsOf s l) : Produces env R only s sh inh e y sh' inh' → sh.exit = false → l = [] → e = true := by
  intro h hx hl
  induction hb generalizing y with
  | nil => exact (produces_nil h).1
  | chr c h1 _ ih =>
    rcases produces_chr h1 h with ⟨h2, _⟩ | ⟨_, z, _, h3⟩
    · rw [hx] at h2; cases h2
    · exact ih h3 hl
  | comment hc _ ih =>
    rcases produces_block (.inr hc) h with ⟨h2, _⟩ | ⟨_, _, h3⟩ | ⟨_, h3, _⟩
    · rw [hx] at h2; cases h2
    · exact ih h3 hl
    · exact (not_both h3 hc).elim
  | one => cases hl

theorem produces_inTurn {env : Env} {R : Rec} {only s : Str} {l : List Str} (hb : BifsOf s l) :
    ∀ {y : Str} {sh sh' : Shared} {inh inh' : Inherit} {e : Bool}, Produces env R only s sh inh e y sh' inh' →
    ∃ xs, InTurn env R only l sh inh xs sh' inh' ∧ Woven s xs e y := by
  induction hb with
  | nil =>
    intro y sh sh' inh inh' e h
    obtain ⟨rfl, rfl, rfl, rfl⟩ := produces_nil h
    exact ⟨[], .nil _ _, .nil⟩
  | @chr s l c h1 hb ih =>
    intro y sh sh' inh inh' e h
    cases hx : sh.exit with
    | true =>
      obtain ⟨h2, rfl, rfl⟩ := produces_over h hx
      exact ⟨[], .stop hx, h2⟩
    | false =>
      have hl := produces_live (.chr c h1 hb) h hx
      rcases produces_chr h1 h with ⟨h2, _⟩ | ⟨_, z, rfl, h3⟩
      · rw [hx] at h2; cases h2
      · obtain ⟨xs, h4, h5⟩ := ih h3
        exact ⟨xs, h4, .chr c h1 (fun h => by rw [hl (inTurn_live h4 hx h.1)] at h; cases h.2) h5⟩
  | @comment b s l hc hb ih =>
    intro y sh sh' inh inh' e h
    cases hx : sh.exit with
    | true =>
      obtain ⟨h2, rfl, rfl⟩ := produces_over h hx
      exact ⟨[], .stop hx, h2⟩
    | false =>
      have hl := produces_live (.comment hc hb) h hx
      rcases produces_block (.inr hc) h with ⟨h2, _⟩ | ⟨_, _, h3⟩ | ⟨_, h3, _⟩
      · rw [hx] at h2; cases h2
      · obtain ⟨xs, h4, h5⟩ := ih h3
        exact ⟨xs, h4, .comment hc (fun h => by rw [hl (inTurn_live h4 hx h.1)] at h; cases h.2) h5⟩
      · exact (not_both h3 hc).elim
  | @one b s l hB hb ih =>
    intro y sh sh' inh inh' e h
    rcases produces_block (.inl hB) h with ⟨hx, _⟩ | ⟨hx, h1, h3⟩ | ⟨hx, _, hc, x, z, sh1, inh1, rfl, h2, h3⟩
    · obtain ⟨h2, rfl, rfl⟩ := produces_over h hx
      exact ⟨[], .stop hx, h2⟩
    · obtain ⟨h1, h2⟩ := h1.resolve_left (not_both hB)
      obtain ⟨xs, h4, h5⟩ := ih h3
      exact ⟨_, .skipped hx h1 h2 h4, .one (x := []) hB h5⟩
    · obtain ⟨xs, h4, h5⟩ := ih h3
      exact ⟨_, .evaluated hx hc h2 h4, .one hB h5⟩

theorem over_produces {env : Env} {R : Rec} {only s : Str} {sh : Shared} {inh : Inherit} (hx : sh.exit = true) :
    ∃ e y, Produces env R only s sh inh e y sh inh := by
  by_cases ho : c!"{:" <:+: s
  · exact ⟨_, _, .stop hx ho⟩
  · exact ⟨_, _, produces_noBif env R only s ho⟩

theorem inTurn_produces {env : Env} {R : Rec} {only s : Str} {l : List Str} (hb : BifsOf s l) :
    ∀ {xs : List Str} {sh sh' : Shared} {inh inh' : Inherit}, InTurn env R only l sh inh xs sh' inh' →
    ∃ e y, Produces env R only s sh inh e y sh' inh' ∧ Woven s xs e y := by
  induction hb with
  | nil =>
    intro xs sh sh' inh inh' h
    cases h with
    | nil => exact ⟨_, _, .nil _ _, .nil⟩
    | stop => exact ⟨_, _, .nil _ _, .nil⟩
  | @chr s l c h1 hb ih =>
    intro xs sh sh' inh inh' h
    cases hx : sh.exit with
    | true =>
      have hstop : xs = [] ∧ sh' = sh ∧ inh' = inh := by
        cases h with
        | nil => exact ⟨rfl, rfl, rfl⟩
        | stop => exact ⟨rfl, rfl, rfl⟩
        | skipped h0 => rw [hx] at h0; cases h0
        | evaluated h0 => rw [hx] at h0; cases h0
      obtain ⟨rfl, rfl, rfl⟩ := hstop
      obtain ⟨e, y, h2⟩ := over_produces (env := env) (R := R) (only := only) (s := c :: s) (inh := inh') hx
      exact ⟨e, y, h2, (produces_over h2 hx).1⟩
    | false =>
      obtain ⟨e, y, h2, h3⟩ := ih h
      refine ⟨e, c :: y, .chr c h1 (fun h => by rw [hx] at h; cases h.1) h2, .chr c h1 (fun h4 => ?_) h3⟩
      rw [produces_live hb h2 hx (inTurn_live h hx h4.1)] at h4
      cases h4.2
  | @comment b s l hc hb ih =>
    intro xs sh sh' inh inh' h
    cases hx : sh.exit with
    | true =>
      have hstop : xs = [] ∧ sh' = sh ∧ inh' = inh := by
        cases h with
        | nil => exact ⟨rfl, rfl, rfl⟩
        | stop => exact ⟨rfl, rfl, rfl⟩
        | skipped h0 => rw [hx] at h0; cases h0
        | evaluated h0 => rw [hx] at h0; cases h0
      obtain ⟨rfl, rfl, rfl⟩ := hstop
      obtain ⟨e, y, h2⟩ := over_produces (env := env) (R := R) (only := only) (s := b ++ s) (inh := inh') hx
      exact ⟨e, y, h2, (produces_over h2 hx).1⟩
    | false =>
      obtain ⟨e, y, h2, h3⟩ := ih h
      refine ⟨e, y, .comment hx hc h2, .comment hc (fun h4 => ?_) h3⟩
      rw [produces_live hb h2 hx (inTurn_live h hx h4.1)] at h4
      cases h4.2
  | @one b s l hB hb ih =>
    intro xs sh sh' inh inh' h
    cases h with
    | stop hx =>
      obtain ⟨e, y, h2⟩ := over_produces (env := env) (R := R) (only := only) (s := b ++ s) (inh := inh) hx
      exact ⟨e, y, h2, (produces_over h2 hx).1⟩
    | skipped hx h1 h2 h3 =>
      obtain ⟨e, y, h4, h5⟩ := ih h3
      exact ⟨e, y, .skipped hx hB h1 h2 h4, .one (x := []) hB h5⟩
    | evaluated hx hc h2 h3 =>
      obtain ⟨e, y, h4, h5⟩ := ih h3
      exact ⟨e, _, .evaluated hx hB hc h2 h4, .one hB h5⟩

/-- **C128 (a text).** Two pages, or two blocks nested in pages, that have the same BIFs in the same order, with whatever texts and
comments around and between them, evaluate their BIFs alike: in the same state they leave the same state, and each output is the
respective text with the same outputs of the BIFs in their places. -/
theorem C128_text (env : Env) (n : Nat) (only s1 s2 y1 : Str) (l : List Str) (sh sh' : Shared) (inh inh' : Inherit) (e1 : Bool)
    (h1 : BifsOf s1 l) (h2 : BifsOf s2 l) (h : Produces env (runBlocks env n) only s1 sh inh e1 y1 sh' inh') :
    ∃ xs e2 y2, Produces env (runBlocks env n) only s2 sh inh e2 y2 sh' inh' ∧ Woven s1 xs e1 y1 ∧ Woven s2 xs e2 y2 := by
  obtain ⟨xs, h3, h4⟩ := produces_inTurn h1 h
  obtain ⟨e2, y2, h5, h6⟩ := inTurn_produces h2 h3
  exact ⟨xs, e2, y2, h5, h4, h6⟩

/-- **C128 (a page).** Two pages that have the same BIFs in the same order, with other texts and comments: both renders, when they end,
leave the same state - data, status, errors, files, number of BIFs - and each output is made of the respective text with the same outputs
of the BIFs in their places.  A page that ends in an error, a redirection or a JavaScript redirection has the same output whatever its
text is. -/
theorem C128_render (env : Env) (n : Nat) (w : World) (t1 t2 t1' t2' : Tpl) (s1 s2 : Str) (l : List Str) (l1 l2 : List (Nat × Nat))
    (hschema : t2.schema = t1.schema) (hfile : t2.filePath = t1.filePath) (ho1 : c!"{:" <:+: t1.raw) (ho2 : c!"{:" <:+: t2.raw)
    (hs1 : Source env w t1 s1) (hs2 : Source env w t2 s2) (hwf1 : WellFormed 0 s1 l1) (hwf2 : WellFormed 0 s2 l2)
    (hb1 : BifsOf s1 l) (hb2 : BifsOf s2 l) (h1 : t1.render env n w = .ok t1') (h2 : t2.render env n w = .ok t2') :
    ∃ xs e1 y1 e2 y2, Woven s1 xs e1 y1 ∧ Woven s2 xs e2 y2 ∧
      (¬ c!"{:!cache;" <:+: ended e1 y1 → ¬ c!"{:!cache;" <:+: ended e2 y2 →
        t2'.shared = t1'.shared ∧
        (∃ o1 o2, applyMoveto t1'.shared.schema (ended e1 y1) = some o1 ∧ applyMoveto t1'.shared.schema (ended e2 y2) = some o2 ∧
          t1'.out = finalOut t1'.shared (replacements o1) ∧ t2'.out = finalOut t1'.shared (replacements o2)) ∧
        (PageReplaced t1' → t2'.out = t1'.out)) := by
  unfold Tpl.render at h1 h2
  simp only [(contains_iff (p := bifOpen) (by decide)).2 ho1, Bool.not_true, Bool.false_eq_true, if_false] at h1
  simp only [(contains_iff (p := bifOpen) (by decide)).2 ho2, Bool.not_true, Bool.false_eq_true, if_false] at h2
  rw [hschema] at h2
  cases hnew : Shared.new env w t1.schema with
  | none => rw [hnew] at h1; cases h1
  | some sh0 =>
    rw [hnew] at h1 h2
    unfold renderWith at h1 h2
    dsimp only at h1 h2
    rw [hfile] at h2
    cases hi : initShared env t1.filePath t1.raw sh0 with
    | error p => rw [hi] at h1; cases h1
    | ok r =>
      obtain ⟨r, sh, inh⟩ := r
      have hr := source_init hs1 hnew hi
      subst hr
      have hi2 := init_text hschema hs2 hnew hi
      rw [hi] at h1
      rw [hi2] at h2
      dsimp only at h1 h2
      have hal := (initShared_ok hi).2.2.2
      have hin : ({ inh with blockCount := inh.blockCount + 1 } : Inherit) = inside [] inh := by
        unfold inside; rw [← hal]
      rw [C24_passes hi, hin] at h1
      rw [C24_passes hi2, hin] at h2
      cases hp : parseSrc (runBlocks env (sh.max + 1)) sh (inside [] inh) r [] with
      | panic p => rw [hp] at h1; cases h1
      | oof => rw [hp] at h1; cases h1
      | ok out sh' inh' =>
        obtain ⟨e1, y1, h3, rfl⟩ := (C68_blocks env sh.max sh sh' _ inh' r [] out l1 hwf1).1 hp
        obtain ⟨xs, e2, y2, h4, h5, h6⟩ := C128_text env sh.max [] r s2 y1 l sh sh' _ inh' e1 hb1 hb2 h3
        have q2 := (C68_blocks env sh.max sh sh' _ inh' s2 [] _ l2 hwf2).2 ⟨e2, y2, h4, rfl⟩
        refine ⟨xs, e1, y1, e2, y2, h5, h6, fun hc1 hc2 => ?_⟩
        rw [hp] at h1
        rw [q2] at h2
        dsimp only at h1 h2
        rw [cacheLoop_done env inh n _ _ hc1] at h1
        rw [cacheLoop_done env inh n _ _ hc2] at h2
        dsimp only at h1 h2
        unfold endsRender at h1 h2
        cases m1 : applyMoveto sh'.schema (ended e1 y1) with
        | none => rw [m1] at h1; cases h1
        | some o1 =>
          cases m2 : applyMoveto sh'.schema (ended e2 y2) with
          | none => rw [m2] at h2; cases h2
          | some o2 =>
            rw [m1] at h1
            rw [m2] at h2
            cases h1
            cases h2
            refine ⟨rfl, ⟨o1, o2, m1, m2, rfl, rfl⟩, ?_⟩
            rintro ⟨i, j, k, hi', hj, hk, hcode, hh⟩
            exact finalOut_replaced hi' hj hk hcode hh _ _

/-- **C128 (the code of a BIF).** Two texts with the same BIFs in the same order, evaluated as the code of a BIF (with or without the
modifier `+`): the same state is left, and the outputs are the respective texts with the same outputs of the BIFs in their places. -/
theorem C128_nested (env : Env) (n : Nat) (scope : Bool) (sh sh' : Shared) (inh inh' : Inherit) (name c1 c2 only x1 : Str) (l : List Str)
    (m1 m2 : List (Nat × Nat)) (hwf1 : WellFormed 0 c1 m1) (hwf2 : WellFormed 0 c2 m2) (h1 : BifsOf c1 l) (h2 : BifsOf c2 l)
    (ho1 : c!"{:" <:+: c1) (ho2 : c!"{:" <:+: c2)
    (h : nested (runBlocks env (n + 1)) scope sh inh name c1 only = .ok x1 sh' inh') :
    ∃ x2, nested (runBlocks env (n + 1)) scope sh inh name c2 only = .ok x2 sh' inh' ∧
      ∃ xs e1 y1 e2 y2, Woven c1 xs e1 y1 ∧ Woven c2 xs e2 y2 ∧ x1 = ended e1 y1 ∧ x2 = ended e2 y2 := by
  have key : ∀ (s : Shared) (i : Inherit) (out : Str) (s' : Shared) (i' : Inherit),
      parseSrc (runBlocks env (n + 1)) s i c1 only = .ok out s' i' →
      ∃ out2, parseSrc (runBlocks env (n + 1)) s i c2 only = .ok out2 s' i' ∧
        ∃ xs e1 y1 e2 y2, Woven c1 xs e1 y1 ∧ Woven c2 xs e2 y2 ∧ out = ended e1 y1 ∧ out2 = ended e2 y2 := by
    intro s i out s' i' hp
    obtain ⟨e1, y1, h3, rfl⟩ := (C68_blocks env n s s' i i' c1 only out m1 hwf1).1 hp
    obtain ⟨xs, e2, y2, h4, h5, h6⟩ := C128_text env n only c1 c2 y1 l s s' i i' e1 h1 h2 h3
    exact ⟨_, (C68_blocks env n s s' i i' c2 only _ m2 hwf2).2 ⟨e2, y2, h4, rfl⟩, xs, e1, y1, e2, y2, h5, h6, rfl, rfl⟩
  unfold nested runChild at h ⊢
  rw [if_pos ((contains_iff (by decide)).2 ho1)] at h
  rw [if_pos ((contains_iff (by decide)).2 ho2)]
  cases scope <;>
  · simp only [Bool.false_eq_true, if_false, if_true] at h ⊢
    split at h
    next x s hr =>
      split at hr
      next out s' i' hp =>
        obtain ⟨out2, hp2, hw⟩ := key _ _ _ _ _ hp
        rw [hp2]
        cases hr
        cases h
        exact ⟨out2, rfl, hw⟩
      · cases hr
      · cases hr
    · cases h
    · cases h

/-- Two codes print both something or both nothing. -/
def Spec.AlikeShown (R : Rec) (mods name c1 c2 only : Str) (sh : Shared) (inh : Inherit) : Prop :=
  ∀ x1 x2 s1 s2 i1 i2, nested R (decide ('+' ∈ mods)) sh inh name c1 only = .ok x1 s1 i1 →
    nested R (decide ('+' ∈ mods)) sh inh name c2 only = .ok x2 s2 i2 → (x1 = [] ↔ x2 = [])

/-- **C128 (BIFs that show code).** The text in the code of a BIF matters to the rest of the page only in that it is there or not. -/
theorem C128_shown (env : Env) (n : Nat) (sh sh' : Shared) (inh inh' : Inherit) (mods name only c1 c2 z1 : Str) (l : List Str)
    (m1 m2 : List (Nat × Nat)) (hwf1 : WellFormed 0 c1 m1) (hwf2 : WellFormed 0 c2 m2) (h1 : BifsOf c1 l) (h2 : BifsOf c2 l)
    (ho1 : c!"{:" <:+: c1) (ho2 : c!"{:" <:+: c2)
    (hsame : AlikeShown (runBlocks env (n + 1)) mods name c1 c2 only sh inh)
    (hs : shown (runBlocks env (n + 1)) mods name c1 only sh inh = .ok z1 sh' inh') :
    ∃ z2, shown (runBlocks env (n + 1)) mods name c2 only sh inh = .ok z2 sh' inh' := by
  unfold shown at hs ⊢
  cases hn : nested (runBlocks env (n + 1)) (decide ('+' ∈ mods)) sh inh name c1 only with
  | panic q => rw [hn] at hs; cases hs
  | oof => rw [hn] at hs; cases hs
  | ok x1 s1 i1 =>
    obtain ⟨x2, hn2, _⟩ := C128_nested env n _ sh s1 inh i1 name c1 c2 only x1 l m1 m2 hwf1 hwf2 h1 h2 ho1 ho2 hn
    rw [hn] at hs
    rw [hn2]
    have he : x1.isEmpty = x2.isEmpty := by
      rw [Bool.eq_iff_iff, List.isEmpty_iff, List.isEmpty_iff]
      exact hsame _ _ _ _ _ _ hn hn2
    unfold finish at hs ⊢
    dsimp only at hs ⊢
    rw [← he]
    injection hs with e1 e2 e3
    exact ⟨_, by rw [e2, e3]⟩

/-- **C128 (conditions).** Two conditions with the same parameters, whose codes have the same BIFs in the same order, leave the same
state, when both codes print something or both print nothing. -/
theorem C128_condition (env : Env) (n : Nat) (sh sh1 sh' : Shared) (inh inh1 inh' : Inherit) (mods name src1 src2 only p c1 c2 x z1 : Str)
    (l : List Str) (m1 m2 : List (Nat × Nat)) (hname : name ∈ condNames) (hm : Mods mods) (hf : '&' ∉ mods) (hmax : sh.count < sh.max)
    (hsel : Selected inh mods name only) (hp1 : Parts src1 (some p) c1) (hp2 : Parts src2 (some p) c2)
    (hx : evalParams (runBlocks env (n + 1)) (counted sh) (entered sh inh) name p only = .ok x sh1 inh1) (hfl : flagsOf sh1 p = [])
    (hwf1 : WellFormed 0 c1 m1) (hwf2 : WellFormed 0 c2 m2) (h1 : BifsOf c1 l) (h2 : BifsOf c2 l)
    (ho1 : c!"{:" <:+: c1) (ho2 : c!"{:" <:+: c2)
    (hsame : AlikeShown (runBlocks env (n + 1)) mods name c1 c2 only sh1 inh1)
    (h : runBif env (runBlocks env (n + 1)) sh inh (bifText mods name src1) only = .ok z1 sh' inh') :
    ∃ z2, runBif env (runBlocks env (n + 1)) sh inh (bifText mods name src2) only = .ok z2 sh' inh' := by
  have a1 := C33_condition env (runBlocks env (n + 1)) sh sh1 inh inh1 mods name src1 only p c1 x hname hm hf hmax hsel hp1 hx hfl
  have a2 := C33_condition env (runBlocks env (n + 1)) sh sh1 inh inh1 mods name src2 only p c2 x hname hm hf hmax hsel hp2 hx hfl
  have both := C128_shown env n sh1 sh' inh1 inh' mods name only c1 c2 z1 l m1 m2 hwf1 hwf2 h1 h2 ho1 ho2 hsame
  by_cases hc : Cond env name sh1 inh1 x <;> by_cases hn : '!' ∈ mods
  · rw [a1.2.1 hc hn] at h
    rw [a2.2.1 hc hn]
    exact ⟨_, h⟩
  · rw [a1.1 hc hn] at h
    rw [a2.1 hc hn]
    exact both h
  · rw [a1.2.2.2 hc hn] at h
    rw [a2.2.2.2 hc hn]
    exact both h
  · rw [a1.2.2.1 hc hn] at h
    rw [a2.2.2.1 hc hn]
    exact ⟨_, h⟩

/-- **C128 (`same`, `contains`).** The same for the two comparisons. -/
theorem C128_compare (env : Env) (n : Nat) (sh sh1 sh' : Shared) (inh inh1 inh' : Inherit) (mods name src1 src2 only r c1 c2 z1 : Str)
    (d : Char) (z a b : Str) (more l : List Str) (m1 m2 : List (Nat × Nat))
    (hname : name ∈ cmpNames) (hm : Mods mods) (hf : '&' ∉ mods) (hmax : sh.count < sh.max)
    (hsel : Selected inh mods name only) (hp1 : Parts src1 (some (d :: r)) c1) (hp2 : Parts src2 (some (d :: r)) c2)
    (hflg : ¬ c!"{:flg;" <:+: d :: r)
    (hargs : ArgsGive (runBlocks env (n + 1)) name only (splitChar d (d :: r)) (counted sh) (entered sh inh) (z :: a :: b :: more) sh1 inh1)
    (hwf1 : WellFormed 0 c1 m1) (hwf2 : WellFormed 0 c2 m2) (h1 : BifsOf c1 l) (h2 : BifsOf c2 l)
    (ho1 : c!"{:" <:+: c1) (ho2 : c!"{:" <:+: c2)
    (hsame : AlikeShown (runBlocks env (n + 1)) mods name c1 c2 only sh1 inh1)
    (h : runBif env (runBlocks env (n + 1)) sh inh (bifText mods name src1) only = .ok z1 sh' inh') :
    ∃ z2, runBif env (runBlocks env (n + 1)) sh inh (bifText mods name src2) only = .ok z2 sh' inh' := by
  have a1 := C33_compare env (runBlocks env (n + 1)) sh sh1 inh inh1 mods name src1 only r c1 d z a b more hname hm hf hmax hsel hp1 hflg hargs
  have a2 := C33_compare env (runBlocks env (n + 1)) sh sh1 inh inh1 mods name src2 only r c2 d z a b more hname hm hf hmax hsel hp2 hflg hargs
  have both := C128_shown env n sh1 sh' inh1 inh' mods name only c1 c2 z1 l m1 m2 hwf1 hwf2 h1 h2 ho1 ho2 hsame
  by_cases hc : Compares name a b <;> by_cases hn : '!' ∈ mods
  · rw [a1.2.1 hc hn] at h
    rw [a2.2.1 hc hn]
    exact ⟨_, h⟩
  · rw [a1.1 hc hn] at h
    rw [a2.1 hc hn]
    exact both h
  · rw [a1.2.2.2 hc hn] at h
    rw [a2.2.2.2 hc hn]
    exact both h
  · rw [a1.2.2.1 hc hn] at h
    rw [a2.2.2.1 hc hn]
    exact ⟨_, h⟩

/-- **C128 (`else`).** The same for `else`. -/
theorem C128_else (env : Env) (n : Nat) (sh sh' : Shared) (inh inh' : Inherit) (mods src1 src2 only c1 c2 z1 : Str)
    (l : List Str) (m1 m2 : List (Nat × Nat)) (hm : Mods mods) (hf : '&' ∉ mods) (hmax : sh.count < sh.max)
    (hsel : Selected inh mods c!"else" only) (hp1 : Parts src1 none c1) (hp2 : Parts src2 none c2)
    (hwf1 : WellFormed 0 c1 m1) (hwf2 : WellFormed 0 c2 m2) (h1 : BifsOf c1 l) (h2 : BifsOf c2 l)
    (ho1 : c!"{:" <:+: c1) (ho2 : c!"{:" <:+: c2)
    (hsame : AlikeShown (runBlocks env (n + 1)) mods c!"else" c1 c2 only (counted sh) (entered sh inh))
    (h : runBif env (runBlocks env (n + 1)) sh inh (bifText mods c!"else" src1) only = .ok z1 sh' inh') :
    ∃ z2, runBif env (runBlocks env (n + 1)) sh inh (bifText mods c!"else" src2) only = .ok z2 sh' inh' := by
  rw [C34_else env _ sh inh mods src1 only c1 hm hf hmax hsel hp1] at h
  rw [C34_else env _ sh inh mods src2 only c2 hm hf hmax hsel hp2]
  split at h
  next hc =>
    rw [if_pos hc]
    exact C128_shown env n _ sh' _ inh' mods _ only c1 c2 z1 l m1 m2 hwf1 hwf2 h1 h2 ho1 ho2 hsame h
  next hc =>
    rw [if_neg hc]
    exact ⟨_, h⟩

/-- **C128 (`coalesce`).** The same for `coalesce`: which of its BIFs is the one that prints does not depend on the text around them. -/
theorem C128_coalesce (env : Env) (n : Nat) (sh sh' : Shared) (inh inh' : Inherit) (mods src1 src2 only z1 : Str)
    (l : List Str) (m1 m2 : List (Nat × Nat)) (hm : Mods mods) (hf : '&' ∉ mods) (hn : '!' ∉ mods) (hmax : sh.count < sh.max)
    (hsel : Selected inh mods c!"coalesce" only)
    (hwf1 : WellFormed 0 (trim src1) m1) (hwf2 : WellFormed 0 (trim src2) m2) (h1 : BifsOf (trim src1) l) (h2 : BifsOf (trim src2) l)
    (ho1 : c!"{:" <:+: trim src1) (ho2 : c!"{:" <:+: trim src2)
    (hsame : AlikeShown (runBlocks env (n + 1)) mods c!"coalesce" (trim src1) (trim src2) only (counted sh)
      { entered sh inh with lastCoalesceOut := false })
    (h : runBif env (runBlocks env (n + 1)) sh inh (bifText mods c!"coalesce" src1) only = .ok z1 sh' inh') :
    ∃ z2, runBif env (runBlocks env (n + 1)) sh inh (bifText mods c!"coalesce" src2) only = .ok z2 sh' inh' := by
  rw [C35_coalesce env _ sh inh mods src1 only hm hf hn hmax hsel ho1] at h
  rw [C35_coalesce env _ sh inh mods src2 only hm hf hn hmax hsel ho2]
  exact C128_shown env n _ sh' _ inh' mods _ only _ _ z1 l m1 m2 hwf1 hwf2 h1 h2 ho1 ho2 hsame h

/-- **C128 (`code`).** The same for `code` without flags. -/
theorem C128_code (env : Env) (n : Nat) (sh sh1 sh' : Shared) (inh inh1 inh' : Inherit) (mods src1 src2 only c1 c2 x z1 : Str)
    (p : Option Str) (l : List Str) (m1 m2 : List (Nat × Nat)) (hm : Mods mods) (hf : '&' ∉ mods) (hneg : '!' ∉ mods)
    (hmax : sh.count < sh.max) (hsel : Selected inh mods c!"code" only) (hp1 : Parts src1 p c1) (hp2 : Parts src2 p c2)
    (hx : evalParams (runBlocks env (n + 1)) (counted sh) (entered sh inh) c!"code" (p.getD []) only = .ok x sh1 inh1)
    (hfl : flagsOf sh1 (p.getD []) = [])
    (hwf1 : WellFormed 0 c1 m1) (hwf2 : WellFormed 0 c2 m2) (h1 : BifsOf c1 l) (h2 : BifsOf c2 l)
    (ho1 : c!"{:" <:+: c1) (ho2 : c!"{:" <:+: c2)
    (hsame : AlikeShown (runBlocks env (n + 1)) mods c!"code" c1 c2 only sh1 inh1)
    (hends : ∃ x s i, nested (runBlocks env (n + 1)) (decide ('+' ∈ mods)) sh1 inh1 c!"code" c1 only = .ok x s i)
    (h : runBif env (runBlocks env (n + 1)) sh inh (bifText mods c!"code" src1) only = .ok z1 sh' inh') :
    ∃ z2, runBif env (runBlocks env (n + 1)) sh inh (bifText mods c!"code" src2) only = .ok z2 sh' inh' := by
  obtain ⟨x1, s, i, hn⟩ := hends
  obtain ⟨x2, hn2, _⟩ := C128_nested env n _ sh1 s inh1 i c!"code" c1 c2 only x1 l m1 m2 hwf1 hwf2 h1 h2 ho1 ho2 hn
  have key : ∀ src c y, Parts src p c →
      nested (runBlocks env (n + 1)) (decide ('+' ∈ mods)) sh1 inh1 c!"code" c only = .ok y s i →
      runBif env (runBlocks env (n + 1)) sh inh (bifText mods c!"code" src) only = finish (decide ('^' ∈ mods)) y s i := by
    intro src c y hp hy
    have h := C70_code env (runBlocks env (n + 1)) sh sh1 s inh inh1 i mods src only c x y p hm hf hneg hmax hsel hp hx
      (by rw [hfl]; unfold Flag; decide) (by rw [hfl]; unfold FlagsIn; decide)
      (by rw [hfl, if_neg (by unfold Flag; decide)]; exact hy)
    rw [hfl] at h
    exact h
  rw [key src1 c1 x1 hp1 hn] at h
  rw [key src2 c2 x2 hp2 hn2]
  have he : x1.isEmpty = x2.isEmpty := by
    rw [Bool.eq_iff_iff, List.isEmpty_iff, List.isEmpty_iff]
    exact hsame _ _ _ _ _ _ hn hn2
  unfold finish at h ⊢
  rw [← he]
  injection h with e1 e2 e3
  exact ⟨_, by rw [e2, e3]⟩

theorem block_retext {env : Env} {n : Nat} {scope : Bool} {sh sh' : Shared} {inh inh' : Inherit} {name c1 c2 only x1 : Str} {l : List Str}
    {m1 m2 : List (Nat × Nat)} (hwf1 : WellFormed 0 c1 m1) (hwf2 : WellFormed 0 c2 m2) (h1 : BifsOf c1 l) (h2 : BifsOf c2 l)
    (h : block (runBlocks env (n + 1)) scope sh inh name c1 only = .ok x1 sh' inh') :
    ∃ x2, block (runBlocks env (n + 1)) scope sh inh name c2 only = .ok x2 sh' inh' := by
  have key : ∀ (s : Shared) (i : Inherit) (out : Str) (s' : Shared) (i' : Inherit),
      parseSrc (runBlocks env (n + 1)) s i c1 only = .ok out s' i' →
      ∃ out2, parseSrc (runBlocks env (n + 1)) s i c2 only = .ok out2 s' i' := by
    intro s i out s' i' hp
    obtain ⟨e1, y1, h3, rfl⟩ := (C68_blocks env n s s' i i' c1 only out m1 hwf1).1 hp
    obtain ⟨xs, e2, y2, h4, _, _⟩ := C128_text env n only c1 c2 y1 l s s' i i' e1 h1 h2 h3
    exact ⟨_, (C68_blocks env n s s' i i' c2 only _ m2 hwf2).2 ⟨e2, y2, h4, rfl⟩⟩
  unfold block runChild at h ⊢
  cases scope <;>
  · simp only [Bool.false_eq_true, if_false, if_true] at h ⊢
    split at h
    next x s hr =>
      split at hr
      next out s' i' hp =>
        obtain ⟨out2, hp2⟩ := key _ _ _ _ _ hp
        rw [hp2]
        cases hr
        cases h
        exact ⟨out2, rfl⟩
      · cases hr
      · cases hr
    · cases h
    · cases h

/-- **C128 (rounds).** In each round of a loop the text of the body has no influence on the state: the same rounds with another body that
has the same BIFs in the same order leave the same state. -/
theorem C128_rounds (env : Env) (n : Nat) (scope : Bool) (name c1 c2 only out : Str) (vs : List (List (Str × Value))) (l : List Str)
    (m1 m2 : List (Nat × Nat)) (hwf1 : WellFormed 0 c1 m1) (hwf2 : WellFormed 0 c2 m2) (h1 : BifsOf c1 l) (h2 : BifsOf c2 l)
    (sh sh' : Shared) (inh inh' : Inherit) (h : Rounds (runBlocks env (n + 1)) scope name c1 only vs sh inh out sh' inh') :
    ∃ out2, Rounds (runBlocks env (n + 1)) scope name c2 only vs sh inh out2 sh' inh' := by
  induction h with
  | nil => exact ⟨_, .nil _ _⟩
  | set hv _ ih =>
    obtain ⟨o, ho⟩ := ih
    exact ⟨o, .set hv ho⟩
  | eval hb _ ih =>
    obtain ⟨o, ho⟩ := ih
    obtain ⟨x2, hb2⟩ := block_retext hwf1 hwf2 h1 h2 hb
    exact ⟨_, .eval hb2 ho⟩

theorem varSet_determined {sh s1 s2 : Shared} {k : Str} {v : Value} (h1 : VarSet sh k v s1) (h2 : VarSet sh k v s2) : s1 = s2 := by
  obtain ⟨sc, d, e1, e2, rfl⟩ := h1
  obtain ⟨sc', d', e3, e4, rfl⟩ := h2
  rw [e1] at e3
  cases e3
  rw [e2] at e4
  cases e4
  rfl

theorem finish_alike {up : Bool} {o1 o2 : Str} (h : o1 = [] ↔ o2 = []) (sh : Shared) (inh : Inherit) :
    ∃ z1 z2 sh' inh', finish up o1 sh inh = .ok z1 sh' inh' ∧ finish up o2 sh inh = .ok z2 sh' inh' := by
  have he : o1.isEmpty = o2.isEmpty := by
    rw [Bool.eq_iff_iff, List.isEmpty_iff, List.isEmpty_iff]
    exact h
  unfold finish
  rw [← he]
  exact ⟨_, _, _, _, rfl, rfl⟩

/-- **C128 (`each`).** Two loops over the same collection, whose bodies have the same BIFs in the same order, leave the same state, when
both print something or both print nothing. -/
theorem C128_each (env : Env) (n : Nat) (sh sh1 sh2 : Shared) (inh inh1 inh2 : Inherit)
    (mods src1 src2 only p c1 c2 x an kn vn out : Str) (extra l : List Str) (m1 m2 : List (Nat × Nat)) (coll : Value)
    (items : List (Str × Value)) (sc d : Obj)
    (hm : Mods mods) (hf : '&' ∉ mods) (hneg : '!' ∉ mods) (hmax : sh.count < sh.max)
    (hsel : Selected inh mods c!"each" only) (hp1 : Parts src1 (some p) c1) (hp2 : Parts src2 (some p) c2)
    (hx : evalParams (runBlocks env (n + 1)) (counted sh) (entered sh inh) c!"each" p only = .ok x sh1 inh1) (hflags : flagsOf sh1 p = [])
    (hwords : Words x (an :: kn :: vn :: extra)) (hkn : ¬ c!"local::" <+: kn) (hvn : ¬ c!"local::" <+: vn)
    (hcoll : Collection sh1 inh1 an coll) (hitems : Elements coll items)
    (hwf1 : WellFormed 0 c1 m1) (hwf2 : WellFormed 0 c2 m2) (h1 : BifsOf c1 l) (h2 : BifsOf c2 l)
    (hrounds : Rounds (runBlocks env (n + 1)) (decide ('+' ∈ mods)) c!"each" c1 only
      (items.map (fun kv => [(kn, .str kv.1), (vn, kv.2)])) sh1 inh1 out sh2 inh2)
    (hdata : sh2.schema = .obj sc ∧ Obj.get? c!"data" sc = some (.obj d)) :
    ∃ out2, Rounds (runBlocks env (n + 1)) (decide ('+' ∈ mods)) c!"each" c2 only
        (items.map (fun kv => [(kn, .str kv.1), (vn, kv.2)])) sh1 inh1 out2 sh2 inh2 ∧
      ((out = [] ↔ out2 = []) → ∃ z1 z2 sh' inh',
        runBif env (runBlocks env (n + 1)) sh inh (bifText mods c!"each" src1) only = .ok z1 sh' inh' ∧
        runBif env (runBlocks env (n + 1)) sh inh (bifText mods c!"each" src2) only = .ok z2 sh' inh') := by
  obtain ⟨out2, hr2⟩ := C128_rounds env n _ _ c1 c2 only out _ l m1 m2 hwf1 hwf2 h1 h2 sh1 sh2 inh1 inh2 hrounds
  refine ⟨out2, hr2, fun he => ?_⟩
  obtain ⟨k1, s1, r1, a1, b1⟩ := each_exact env _ sh sh1 sh2 inh inh1 inh2 mods src1 only p c1 x an kn vn out extra m1 coll items sc d
    hm hf hneg hmax hsel hp1 hx hflags hwords hkn hvn hcoll hitems hwf1 hrounds hdata
  obtain ⟨k2, s2, r2, a2, b2⟩ := each_exact env _ sh sh1 sh2 inh inh1 inh2 mods src2 only p c2 x an kn vn out2 extra m2 coll items sc d
    hm hf hneg hmax hsel hp2 hx hflags hwords hkn hvn hcoll hitems hwf2 hr2 hdata
  have := varSet_determined a1 a2
  subst this
  have := varSet_determined b1 b2
  subst this
  rw [r1, r2]
  exact finish_alike he _ _

/-- **C128 (`for`).** The same for `for`. -/
theorem C128_for (env : Env) (n : Nat) (sh sh1 sh2 : Shared) (inh inh1 inh2 : Inherit)
    (mods src1 src2 only p c1 c2 x vn at_ bt out : Str) (a b : Int) (extra l : List Str) (m1 m2 : List (Nat × Nat)) (sc d : Obj)
    (hm : Mods mods) (hf : '&' ∉ mods) (hneg : '!' ∉ mods) (hmax : sh.count < sh.max)
    (hsel : Selected inh mods c!"for" only) (hp1 : Parts src1 (some p) c1) (hp2 : Parts src2 (some p) c2)
    (hx : evalParams (runBlocks env (n + 1)) (counted sh) (entered sh inh) c!"for" p only = .ok x sh1 inh1) (hflags : flagsOf sh1 p = [])
    (hwords : Words (replaceAll c!".." c!" " x) (vn :: at_ :: bt :: extra)) (hvn : ¬ c!"local::" <+: vn)
    (ha : parseI32 at_ = some a) (hb : parseI32 bt = some b)
    (hwf1 : WellFormed 0 c1 m1) (hwf2 : WellFormed 0 c2 m2) (h1 : BifsOf c1 l) (h2 : BifsOf c2 l)
    (hrounds : Rounds (runBlocks env (n + 1)) (decide ('+' ∈ mods)) c!"for" c1 only
      ((span a b).map (fun i => [(vn, .str (showInt i))])) sh1 inh1 out sh2 inh2)
    (hdata : sh2.schema = .obj sc ∧ Obj.get? c!"data" sc = some (.obj d)) :
    ∃ out2, Rounds (runBlocks env (n + 1)) (decide ('+' ∈ mods)) c!"for" c2 only
        ((span a b).map (fun i => [(vn, .str (showInt i))])) sh1 inh1 out2 sh2 inh2 ∧
      ((out = [] ↔ out2 = []) → ∃ z1 z2 sh' inh',
        runBif env (runBlocks env (n + 1)) sh inh (bifText mods c!"for" src1) only = .ok z1 sh' inh' ∧
        runBif env (runBlocks env (n + 1)) sh inh (bifText mods c!"for" src2) only = .ok z2 sh' inh') := by
  obtain ⟨out2, hr2⟩ := C128_rounds env n _ _ c1 c2 only out _ l m1 m2 hwf1 hwf2 h1 h2 sh1 sh2 inh1 inh2 hrounds
  refine ⟨out2, hr2, fun he => ?_⟩
  obtain ⟨s1, r1, b1⟩ := for_exact env _ sh sh1 sh2 inh inh1 inh2 mods src1 only p c1 x vn at_ bt out a b extra m1 sc d
    hm hf hneg hmax hsel hp1 hx hflags hwords hvn ha hb hwf1 hrounds hdata
  obtain ⟨s2, r2, b2⟩ := for_exact env _ sh sh1 sh2 inh inh1 inh2 mods src2 only p c2 x vn at_ bt out2 a b extra m2 sc d
    hm hf hneg hmax hsel hp2 hx hflags hwords hvn ha hb hwf2 hr2 hdata
  have := varSet_determined b1 b2
  subst this
  rw [r1, r2]
  exact finish_alike he _ _

/-- Every well-formed page is some BIFs with texts and comments between them. -/
theorem C128_every {p : Nat} {s : Str} {m : List (Nat × Nat)} (h : WellFormed p s m) : ∃ l, BifsOf s l := by
  induction h with
  | nil => exact ⟨[], .nil⟩
  | chr c h1 _ _ ih => exact ⟨_, .chr c h1 ih.choose_spec⟩
  | block hb _ ih =>
    rcases hb with hb | hb
    · exact ⟨_, .one hb ih.choose_spec⟩
    · exact ⟨_, .comment hb ih.choose_spec⟩

/-- The output is determined by the text and the outputs of the BIFs. -/
theorem C128_determined {s y y' : Str} {xs : List Str} {whole : Bool} (h : Woven s xs whole y) : Woven s xs whole y' → y' = y := by
  induction h generalizing y' with
  | nil =>
    intro h
    generalize hs : ([] : Str) = s at h
    cases h with
    | nil => rfl
    | chr => cases hs
    | comment hb => exact absurd (block_opens (.inr hb) _) (by rw [← hs]; simp)
  | cut ho =>
    intro h
    cases h with
    | cut => rfl
    | chr _ _ hn => exact absurd ⟨rfl, rfl⟩ hn
    | comment _ hn => exact absurd ⟨rfl, rfl⟩ hn
  | @chr s y xs whole c h1 hn _ ih =>
    intro h
    generalize hs : c :: s = t at h
    cases h with
    | nil => cases hs
    | cut => exact absurd ⟨rfl, rfl⟩ hn
    | chr d h2 _ h3 =>
      injection hs with e1 e2
      subst e1
      subst e2
      rw [ih h3]
    | comment hb => exact absurd (block_opens (.inr hb) _) (by rw [← hs]; exact h1)
    | one hb => exact absurd (block_opens (.inl hb) _) (by rw [← hs]; exact h1)
  | @comment b s y xs whole hc hn _ ih =>
    intro h
    generalize hs : b ++ s = t at h
    cases h with
    | nil => exact absurd (block_opens (.inr hc) s) (by rw [hs]; simp)
    | cut => exact absurd ⟨rfl, rfl⟩ hn
    | chr d h2 => exact absurd (block_opens (.inr hc) s) (by rw [hs]; exact h2)
    | comment hb _ h3 =>
      obtain ⟨rfl, rfl⟩ := block_unique (.inr hc) (.inr hb) hs
      exact ih h3
    | one hb => exact (not_both hb ((block_unique (.inr hc) (.inl hb) hs).1 ▸ hc)).elim
  | @one b s x y xs whole hB _ ih =>
    intro h
    generalize hs : b ++ s = t at h
    generalize hx : x :: xs = zs at h
    cases h with
    | nil => cases hx
    | cut => cases hx
    | chr d h2 => exact absurd (block_opens (.inl hB) s) (by rw [hs]; exact h2)
    | comment hb => exact (not_both hB ((block_unique (.inl hB) (.inr hb) hs).1 ▸ hb)).elim
    | one hb h3 =>
      injection hx with e1 e2
      subst e1
      subst e2
      obtain ⟨rfl, rfl⟩ := block_unique (.inl hB) (.inl hb) hs
      rw [ih h3]

/-- A page with a comment, two BIFs and three texts, and what it may show. -/
example : BifsOf c!"a{:;x:}{:* c *:}b{:;y:}c" [c!"{:;x:}", c!"{:;y:}"] ∧ BifsOf c!"<p>{:;x:}{:;y:}" [c!"{:;x:}", c!"{:;y:}"] ∧
    Woven c!"a{:;x:}{:* c *:}b{:;y:}c" [c!"1", c!"2"] true c!"a1b2c" ∧ Woven c!"<p>{:;x:}{:;y:}" [c!"1", c!"2"] true c!"<p>12" ∧
    Woven c!"a{:;x:}{:* c *:}b{:;y:}c" [c!"1"] false c!"a1" := by
  have hx : IsBif c!"{:;x:}" := ⟨c!";x", rfl, bal_noBraces (by decide) (by decide) (by decide), by decide⟩
  have hy : IsBif c!"{:;y:}" := ⟨c!";y", rfl, bal_noBraces (by decide) (by decide) (by decide), by decide⟩
  have hC : IsComment c!"{:* c *:}" := ⟨c!" c ", rfl, by
    repeat' first
      | exact .nil _
      | refine .chr _ (by decide) (by decide) ?_, by decide⟩
  refine ⟨.chr _ (by decide) (.one (s := c!"{:* c *:}b{:;y:}c") hx (.comment (s := c!"b{:;y:}c") hC (.chr _ (by decide)
    (.one (s := c!"c") hy (.chr _ (by decide) .nil))))),
    .chr _ (by decide) (.chr _ (by decide) (.chr _ (by decide) (.one (s := c!"{:;y:}") hx (.one (s := []) hy .nil)))),
    .chr _ (by decide) (by decide) (.one (s := c!"{:* c *:}b{:;y:}c") (x := c!"1") (y := c!"b2c") hx (.comment (s := c!"b{:;y:}c") hC (by decide)
    (.chr _ (by decide) (by decide) (.one (s := c!"c") (x := c!"2") (y := c!"c") hy (.chr _ (by decide) (by decide) .nil))))),
    .chr _ (by decide) (by decide) (.chr _ (by decide) (by decide) (.chr _ (by decide) (by decide)
      (.one (s := c!"{:;y:}") (x := c!"1") (y := c!"2") hx (.one (s := []) (x := c!"2") (y := []) hy .nil)))),
    .chr _ (by decide) (by decide) (.one (s := c!"{:* c *:}b{:;y:}c") (x := c!"1") (y := []) hx (.cut ?_))⟩
  decide

set_option maxRecDepth 10000 in
/-- Other texts, the same status, errors and outputs of the BIFs: a counter that a page passes on, an error, and an end. -/
example :
    Sample.outOf (Sample.go [(c!"x", .str c!"X")] c!"a{:;x:}{:* c *:}b{:else; no :}c{:nosuch; :}d") = some (c!"aXbcd", c!"200") ∧
    Sample.outOf (Sample.go [(c!"x", .str c!"X")] c!"<p>{:;x:}{:else; no :}{:nosuch; :}</p>") = some (c!"<p>X</p>", c!"200") ∧
    Sample.outOf (Sample.go [(c!"x", .str c!"X")] c!"a{:;x:}b{:exit; 404 :}c{:;x:}") = some (c!"404 Not Found", c!"404") ∧
    Sample.outOf (Sample.go [(c!"x", .str c!"X")] c!"{:;x:} or {:exit; 404 :} or {:;x:}") = some (c!"404 Not Found", c!"404") := by
  decide +kernel

set_option maxRecDepth 10000 in
/-- Other texts in the code of a condition, and the same `else` after it. -/
example :
    Sample.outOf (Sample.go [(c!"x", .str c!"X")] c!"{:bool; x >> a{:;x:}b :}{:else; E :}") = some (c!"aXb", c!"200") ∧
    Sample.outOf (Sample.go [(c!"x", .str c!"X")] c!"{:bool; x >> <p>{:;x:} :}{:else; E :}") = some (c!"<p>X", c!"200") := by
  decide +kernel

set_option maxRecDepth 10000 in
/-- **C128 (the premise is needed).** Text that makes the code of a condition print something where it printed nothing is noticed by
`else`. -/
theorem C128_premise_needed :
    Sample.outOf (Sample.go [(c!"x", .str c!"X")] c!"{:bool; x >> {:;none:} :}{:else; E :}") = some (c!"E", c!"200") ∧
    Sample.outOf (Sample.go [(c!"x", .str c!"X")] c!"{:bool; x >> t{:;none:} :}{:else; E :}") = some (c!"t", c!"200") := by
  decide +kernel

set_option maxRecDepth 10000 in
/-- Other texts in the body of a loop, and the same `else` after it. -/
example :
    Sample.outOf (Sample.go [(c!"a", .arr [.str c!"1", .str c!"2"])] c!"{:each; a k v >> <{:;v:}> :}{:else; E :}") = some (c!"<1><2>", c!"200") ∧
    Sample.outOf (Sample.go [(c!"a", .arr [.str c!"1", .str c!"2"])] c!"{:each; a k v >> {:;v:}, :}{:else; E :}") = some (c!"1,2,", c!"200") := by
  decide +kernel

end Nts
