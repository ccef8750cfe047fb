import Verif.Props.Ends
/-
C127: where a BIF that prints nothing stands.
-/
set_option autoImplicit false
namespace Nts
open Spec

/-- Text with comments, but without BIFs, prints itself without the comments and leaves the state as it is. -/
theorem produces_stripped (env : Env) (R : Rec) (only : Str) {sh : Shared} (inh : Inherit) (hx : sh.exit = false) {t y : Str}
    (h : Stripped t y) (hy : ¬ c!"{:" <:+: y) : Produces env R only t sh inh true y sh inh := by
  induction h with
  | nil => exact .nil _ _
  | @chr s y c h1 h2 ih =>
    refine .chr c ?_ (fun h => by rw [hx] at h; cases h.1) (ih fun h => hy (h.trans ⟨[c], [], by simp⟩))
    rintro ⟨r, hr⟩
    have hr' : (c :: s : Str) = '{' :: ':' :: r := by simpa using hr.symm
    injection hr' with e1 e2
    subst e1
    subst e2
    generalize hg : (':' :: r : Str) = g at h2
    cases h2 with
    | nil => cases hg
    | chr c' _ h3 =>
      injection hg with e1 _
      subst e1
      exact hy ⟨[], _, rfl⟩
    | com hb _ =>
      obtain ⟨w, rfl, _⟩ := hb
      simp at hg
  | com hb _ ih => exact .comment hx hb (ih hy)

/-- Nothing begins with `:` in what follows a brace. -/
def Spec.NoColon (s : Str) : Prop := ¬ c!":" <+: s

theorem noColon_append {t s : Str} (h : NoColon t) (hs : NoColon s) : NoColon (t ++ s) := by
  cases t with
  | nil => exact hs
  | cons c t =>
    rintro ⟨r, hr⟩
    have hr' : (c :: (t ++ s) : Str) = ':' :: r := by simpa using hr.symm
    injection hr' with e _
    exact h ⟨t, by rw [e]; rfl⟩

/-- **C127 (a text).** A BIF `B` that prints nothing stands after a text `t` - with comments, without BIFs - in a page or a block nested in
one.  It can as well stand before `t`: the same is printed and the state afterwards is the same. -/
theorem C127_text (env : Env) (n : Nat) (only a t y0 B b ya yb : Str) (sh sh1 sh2 sh' : Shared) (inh inh1 inh2 inh' : Inherit) (e : Bool)
    (hB : IsBif B) (ht : Stripped t y0) (hy : ¬ c!"{:" <:+: y0) (hct : NoColon t) (hcb : NoColon b)
    (ha : Produces env (runBlocks env n) only a sh inh true ya sh1 inh1) (hx : sh1.exit = false)
    (hc : ¬ (inh1.alias = c!"coalesce" ∧ inh1.lastCoalesceOut = true))
    (hrun : runBif env (runBlocks env n) sh1 inh1 B only = .ok [] sh2 inh2) (hx2 : sh2.exit = false)
    (hb : Produces env (runBlocks env n) only b sh2 inh2 e yb sh' inh') :
    Produces env (runBlocks env n) only (a ++ (t ++ (B ++ b))) sh inh e (ya ++ (y0 ++ yb)) sh' inh' ∧
    Produces env (runBlocks env n) only (a ++ (B ++ (t ++ b))) sh inh e (ya ++ (y0 ++ yb)) sh' inh' := by
  have nB : ∀ r, NoColon (B ++ r) := fun r => bif_noColon hB r
  refine ⟨C68_append ha rfl hx (noColon_append hct (nB _)) (C68_append (produces_stripped env _ only inh1 hx ht hy) rfl hx (nB _)
    (.evaluated hx hB hc hrun hb)), C68_append ha rfl hx (nB _) ?_⟩
  have := Produces.evaluated hx hB hc hrun (C68_append (produces_stripped env _ only inh2 hx2 ht hy) rfl hx2 hcb hb)
  exact this

/-- **C127 (a page).** Two pages that differ only in whether a BIF that prints nothing - a definition, a flag, code to be moved - stands
before or after a text without BIFs: when one renders, so does the other, with the same output, and all that the render leaves - the
status, the data, the files, the errors - is the same. -/
theorem C127_render (env : Env) (n : Nat) (w : World) (t1 t2 t1' : Tpl) (a t y0 B b r ya yb : Str) (sh0 sh sh1 sh2 sh' : Shared)
    (inh inh1 inh2 inh' : Inherit) (e : Bool) (l1 l2 : List (Nat × Nat)) (hschema : t2.schema = t1.schema) (hfile : t2.filePath = t1.filePath)
    (ho1 : c!"{:" <:+: t1.raw) (ho2 : c!"{:" <:+: t2.raw)
    (hs1 : Source env w t1 (a ++ (t ++ (B ++ b)))) (hs2 : Source env w t2 (a ++ (B ++ (t ++ b))))
    (hwf1 : WellFormed 0 (a ++ (t ++ (B ++ b))) l1) (hwf2 : WellFormed 0 (a ++ (B ++ (t ++ b))) l2)
    (hnew : Shared.new env w t1.schema = some sh0) (hi : initShared env t1.filePath t1.raw sh0 = .ok (r, sh, inh))
    (hB : IsBif B) (ht : Stripped t y0) (hy : ¬ c!"{:" <:+: y0) (hct : NoColon t) (hcb : NoColon b)
    (ha : Produces env (runBlocks env sh.max) [] a sh (inside [] inh) true ya sh1 inh1) (hx : sh1.exit = false)
    (hc : ¬ (inh1.alias = c!"coalesce" ∧ inh1.lastCoalesceOut = true))
    (hrun : runBif env (runBlocks env sh.max) sh1 inh1 B [] = .ok [] sh2 inh2) (hx2 : sh2.exit = false)
    (hb : Produces env (runBlocks env sh.max) [] b sh2 inh2 e yb sh' inh')
    (hcache : ¬ c!"{:!cache;" <:+: ended e (ya ++ (y0 ++ yb))) (h : t1.render env n w = .ok t1') :
    ∃ t2', t2.render env n w = .ok t2' ∧ t2'.out = t1'.out ∧ t2'.shared = t1'.shared := by
  obtain ⟨p1, p2⟩ := C127_text env sh.max [] a t y0 B b ya yb sh sh1 sh2 sh' (inside [] inh) inh1 inh2 inh' e hB ht hy hct hcb ha hx hc hrun hx2 hb
  have hal := (initShared_ok hi).2.2.2
  have hin : ({ inh with blockCount := inh.blockCount + 1 } : Inherit) = inside [] inh := by
    unfold inside; rw [← hal]
  have hr := source_init hs1 hnew hi
  subst hr
  have hi2 := init_text hschema hs2 hnew hi
  have q1 := (C68_blocks env sh.max sh sh' _ inh' _ [] _ l1 hwf1).2 ⟨e, _, p1, rfl⟩
  have q2 := (C68_blocks env sh.max sh sh' _ inh' _ [] _ l2 hwf2).2 ⟨e, _, p2, rfl⟩
  unfold Tpl.render at h ⊢
  simp only [(contains_iff (p := bifOpen) (by decide)).2 ho1, Bool.not_true, Bool.false_eq_true, if_false] at h
  simp only [(contains_iff (p := bifOpen) (by decide)).2 ho2, Bool.not_true, Bool.false_eq_true, if_false]
  rw [hschema, hnew]
  rw [hnew] at h
  unfold renderWith at h ⊢
  dsimp only at h ⊢
  rw [hfile, hi2]
  rw [hi] at h
  dsimp only at h ⊢
  rw [C24_passes hi2, hin, q2]
  rw [C24_passes hi, hin, q1] at h
  dsimp only at h ⊢
  rw [cacheLoop_done env inh n _ _ hcache] at h ⊢
  dsimp only at h ⊢
  cases he : endsRender sh' (ended e (ya ++ (y0 ++ yb))) with
  | none => rw [he] at h; cases h
  | some out =>
    rw [he] at h
    cases h
    exact ⟨_, rfl, rfl, rfl⟩

/-- The hypotheses of `C127_text` can be met: `{:code;:}` among text and a comment, in any state in which it may be evaluated. -/
example (env : Env) (n : Nat) (sh : Shared) (inh : Inherit) (hx : sh.exit = false) (hmax : sh.count < sh.max) (hc : inh.alias ≠ c!"coalesce") :
    ∃ sh' inh', Produces env (runBlocks env n) [] c!"ab{:* c *:}c{:code;:}d" sh inh true c!"abcd" sh' inh' ∧
      Produces env (runBlocks env n) [] c!"a{:code;:}b{:* c *:}cd" sh inh true c!"abcd" sh' inh' := by
  have hB : IsBif c!"{:code;:}" := ⟨c!"code;", rfl, bal_noBraces (by decide) (by decide) (by decide), by decide⟩
  have hrun := C124_silent env (runBlocks env n) sh inh [] hmax (.inl rfl)
  have hC : IsComment c!"{:* c *:}" := ⟨c!" c ", rfl, by
    repeat' first
      | exact .nil _
      | refine .chr _ (by decide) (by decide) ?_, by decide⟩
  have ht : Stripped c!"b{:* c *:}c" c!"bc" := .chr 'b' (by decide) (.com hC (.chr 'c' (by decide) .nil))
  obtain ⟨sh2, inh2, h2, hx2⟩ : ∃ sh2 inh2, runBif env (runBlocks env n) sh inh c!"{:code;:}" [] = .ok [] sh2 inh2 ∧ sh2.exit = false := by
    rw [hrun]
    exact ⟨_, _, rfl, hx⟩
  obtain ⟨p1, p2⟩ := C127_text env n [] c!"a" c!"b{:* c *:}c" c!"bc" c!"{:code;:}" c!"d" c!"a" c!"d" sh sh sh2 sh2 inh inh inh2 inh2 true hB ht
    (by decide) (by unfold NoColon; decide) (by unfold NoColon; decide) (produces_noBif env _ [] _ (by decide)) hx (fun h => hc h.1) h2 hx2
    (produces_noBif env _ [] _ (by decide))
  exact ⟨_, _, p1, p2⟩

set_option maxRecDepth 10000 in
/-- Code to be moved, and a BIF that fails, at two places. -/
example :
    Sample.outOf (Sample.go [(c!"x", .str c!"X")] c!"<head></head>p {:* c *:}q{:moveto; </head >> S :}{:;x:}") =
      some (c!"<head>S</head>p qX", c!"200") ∧
    Sample.outOf (Sample.go [(c!"x", .str c!"X")] c!"<head></head>{:moveto; </head >> S :}p {:* c *:}q{:;x:}") =
      some (c!"<head>S</head>p qX", c!"200") ∧
    Sample.outOf (Sample.go [(c!"x", .str c!"X")] c!"t {:nosuch; y :}u{:;x:}") = some (c!"t uX", c!"200") ∧
    Sample.outOf (Sample.go [(c!"x", .str c!"X")] c!"t u{:nosuch; y :}{:;x:}") = some (c!"t uX", c!"200") := by
  decide +kernel

set_option maxRecDepth 10000 in
/-- **C127 (the premises are needed).** With the modifier `^` a BIF that shows nothing removes the white space before it, where it
stands; and what ends the page must not be moved over text. -/
theorem C127_premises_needed :
    Sample.outOf (Sample.go [] c!"t u{:^code;:}v") = some (c!"t uv", c!"200") ∧
    Sample.outOf (Sample.go [] c!"t {:^code;:}uv") = some (c!"tuv", c!"200") ∧
    Sample.outOf (Sample.go [(c!"x", .str c!"X")] c!"t{:exit; 202 :}u{:;x:}") = some (c!"t", c!"202") ∧
    Sample.outOf (Sample.go [(c!"x", .str c!"X")] c!"tu{:exit; 202 :}{:;x:}") = some (c!"tu", c!"202") := by
  decide +kernel

end Nts
