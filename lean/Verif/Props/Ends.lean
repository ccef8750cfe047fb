import Verif.Props.Faults
import Verif.Props.Text
import Verif.Lemmas.LangText
/-
C126: what comes after the end of a page.
-/
set_option autoImplicit false
namespace Nts
open Spec

theorem bif_noColon {B : Str} (hB : IsBif B) (r : Str) : ¬ c!":" <+: B ++ r := by
  obtain ⟨w, rfl, _⟩ := hB
  rintro ⟨r', hr⟩
  have hr' : (':' :: r' : Str) = '{' :: (':' :: (w ++ c!":}" ++ r)) := by simpa using hr
  injection hr' with h1 _
  exact absurd h1 (by decide)

theorem produces_noBif (env : Env) (R : Rec) (only : Str) {sh : Shared} {inh : Inherit} : ∀ (t : Str), ¬ c!"{:" <:+: t →
    Produces env R only t sh inh true t sh inh
  | [], _ => .nil _ _
  | c :: t, h => by
    have h2 : ¬ c!"{:" <:+: t := fun ht => h (ht.trans ⟨[c], [], by simp⟩)
    exact .chr c (fun hp => h hp.isInfix) (fun hx => h2 hx.2) (produces_noBif env R only t h2)

/-- What is printed when the page ends in the BIF after which `b` comes. -/
def Spec.cutAt (x b : Str) : Str := if c!"{:" <:+: b then x else trim (x ++ b)

/-- **C126 (a text).** In a page, or in a block nested in one, that consists of `a`, a BIF `B` and `b`: when `B`, or something evaluated
in it at any depth, ends the page, the state is the one that `B` leaves, whatever `b` is; what is printed is what `a` and `B` print, and
`b` only if it has no BIF at all. -/
theorem C126_text (env : Env) (n : Nat) (only a B b ya x : Str) (sh sh1 sh2 : Shared) (inh inh1 inh2 : Inherit) (hB : IsBif B)
    (ha : Produces env (runBlocks env n) only a sh inh true ya sh1 inh1) (hx : sh1.exit = false)
    (hc : ¬ (inh1.alias = c!"coalesce" ∧ inh1.lastCoalesceOut = true))
    (hrun : runBif env (runBlocks env n) sh1 inh1 B only = .ok x sh2 inh2) (hend : sh2.exit = true) :
    ∃ e y, Produces env (runBlocks env n) only (a ++ (B ++ b)) sh inh e y sh2 inh2 ∧ ended e y = cutAt (ya ++ x) b := by
  by_cases hb : c!"{:" <:+: b
  · refine ⟨false, _, C68_append ha rfl hx (bif_noColon hB _) (.evaluated hx hB hc hrun (.stop hend hb)), ?_⟩
    unfold ended cutAt
    rw [if_pos hb, List.append_nil]
    rfl
  · refine ⟨true, _, C68_append ha rfl hx (bif_noColon hB _) (.evaluated hx hB hc hrun (produces_noBif env _ only b hb)), ?_⟩
    unfold ended cutAt
    rw [if_neg hb, List.append_assoc]
    rfl

/-- A page that ends in the BIF `B`, after `a`: what the first pass of its render leaves. -/
theorem ends_pass {env : Env} {w : World} {t : Tpl} {a B b r ya x : Str} {sh0 sh sh1 sh2 : Shared} {inh inh1 inh2 : Inherit}
    {l : List (Nat × Nat)} (hs : Source env w t (a ++ (B ++ b))) (hwf : WellFormed 0 (a ++ (B ++ b)) l)
    (hnew : Shared.new env w t.schema = some sh0) (hi : initShared env t.filePath t.raw sh0 = .ok (r, sh, inh)) (hB : IsBif B)
    (ha : Produces env (runBlocks env sh.max) [] a sh (inside [] inh) true ya sh1 inh1) (hx : sh1.exit = false)
    (hc : ¬ (inh1.alias = c!"coalesce" ∧ inh1.lastCoalesceOut = true))
    (hrun : runBif env (runBlocks env sh.max) sh1 inh1 B [] = .ok x sh2 inh2) (hend : sh2.exit = true) :
    ∃ inh', pass env sh inh r [] = .ok (cutAt (ya ++ x) b) sh2 inh' := by
  have hal := (initShared_ok hi).2.2.2
  have hin : ({ inh with blockCount := inh.blockCount + 1 } : Inherit) = inside [] inh := by
    unfold inside; rw [← hal]
  have hr := source_init hs hnew hi
  subst hr
  obtain ⟨e, y, hp, hy⟩ := C126_text env sh.max [] a B b ya x sh sh1 sh2 (inside [] inh) inh1 inh2 hB ha hx hc hrun hend
  have q := (C68_blocks env sh.max sh sh2 _ inh2 _ [] _ l hwf).2 ⟨e, _, hp, rfl⟩
  rw [C24_passes hi, hin, q, hy]
  exact ⟨_, rfl⟩

/-- A render of such a page, once the state it starts from is known. -/
theorem ends_renders {env : Env} {n : Nat} {w : World} {t : Tpl} {a B b r ya x : Str} {sh0 sh sh1 sh2 : Shared} {inh inh1 inh2 : Inherit}
    {l : List (Nat × Nat)} (ho : c!"{:" <:+: t.raw) (hs : Source env w t (a ++ (B ++ b))) (hwf : WellFormed 0 (a ++ (B ++ b)) l)
    (hnew : Shared.new env w t.schema = some sh0) (hi : initShared env t.filePath t.raw sh0 = .ok (r, sh, inh)) (hB : IsBif B)
    (ha : Produces env (runBlocks env sh.max) [] a sh (inside [] inh) true ya sh1 inh1) (hx : sh1.exit = false)
    (hc : ¬ (inh1.alias = c!"coalesce" ∧ inh1.lastCoalesceOut = true))
    (hrun : runBif env (runBlocks env sh.max) sh1 inh1 B [] = .ok x sh2 inh2) (hend : sh2.exit = true)
    (hcache : ¬ c!"{:!cache;" <:+: cutAt (ya ++ x) b) :
    t.render env n w = match endsRender sh2 (cutAt (ya ++ x) b) with
      | none => .panic .unwrap
      | some out => .ok { raw := r, filePath := t.filePath, schema := t.schema, shared := sh2, out := out } := by
  obtain ⟨inh', hp⟩ := ends_pass hs hwf hnew hi hB ha hx hc hrun hend
  unfold Tpl.render
  simp only [(contains_iff (p := bifOpen) (by decide)).2 ho, Bool.not_true, Bool.false_eq_true, if_false]
  rw [hnew]
  unfold renderWith
  dsimp only
  rw [hi]
  dsimp only
  rw [hp]
  dsimp only
  rw [cacheLoop_done env inh n _ _ hcache]
  dsimp only
  cases endsRender sh2 (cutAt (ya ++ x) b) <;> rfl

/-- **C126 (a page).** Two pages that begin alike, up to a BIF `B` that ends the page, and go on differently, each with some BIF: when
one renders, so does the other, with the same output, and all that the render leaves - the status, the data, the files, the errors - is
the same. -/
theorem C126_render (env : Env) (n : Nat) (w : World) (t1 t2 t1' : Tpl) (a B b1 b2 r ya x : Str) (sh0 sh sh1 sh2 : Shared)
    (inh inh1 inh2 : Inherit) (l1 l2 : List (Nat × Nat)) (hschema : t2.schema = t1.schema) (hfile : t2.filePath = t1.filePath)
    (ho1 : c!"{:" <:+: t1.raw) (ho2 : c!"{:" <:+: t2.raw)
    (hs1 : Source env w t1 (a ++ (B ++ b1))) (hs2 : Source env w t2 (a ++ (B ++ b2)))
    (hwf1 : WellFormed 0 (a ++ (B ++ b1)) l1) (hwf2 : WellFormed 0 (a ++ (B ++ b2)) l2)
    (hb1 : c!"{:" <:+: b1) (hb2 : c!"{:" <:+: b2)
    (hnew : Shared.new env w t1.schema = some sh0) (hi : initShared env t1.filePath t1.raw sh0 = .ok (r, sh, inh)) (hB : IsBif B)
    (ha : Produces env (runBlocks env sh.max) [] a sh (inside [] inh) true ya sh1 inh1) (hx : sh1.exit = false)
    (hc : ¬ (inh1.alias = c!"coalesce" ∧ inh1.lastCoalesceOut = true))
    (hrun : runBif env (runBlocks env sh.max) sh1 inh1 B [] = .ok x sh2 inh2) (hend : sh2.exit = true)
    (hcache : ¬ c!"{:!cache;" <:+: ya ++ x) (h : t1.render env n w = .ok t1') :
    ∃ t2', t2.render env n w = .ok t2' ∧ t2'.out = t1'.out ∧ t2'.shared = t1'.shared := by
  have e1 : cutAt (ya ++ x) b1 = ya ++ x := by unfold cutAt; rw [if_pos hb1]
  have e2 : cutAt (ya ++ x) b2 = ya ++ x := by unfold cutAt; rw [if_pos hb2]
  have r1 := ends_renders (n := n) ho1 hs1 hwf1 hnew hi hB ha hx hc hrun hend (by rw [e1]; exact hcache)
  have r2 := ends_renders (n := n) ho2 hs2 hwf2 (by rw [hschema]; exact hnew)
    (by rw [hfile]; exact init_text hschema hs2 hnew hi) hB ha hx hc hrun hend (by rw [e2]; exact hcache)
  rw [e1] at r1
  rw [e2] at r2
  rw [r1] at h
  rw [r2]
  cases he : endsRender sh2 (ya ++ x) with
  | none => rw [he] at h; cases h
  | some out =>
    rw [he] at h
    cases h
    exact ⟨_, rfl, rfl, rfl⟩

/-- The page is replaced as a whole: by its status, when that is an error or a redirection, or by the JavaScript redirection. -/
def Spec.PageReplaced (t : Tpl) : Prop :=
  (∃ i j k, i < 10 ∧ j < 10 ∧ k < 10 ∧ t.statusCode = code3 i j k ∧
    ((400 ≤ 100 * i + 10 * j + k ∧ 100 * i + 10 * j + k ≤ 599) ∨ 100 * i + 10 * j + k ∈ [301, 302, 303, 307, 308] ∨
      t.shared.redirectJs ≠ []))

theorem finalOut_replaced {sh : Shared} {i j k : Nat} (hi : i < 10) (hj : j < 10) (hk : k < 10) (hcode : sh.statusCode = code3 i j k)
    (h : (400 ≤ 100 * i + 10 * j + k ∧ 100 * i + 10 * j + k ≤ 599) ∨ 100 * i + 10 * j + k ∈ [301, 302, 303, 307, 308] ∨
      sh.redirectJs ≠ []) (o1 o2 : Str) : finalOut sh o1 = finalOut sh o2 := by
  rw [C40_three_digits sh o1 i j k hi hj hk hcode, C40_three_digits sh o2 i j k hi hj hk hcode]
  by_cases h1 : 400 ≤ 100 * i + 10 * j + k ∧ 100 * i + 10 * j + k ≤ 599
  · rw [if_pos h1, if_pos h1]
  · by_cases h2 : 100 * i + 10 * j + k ∈ [301, 302, 303, 307, 308]
    · rw [if_neg h1, if_neg h1, if_pos h2, if_pos h2]
    · by_cases h3 : sh.redirectJs ≠ []
      · rw [if_neg h1, if_neg h1, if_neg h2, if_neg h2, if_pos h3, if_pos h3]
      · exact absurd h (fun h => h.elim h1 (fun h => h.elim h2 h3))

/-- **C126 (a page that is replaced).** When the page ends in an error, a redirection or a JavaScript redirection, the rest may be
anything, plain text too: any two such pages that render give the same output. -/
theorem C126_replaced (env : Env) (n : Nat) (w : World) (t1 t2 t1' t2' : Tpl) (a B b1 b2 r ya x : Str) (sh0 sh sh1 sh2 : Shared)
    (inh inh1 inh2 : Inherit) (l1 l2 : List (Nat × Nat)) (hschema : t2.schema = t1.schema) (hfile : t2.filePath = t1.filePath)
    (ho1 : c!"{:" <:+: t1.raw) (ho2 : c!"{:" <:+: t2.raw)
    (hs1 : Source env w t1 (a ++ (B ++ b1))) (hs2 : Source env w t2 (a ++ (B ++ b2)))
    (hwf1 : WellFormed 0 (a ++ (B ++ b1)) l1) (hwf2 : WellFormed 0 (a ++ (B ++ b2)) l2)
    (hnew : Shared.new env w t1.schema = some sh0) (hi : initShared env t1.filePath t1.raw sh0 = .ok (r, sh, inh)) (hB : IsBif B)
    (ha : Produces env (runBlocks env sh.max) [] a sh (inside [] inh) true ya sh1 inh1) (hx : sh1.exit = false)
    (hc : ¬ (inh1.alias = c!"coalesce" ∧ inh1.lastCoalesceOut = true))
    (hrun : runBif env (runBlocks env sh.max) sh1 inh1 B [] = .ok x sh2 inh2) (hend : sh2.exit = true)
    (hcache1 : ¬ c!"{:!cache;" <:+: cutAt (ya ++ x) b1) (hcache2 : ¬ c!"{:!cache;" <:+: cutAt (ya ++ x) b2)
    (h1 : t1.render env n w = .ok t1') (h2 : t2.render env n w = .ok t2') (hr : PageReplaced t1') :
    t2'.out = t1'.out ∧ t2'.shared = t1'.shared := by
  have r1 := ends_renders (n := n) ho1 hs1 hwf1 hnew hi hB ha hx hc hrun hend hcache1
  have r2 := ends_renders (n := n) ho2 hs2 hwf2 (by rw [hschema]; exact hnew)
    (by rw [hfile]; exact init_text hschema hs2 hnew hi) hB ha hx hc hrun hend hcache2
  rw [r1] at h1
  rw [r2] at h2
  unfold endsRender at h1 h2
  cases e1 : applyMoveto sh2.schema (cutAt (ya ++ x) b1) with
  | none => rw [e1] at h1; cases h1
  | some o1 =>
    cases e2 : applyMoveto sh2.schema (cutAt (ya ++ x) b2) with
    | none => rw [e2] at h2; cases h2
    | some o2 =>
      rw [e1] at h1
      rw [e2] at h2
      cases h1
      cases h2
      obtain ⟨i, j, k, hi', hj, hk, hcode, hh⟩ := hr
      exact ⟨finalOut_replaced hi' hj hk hcode hh _ _, rfl⟩

/-- The sample page up to its end: `p` and `{:exit; 202 :}`. -/
def Sample.endsAt (raw : Str) : Bool :=
  match Shared.new Sample.env Sample.world (Sample.schema 1000 [] Sample.inherit) with
  | none => false
  | some sh0 =>
    match initShared Sample.env [] raw sh0 with
    | .error _ => false
    | .ok (_, sh, inh) =>
      match runBif Sample.env (runBlocks Sample.env sh.max) sh (inside [] inh) c!"{:exit; 202 :}" [] with
      | .ok x sh2 _ => !sh.exit && x.isEmpty && sh2.exit
      | _ => false

set_option maxRecDepth 10000 in
/-- The hypotheses of `C126_render` can be met: a page that ends, and goes on with a variable or with an error page. -/
example (t1' : Tpl) (h : (Sample.tpl (Sample.schema 1000 [] Sample.inherit) c!"p{:exit; 202 :}{:;x:}").render Sample.env 2 Sample.world = .ok t1') :
    ∃ t2', (Sample.tpl (Sample.schema 1000 [] Sample.inherit) c!"p{:exit; 202 :}{:exit; 404 :}").render Sample.env 2 Sample.world = .ok t2' ∧
      t2'.out = t1'.out ∧ t2'.shared = t1'.shared := by
  have key : Sample.endsAt c!"p{:exit; 202 :}{:;x:}" = true := by decide +kernel
  unfold Sample.endsAt at key
  cases hnew : Shared.new Sample.env Sample.world (Sample.schema 1000 [] Sample.inherit) with
  | none => rw [hnew] at key; cases key
  | some sh0 =>
    rw [hnew] at key
    dsimp only at key
    cases hi : initShared Sample.env [] c!"p{:exit; 202 :}{:;x:}" sh0 with
    | error p => rw [hi] at key; cases key
    | ok r =>
      obtain ⟨r, sh, inh⟩ := r
      rw [hi] at key
      dsimp only at key
      cases hrun : runBif Sample.env (runBlocks Sample.env sh.max) sh (inside [] inh) c!"{:exit; 202 :}" [] with
      | panic p => rw [hrun] at key; cases key
      | oof => rw [hrun] at key; cases key
      | ok x sh2 inh2 =>
        rw [hrun] at key
        simp only [Bool.and_eq_true, Bool.not_eq_true', List.isEmpty_iff] at key
        obtain ⟨⟨k1, k2⟩, k3⟩ := key
        subst k2
        have str : ∀ raw : Str, ¬ c!"{:*" <:+: raw → Stripped raw raw := by
          intro raw
          induction raw with
          | nil => exact fun _ => .nil
          | cons c s ih =>
            intro hr
            exact .chr c (fun hp => hr hp.isInfix) (ih fun hp => hr (hp.trans (List.suffix_cons c s).isInfix))
        have src : ∀ raw, ¬ c!"{:*" <:+: raw → Source Sample.env Sample.world (Sample.tpl (Sample.schema 1000 [] Sample.inherit) raw) raw := by
          intro raw hr s hs
          by_cases hrem : c!"remove" <:+: s.comments
          · rw [if_pos hrem]
            exact str raw hr
          · rw [if_neg hrem]
            rfl
        have hB : IsBif c!"{:exit; 202 :}" := ⟨c!"exit; 202 ", rfl, bal_noBraces (by decide) (by decide) (by decide), by decide⟩
        have wf : ∀ {B' : Str}, IsBif B' → WellFormed 0 (c!"p" ++ (c!"{:exit; 202 :}" ++ B')) [(1, 15), (15, 15 + B'.length)] := by
          intro B' hB'
          refine .chr 'p' (by rintro ⟨r, hr⟩; injection hr with h _; revert h; decide)
            (by rintro ⟨r, hr⟩; injection hr with h _; revert h; decide) (.block (.inl hB) ?_)
          have := WellFormed.block (p := 15) (.inl hB') (.nil (15 + B'.length))
          rw [List.append_nil] at this
          exact this
        exact C126_render Sample.env 2 Sample.world (Sample.tpl (Sample.schema 1000 [] Sample.inherit) c!"p{:exit; 202 :}{:;x:}")
          (Sample.tpl (Sample.schema 1000 [] Sample.inherit) c!"p{:exit; 202 :}{:exit; 404 :}") t1' c!"p" _ c!"{:;x:}" c!"{:exit; 404 :}" r c!"p" [] sh0 sh sh sh2 inh
          (inside [] inh) inh2 _ _ rfl rfl ⟨c!"p", c!"exit; 202 :}{:;x:}", rfl⟩ ⟨c!"p", c!"exit; 202 :}{:exit; 404 :}", rfl⟩
          (src _ (by decide)) (src _ (by decide)) (wf ⟨c!";x", rfl, bal_noBraces (by decide) (by decide) (by decide), by decide⟩)
          (wf ⟨c!"exit; 404 ", rfl, bal_noBraces (by decide) (by decide) (by decide), by decide⟩)
          ⟨[], c!";x:}", rfl⟩ ⟨[], c!"exit; 404 :}", rfl⟩ hnew hi hB (produces_noBif _ _ _ _ (by decide)) k1
          (fun h => absurd h.1 (by show ([] : Str) ≠ _; decide)) hrun k3 (by decide) h

set_option maxRecDepth 10000 in
/-- An end in a nested block, followed by different things; and the text after an end that does not replace the page. -/
example :
    Sample.outOf (Sample.go [(c!"x", .str c!"X")] c!"p{:bool; x >> a{:exit; 404 :}b :}q{:;x:}") = some (c!"404 Not Found", c!"404") ∧
    Sample.outOf (Sample.go [(c!"x", .str c!"X")] c!"p{:bool; x >> a{:exit; 404 :}b :}other") = some (c!"404 Not Found", c!"404") ∧
    Sample.outOf (Sample.go [(c!"x", .str c!"X")] c!"p{:exit; 202 :}q{:;x:}") = some (c!"p", c!"202") ∧
    Sample.outOf (Sample.go [(c!"x", .str c!"X")] c!"p{:exit; 202 :}r{:exit; 404 :}") = some (c!"p", c!"202") ∧
    Sample.outOf (Sample.go [(c!"x", .str c!"X")] c!"p{:exit; 202 :}tail ") = some (c!"ptail", c!"202") ∧
    Sample.outOf (Sample.go [(c!"x", .str c!"X")] c!"p{:redirect; 301 >> /u :}q{:exit; 500 :}") =
      some (c!"301 Moved Permanently\n/u", c!"301") := by
  decide +kernel

end Nts
