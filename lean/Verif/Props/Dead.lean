import Verif.Props.Weave
import Verif.Props.Quiet
import Verif.Props.EvalBif
/-
C129: code that is not evaluated does not matter.
-/
set_option autoImplicit false
namespace Nts
open Spec

theorem exit_before {env : Env} {R : Rec} {only s y : Str} {sh sh' : Shared} {inh inh' : Inherit} {e : Bool}
    (h : Produces env R only s sh inh e y sh' inh') (hx : sh'.exit = false) : sh.exit = false := by
  cases hs : sh.exit with
  | false => rfl
  | true => rw [produces_exited h hs, hs] at hx; cases hx

/-- **C68 (texts taken apart).** What a template that begins with `a` produces is what `a` produces and then, in the state it leaves, what
the rest produces. -/
theorem C68_split {env : Env} {R : Rec} {only a b ya : Str} {sh sh1 : Shared} {inh inh1 : Inherit} {t : Bool} (hcb : NoColon b)
    (h : Produces env R only a sh inh t ya sh1 inh1) : t = true → sh1.exit = false → ∀ {e : Bool} {y : Str} {sh' : Shared} {inh' : Inherit},
    Produces env R only (a ++ b) sh inh e y sh' inh' → ∃ z, y = ya ++ z ∧ Produces env R only b sh1 inh1 e z sh' inh' := by
  induction h with
  | nil => intro _ _ e y sh' inh' h; exact ⟨y, rfl, h⟩
  | stop => intro h; cases h
  | @chr s y sh sh1 inh inh1 t c h1 h2 h3 ih =>
    intro ht hx e y sh' inh' h
    have hn : ¬ c!"{:" <+: c :: (s ++ b) := by
      rintro ⟨r, hr⟩
      have hr' : (c :: (s ++ b) : Str) = '{' :: ':' :: r := by simpa using hr.symm
      injection hr' with e1 e2
      subst e1
      cases s with
      | nil => exact hcb ⟨r, by simpa using e2.symm⟩
      | cons d s =>
        injection e2 with e3 _
        subst e3
        exact h1 ⟨s, rfl⟩
    have hx0 : sh.exit = false := exit_before h3 hx
    rcases produces_chr hn h with ⟨h4, _⟩ | ⟨_, z, rfl, h5⟩
    · rw [hx0] at h4; cases h4
    · obtain ⟨w, rfl, h6⟩ := ih ht hx h5
      exact ⟨w, rfl, h6⟩
  | @comment c s y sh sh1 inh inh1 t h0 hc _ ih =>
    intro ht hx e y sh' inh' h
    rw [List.append_assoc] at h
    rcases produces_block (.inr hc) h with ⟨h4, _⟩ | ⟨_, _, h5⟩ | ⟨_, h5, _⟩
    · rw [h0] at h4; cases h4
    · exact ih ht hx h5
    · exact (not_both h5 hc).elim
  | @skipped c s y sh sh1 inh inh1 t h0 hB ha hl _ ih =>
    intro ht hx e y sh' inh' h
    rw [List.append_assoc] at h
    rcases produces_block (.inl hB) h with ⟨h4, _⟩ | ⟨_, _, h5⟩ | ⟨_, _, h5, _⟩
    · rw [h0] at h4; cases h4
    · exact ih ht hx h5
    · exact absurd ⟨ha, hl⟩ h5
  | @evaluated c s x y sh sh2 sh1 inh inh2 inh1 t h0 hB hc hrun _ ih =>
    intro ht hx e y sh' inh' h
    rw [List.append_assoc] at h
    rcases produces_block (.inl hB) h with ⟨h4, _⟩ | ⟨_, h5, _⟩ | ⟨_, _, _, x', z, s3, i3, rfl, h6, h7⟩
    · rw [h0] at h4; cases h4
    · exact (h5.elim (not_both hB) hc).elim
    · rw [hrun] at h6
      cases h6
      obtain ⟨w, rfl, h8⟩ := ih ht hx h7
      exact ⟨w, by simp, h8⟩

/-- **C129 (a text).** At a place of a page, or of a block nested in one, a BIF can be exchanged with another one that does the same in the
state in which that place is reached; the rest is as it was. -/
theorem C129_text (env : Env) (R : Rec) (only a B B' b ya y : Str) (sh sh1 sh' : Shared) (inh inh1 inh' : Inherit) (e : Bool)
    (hB : IsBif B) (hB' : IsBif B') (ha : Produces env R only a sh inh true ya sh1 inh1) (hx : sh1.exit = false)
    (hrun : runBif env R sh1 inh1 B' only = runBif env R sh1 inh1 B only)
    (h : Produces env R only (a ++ (B ++ b)) sh inh e y sh' inh') : Produces env R only (a ++ (B' ++ b)) sh inh e y sh' inh' := by
  obtain ⟨z, rfl, h1⟩ := C68_split (bif_noColon hB b) ha rfl hx h
  refine C68_append ha rfl hx (bif_noColon hB' b) ?_
  rcases produces_block (.inl hB) h1 with ⟨h4, _⟩ | ⟨h0, h5, h6⟩ | ⟨h0, _, hc, x', z, s3, i3, rfl, h6, h7⟩
  · rw [hx] at h4; cases h4
  · obtain ⟨h7, h8⟩ := h5.resolve_left (not_both hB)
    exact .skipped h0 hB' h7 h8 h6
  · exact .evaluated h0 hB' hc (hrun.trans h6) h7

/-- Two pages of which the second produces what the first produces have the same renders. -/
theorem alike_render {env : Env} {n : Nat} {w : World} {t1 t2 t1' : Tpl} {s1 s2 : Str} {l1 l2 : List (Nat × Nat)}
    (hschema : t2.schema = t1.schema) (hfile : t2.filePath = t1.filePath) (ho1 : c!"{:" <:+: t1.raw) (ho2 : c!"{:" <:+: t2.raw)
    (hs1 : Source env w t1 s1) (hs2 : Source env w t2 s2) (hwf1 : WellFormed 0 s1 l1) (hwf2 : WellFormed 0 s2 l2)
    (hal : ∀ sh0 r sh inh e y sh' inh', Shared.new env w t1.schema = some sh0 → initShared env t1.filePath t1.raw sh0 = .ok (r, sh, inh) →
      Produces env (runBlocks env sh.max) [] s1 sh (inside [] inh) e y sh' inh' →
      Produces env (runBlocks env sh.max) [] s2 sh (inside [] inh) e y sh' inh')
    (h1 : t1.render env n w = .ok t1') :
    ∃ t2', t2.render env n w = .ok t2' ∧ t2'.out = t1'.out ∧ t2'.shared = t1'.shared := by
  unfold Tpl.render at h1 ⊢
  simp only [(contains_iff (p := bifOpen) (by decide)).2 ho1, Bool.not_true, Bool.false_eq_true, if_false] at h1
  simp only [(contains_iff (p := bifOpen) (by decide)).2 ho2, Bool.not_true, Bool.false_eq_true, if_false]
  rw [hschema]
  cases hnew : Shared.new env w t1.schema with
  | none => rw [hnew] at h1; cases h1
  | some sh0 =>
    rw [hnew] at h1
    unfold renderWith at h1 ⊢
    dsimp only at h1 ⊢
    rw [hfile]
    cases hi : initShared env t1.filePath t1.raw sh0 with
    | error p => rw [hi] at h1; cases h1
    | ok r =>
      obtain ⟨r, sh, inh⟩ := r
      have hr := source_init hs1 hnew hi
      subst hr
      have hi2 := init_text hschema hs2 hnew hi
      rw [hi] at h1
      rw [hi2]
      dsimp only at h1 ⊢
      have hal2 := (initShared_ok hi).2.2.2
      have hin : ({ inh with blockCount := inh.blockCount + 1 } : Inherit) = inside [] inh := by
        unfold inside; rw [← hal2]
      rw [C24_passes hi, hin] at h1
      rw [C24_passes hi2, hin]
      cases hp : parseSrc (runBlocks env (sh.max + 1)) sh (inside [] inh) r [] with
      | panic p => rw [hp] at h1; cases h1
      | oof => rw [hp] at h1; cases h1
      | ok out sh' inh' =>
        obtain ⟨e1, y1, h3, rfl⟩ := (C68_blocks env sh.max sh sh' _ inh' r [] out l1 hwf1).1 hp
        have q2 := (C68_blocks env sh.max sh sh' _ inh' s2 [] _ l2 hwf2).2 ⟨e1, y1, hal _ _ _ _ _ _ _ _ hnew hi h3, rfl⟩
        rw [hp] at h1
        rw [q2]
        dsimp only at h1 ⊢
        split at h1
        · cases h1
        · cases h1
        next out2 sh3 i3 hcl =>
        split at h1
        · cases h1
        next out3 he =>
        cases h1
        exact ⟨_, rfl, rfl, rfl⟩

/-- **C129 (a page).** In a page a BIF can be exchanged with another one that does the same in the state in which it is reached: when the
page renders, so does the other, with the same output, and all that the render leaves is the same. -/
theorem C129_render (env : Env) (n : Nat) (w : World) (t1 t2 t1' : Tpl) (a B B' b r ya : Str) (sh0 sh sh1 : Shared)
    (inh inh1 : Inherit) (l1 l2 : List (Nat × Nat)) (hschema : t2.schema = t1.schema) (hfile : t2.filePath = t1.filePath)
    (ho1 : c!"{:" <:+: t1.raw) (ho2 : c!"{:" <:+: t2.raw)
    (hs1 : Source env w t1 (a ++ (B ++ b))) (hs2 : Source env w t2 (a ++ (B' ++ b)))
    (hwf1 : WellFormed 0 (a ++ (B ++ b)) l1) (hwf2 : WellFormed 0 (a ++ (B' ++ b)) l2)
    (hnew : Shared.new env w t1.schema = some sh0) (hi : initShared env t1.filePath t1.raw sh0 = .ok (r, sh, inh))
    (hB : IsBif B) (hB' : IsBif B')
    (ha : Produces env (runBlocks env sh.max) [] a sh (inside [] inh) true ya sh1 inh1) (hx : sh1.exit = false)
    (hrun : runBif env (runBlocks env sh.max) sh1 inh1 B' [] = runBif env (runBlocks env sh.max) sh1 inh1 B [])
    (h : t1.render env n w = .ok t1') :
    ∃ t2', t2.render env n w = .ok t2' ∧ t2'.out = t1'.out ∧ t2'.shared = t1'.shared := by
  refine alike_render hschema hfile ho1 ho2 hs1 hs2 hwf1 hwf2 ?_ h
  intro sh0' r' s i e y sh' inh' h1 h2 h3
  rw [hnew] at h1
  cases h1
  rw [hi] at h2
  cases h2
  exact C129_text env _ [] a B B' b ya y _ sh1 sh' _ inh1 inh' e hB hB' ha hx hrun h3

/-- **C129 (conditions).** The code of a condition that does not hold (that holds, with `!`) does not matter: whatever it is, the BIF does
the same. -/
theorem C129_condition (env : Env) (R : Rec) (sh sh1 : Shared) (inh inh1 : Inherit) (mods name src1 src2 only p c1 c2 x : Str)
    (hname : name ∈ condNames) (hm : Mods mods) (hf : '&' ∉ mods) (hmax : sh.count < sh.max)
    (hsel : Selected inh mods name only) (hp1 : Parts src1 (some p) c1) (hp2 : Parts src2 (some p) c2)
    (hx : evalParams R (counted sh) (entered sh inh) name p only = .ok x sh1 inh1) (hfl : flagsOf sh1 p = [])
    (hnot : Cond env name sh1 inh1 x ↔ '!' ∈ mods) :
    runBif env R sh inh (bifText mods name src2) only = runBif env R sh inh (bifText mods name src1) only := by
  have a1 := C33_condition env R sh sh1 inh inh1 mods name src1 only p c1 x hname hm hf hmax hsel hp1 hx hfl
  have a2 := C33_condition env R sh sh1 inh inh1 mods name src2 only p c2 x hname hm hf hmax hsel hp2 hx hfl
  by_cases hc : Cond env name sh1 inh1 x
  · rw [a1.2.1 hc (hnot.1 hc), a2.2.1 hc (hnot.1 hc)]
  · rw [a1.2.2.1 hc (fun h => hc (hnot.2 h)), a2.2.2.1 hc (fun h => hc (hnot.2 h))]

/-- **C129 (comparisons).** The code of a comparison that does not hold (that holds, with `!`) does not matter. -/
theorem C129_compare (env : Env) (R : Rec) (sh sh1 : Shared) (inh inh1 : Inherit) (mods name src1 src2 only r c1 c2 : Str)
    (d : Char) (z a b : Str) (more : List Str)
    (hname : name ∈ cmpNames) (hm : Mods mods) (hf : '&' ∉ mods) (hmax : sh.count < sh.max)
    (hsel : Selected inh mods name only) (hp1 : Parts src1 (some (d :: r)) c1) (hp2 : Parts src2 (some (d :: r)) c2)
    (hflg : ¬ c!"{:flg;" <:+: d :: r)
    (hargs : ArgsGive R name only (splitChar d (d :: r)) (counted sh) (entered sh inh) (z :: a :: b :: more) sh1 inh1)
    (hnot : Compares name a b ↔ '!' ∈ mods) :
    runBif env R sh inh (bifText mods name src2) only = runBif env R sh inh (bifText mods name src1) only := by
  have a1 := C33_compare env R sh sh1 inh inh1 mods name src1 only r c1 d z a b more hname hm hf hmax hsel hp1 hflg hargs
  have a2 := C33_compare env R sh sh1 inh inh1 mods name src2 only r c2 d z a b more hname hm hf hmax hsel hp2 hflg hargs
  by_cases hc : Compares name a b
  · rw [a1.2.1 hc (hnot.1 hc), a2.2.1 hc (hnot.1 hc)]
  · rw [a1.2.2.1 hc (fun h => hc (hnot.2 h)), a2.2.2.1 hc (fun h => hc (hnot.2 h))]

/-- **C129 (`else`).** The code of an `else` that is not taken does not matter. -/
theorem C129_else (env : Env) (R : Rec) (sh : Shared) (inh : Inherit) (mods src1 src2 only c1 c2 : Str) (hm : Mods mods)
    (hf : '&' ∉ mods) (hmax : sh.count < sh.max) (hsel : Selected inh mods c!"else" only) (hp1 : Parts src1 none c1)
    (hp2 : Parts src2 none c2) (hnot : ¬ (inh.lastBifOut = true ↔ '!' ∈ mods)) :
    runBif env R sh inh (bifText mods c!"else" src2) only = runBif env R sh inh (bifText mods c!"else" src1) only := by
  rw [C34_else env R sh inh mods src1 only c1 hm hf hmax hsel hp1, C34_else env R sh inh mods src2 only c2 hm hf hmax hsel hp2,
    if_neg hnot, if_neg hnot]

/-- **C129 (`eval`).** The code of an `eval` whose condition gives nothing (something, with `!`) does not matter. -/
theorem C129_eval (env : Env) (R : Rec) (sh sh1 : Shared) (inh inh1 : Inherit) (mods src1 src2 only c1 c2 x : Str)
    (p : Option Str) (hm : Mods mods) (hf : '&' ∉ mods) (hmax : sh.count < sh.max)
    (hsel : Selected inh mods c!"eval" only) (hp1 : Parts src1 p c1) (hp2 : Parts src2 p c2) (hflg : ¬ c!"{:flg;" <:+: p.getD [])
    (hx : nested R (decide ('+' ∈ mods)) (counted sh) (entered sh inh) c!"eval" (p.getD []) only = .ok x sh1 inh1)
    (hnot : (x = [] ∧ '!' ∉ mods) ∨ (x ≠ [] ∧ '!' ∈ mods)) :
    runBif env R sh inh (bifText mods c!"eval" src2) only = runBif env R sh inh (bifText mods c!"eval" src1) only := by
  rw [C58_hidden env R sh sh1 inh inh1 mods src1 only c1 x p hm hf hmax hsel hp1 hflg hx hnot,
    C58_hidden env R sh sh1 inh inh1 mods src2 only c2 x p hm hf hmax hsel hp2 hflg hx hnot]

/-- **C129 (`coalesce`).** In a block of `coalesce` the BIFs after the one that printed do not matter. -/
theorem C129_coalesce (env : Env) (R : Rec) (only a B B' b ya y : Str) (sh sh1 sh' : Shared) (inh inh1 inh' : Inherit) (e : Bool)
    (hB : IsBif B) (hB' : IsBif B') (ha : Produces env R only a sh inh true ya sh1 inh1) (hx : sh1.exit = false)
    (hal : inh1.alias = c!"coalesce") (hout : inh1.lastCoalesceOut = true)
    (h : Produces env R only (a ++ (B ++ b)) sh inh e y sh' inh') : Produces env R only (a ++ (B' ++ b)) sh inh e y sh' inh' := by
  obtain ⟨z, rfl, h1⟩ := C68_split (bif_noColon hB b) ha rfl hx h
  refine C68_append ha rfl hx (bif_noColon hB' b) ?_
  rcases produces_block (.inl hB) h1 with ⟨h4, _⟩ | ⟨h0, h5, h6⟩ | ⟨_, _, hc, _⟩
  · rw [hx] at h4; cases h4
  · exact .skipped h0 hB' hal hout h6
  · exact absurd ⟨hal, hout⟩ hc

/-- **C129 (`each`).** The body of a loop over nothing does not matter. -/
theorem C129_each (env : Env) (R : Rec) (sh sh1 : Shared) (inh inh1 : Inherit) (mods src1 src2 only p c1 c2 x an kn vn : Str)
    (extra : List Str) (m1 m2 : List (Nat × Nat)) (coll : Value) (sc d : Obj)
    (hm : Mods mods) (hf : '&' ∉ mods) (hneg : '!' ∉ mods) (hmax : sh.count < sh.max)
    (hsel : Selected inh mods c!"each" only) (hp1 : Parts src1 (some p) c1) (hp2 : Parts src2 (some p) c2)
    (hx : evalParams R (counted sh) (entered sh inh) c!"each" p only = .ok x sh1 inh1) (hflags : flagsOf sh1 p = [])
    (hwords : Words x (an :: kn :: vn :: extra)) (hkn : ¬ c!"local::" <+: kn) (hvn : ¬ c!"local::" <+: vn)
    (hcoll : Collection sh1 inh1 an coll) (hitems : Elements coll []) (hwf1 : WellFormed 0 c1 m1) (hwf2 : WellFormed 0 c2 m2)
    (hdata : sh1.schema = .obj sc ∧ Obj.get? c!"data" sc = some (.obj d)) :
    runBif env R sh inh (bifText mods c!"each" src2) only = runBif env R sh inh (bifText mods c!"each" src1) only := by
  obtain ⟨k1, s1, r1, a1, b1⟩ := each_exact env R sh sh1 sh1 inh inh1 inh1 mods src1 only p c1 x an kn vn [] extra m1 coll [] sc d
    hm hf hneg hmax hsel hp1 hx hflags hwords hkn hvn hcoll hitems hwf1 (.nil _ _) hdata
  obtain ⟨k2, s2, r2, a2, b2⟩ := each_exact env R sh sh1 sh1 inh inh1 inh1 mods src2 only p c2 x an kn vn [] extra m2 coll [] sc d
    hm hf hneg hmax hsel hp2 hx hflags hwords hkn hvn hcoll hitems hwf2 (.nil _ _) hdata
  have := varSet_determined a1 a2
  subst this
  have := varSet_determined b1 b2
  subst this
  rw [r1, r2]

set_option maxRecDepth 10000 in
/-- A page whose untaken code would end it, store data or report errors: it is the page with other untaken code, by evaluation. -/
example : Sample.outOf (Sample.go [(c!"x", .str c!"X")] c!"a{:bool; none >> {:exit; 404 :} :}{:;x:}") = some (c!"aX", c!"200") ∧
    Sample.outOf (Sample.go [(c!"x", .str c!"X")] c!"a{:bool; none >> t :}{:;x:}") = some (c!"aX", c!"200") ∧
    Sample.outOf (Sample.go [(c!"x", .str c!"X")] c!"a{:coalesce; {:code; t :}{:exit; 404 :} :}{:;x:}") = some (c!"atX", c!"200") ∧
    Sample.outOf (Sample.go [(c!"x", .str c!"X")] c!"a{:eval; {:;none:} >> {:exit; 404 :} :}{:;x:}") = some (c!"aX", c!"200") ∧
    Sample.outOf (Sample.go [(c!"x", .str c!"X")] c!"a{:bool; x >> {:exit; 404 :} :}{:;x:}") ≠ some (c!"aX", c!"200") := by
  decide +kernel

end Nts
