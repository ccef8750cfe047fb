import Verif.Spec.Nest
import Verif.Props.Page
/-
C118: cached parts in cached parts.
-/
set_option autoImplicit false
namespace Nts
open Spec

mutual
/-- Depth of nesting. -/
def pieceDepth : Chunk → Nat
  | .plain l => depthAll l
  | .cached _ _ _ body => piecesDepth body + 1
/-- The largest. -/
def piecesDepth : List Chunk → Nat
  | [] => 0
  | x :: l => max (pieceDepth x) (piecesDepth l)
end

/-! Texts. -/

theorem printAll_text (B : Str) : printAll [.text B] = B := by simp [printAll, Node.print]

mutual
theorem piece_good {S : Site} {al : Str} : ∀ (x : Chunk), x.Ok S al → ∀ (k : Str), Cont k →
    Good k x.print ∧ Cont (x.print ++ k) ∧ Skips c!"*" x.print
  | .plain l, h, k, hk => by
    simp only [Chunk.Ok] at h
    simp only [Chunk.print]
    exact ⟨good_all l h k hk, cont_all h hk, skips_all (.inr rfl) l h⟩
  | .cached e i o body, h, k, hk => by
    simp only [Chunk.Ok] at h
    obtain ⟨he, hi, ho, hb⟩ := h
    have hc := args_chars he hi ho
    have g := pieces_good body hb
    simp only [Chunk.print]
    refine ⟨good_isBif ?_, cont_bif _ _ _ _, ?_⟩
    · refine isBif_text (by decide) (by decide) (by decide) ?_ (by simp)
      refine bal_src (a := c!" " ++ (c!"/" ++ e ++ c!"/" ++ i ++ c!"/" ++ o ++ c!"/") ++ c!" >> ") ?_ ?_ ?_ (g _ (cont_blank _)).1
      · exact not_mem_append (not_mem_append (by decide) (fun h => (hc _ h).1 rfl)) (by decide)
      · exact not_mem_append (not_mem_append (by decide) (fun h => (hc _ h).2.1 rfl)) (by decide)
      · have := (g [] cont_nil).2.1
        simpa using this
    · refine skips_bif ?_ (skips_append (skips_append (skips_noBrace ?_) (g [] cont_nil).2.2) (skips_noBrace (by decide)))
      · intro k hk
        simpa [List.infix_cons_iff, List.cons_prefix_cons] using hk
      · exact not_mem_append (not_mem_append (by decide) (fun h => (args_chars he hi ho _ h).1 rfl)) (by decide)
theorem pieces_good {S : Site} {al : Str} : ∀ (l : List Chunk), PiecesOk S al l → ∀ (k : Str), Cont k →
    Good k (printPieces l) ∧ Cont (printPieces l ++ k) ∧ Skips c!"*" (printPieces l)
  | [], _, k, hk => by
    simp only [printPieces]
    exact ⟨.nil _, by simpa using hk, fun k hk => hk⟩
  | x :: l, h, k, hk => by
    simp only [PiecesOk] at h
    obtain ⟨g1, g2, g3⟩ := pieces_good l h.2 k hk
    obtain ⟨h1, h2, h3⟩ := piece_good x h.1 (printPieces l ++ k) g2
    simp only [printPieces]
    exact ⟨good_append h1 g1, by simpa using h2, skips_append h3 g3⟩
end

theorem piece_isBif {S : Site} {al e i o : Str} {body : List Chunk} (h : (Chunk.cached e i o body).Ok S al) :
    IsBif (Chunk.cached e i o body).print := by
  simp only [Chunk.Ok] at h
  obtain ⟨he, hi, ho, hb⟩ := h
  have hc := args_chars he hi ho
  have g := pieces_good body hb
  simp only [Chunk.print]
  refine isBif_text (by decide) (by decide) (by decide) ?_ (by simp)
  refine bal_src (a := c!" " ++ (c!"/" ++ e ++ c!"/" ++ i ++ c!"/" ++ o ++ c!"/") ++ c!" >> ") ?_ ?_ ?_ (g _ (cont_blank _)).1
  · exact not_mem_append (not_mem_append (by decide) (fun h => (hc _ h).1 rfl)) (by decide)
  · exact not_mem_append (not_mem_append (by decide) (fun h => (hc _ h).2.1 rfl)) (by decide)
  · have := (g [] cont_nil).2.1
    simpa using this

/-- Parts without BIFs are their text. -/
theorem text_pieces (env : Env) (S : Site) (C : Caching) (al : Str) : ∀ (l : List Chunk), ¬ c!"{:" <:+: printPieces l → ∀ m w,
    piecesMean env S C al l m w = (printPieces l, m, w)
  | [], _, m, w => by simp [piecesMean, printPieces]
  | x :: l, h, m, w => by
    simp only [printPieces] at h
    have hl : ¬ c!"{:" <:+: printPieces l := fun hx => h (hx.trans ⟨x.print, [], by simp⟩)
    have hx : ¬ c!"{:" <:+: x.print := fun hx => h (hx.trans ⟨[], printPieces l, by simp⟩)
    cases x with
    | plain t =>
      simp only [Chunk.print] at hx
      simp only [piecesMean, Chunk.means, printPieces, Chunk.print, text_means S al t hx, text_pieces env S C al l hl]
    | cached e i o b => exact absurd ⟨[], _, by simp only [Chunk.print, bifText, List.append_assoc]; rfl⟩ hx

/-! Counting. -/

/-- Evaluating does not undo the count. -/
def MonoIn (run : Mem → World → Str × Mem × World) : Prop := ∀ m w, m.bifs ≤ (run m w).2.1.bifs

theorem cachedIn_mono {env : Env} {C : Caching} {e file : Str} {run : Mem → World → Str × Mem × World} (h : MonoIn run) :
    MonoIn (cachedIn env C e file run) := by
  intro m w
  unfold cachedIn
  split
  · split
    · exact Nat.le_refl _
    · exact h m _
  · exact h m w

mutual
theorem piece_mono (env : Env) (S : Site) (C : Caching) : ∀ (x : Chunk) (al : Str), MonoIn (x.means env S C al)
  | .plain l, al, m, w => by
    simp only [Chunk.means]
    exact mono_all S l al m
  | .cached e i o body, al, m, w => by
    simp only [Chunk.means]
    exact Nat.le_trans (Nat.le_succ _) (cachedIn_mono (pieces_mono env S C body c!"cache") { m with bifs := m.bifs + 1 } w)
theorem pieces_mono (env : Env) (S : Site) (C : Caching) : ∀ (l : List Chunk) (al : Str), MonoIn (piecesMean env S C al l)
  | [], al, m, w => by simp only [piecesMean]; exact Nat.le_refl _
  | x :: l, al, m, w => by
    simp only [piecesMean]
    exact Nat.le_trans (piece_mono env S C x al m w) (pieces_mono env S C l al _ _)
end

/-! Evaluation. -/

/-- `run` is what evaluating `text` does, with the files and the clock. -/
def SoundIn (env : Env) (S : Site) (C : Caching) (exps : List Str) (sc : Obj) (text al : Str) (run : Mem → World → Str × Mem × World)
    (d : Nat) : Prop :=
  ∀ (sh0 : Shared), sh0.exit = false → SiteOf env sh0 S → CachingOf sh0 C → Sane env exps sh0.w →
    ∀ (n : Nat) (m : Mem) (sh : Shared) (inh : Inherit) (b : Nat), d ≤ n → After S sh0 sc m b al sh inh → (run m sh0.w).2.1.bifs ≤ sh0.max →
    ∃ sh' inh', Produces env (runBlocks env n) [] text sh inh true (run m sh0.w).1 sh' inh' ∧
      After S (inWorld sh0 (run m sh0.w).2.2) sc (run m sh0.w).2.1 b al sh' inh' ∧ Kept b sh sh' ∧
      SiteOf env (inWorld sh0 (run m sh0.w).2.2) S ∧ Sane env exps (run m sh0.w).2.2

theorem Spec.CachingOf.world {sh0 : Shared} {C : Caching} (h : CachingOf sh0 C) (w : World) : CachingOf (inWorld sh0 w) C :=
  ⟨h.dir, h.pre, h.disabled, h.post, h.get, h.cookies⟩

/-- A block of parts is evaluated to what it means. -/
theorem soundIn_block {env : Env} {S : Site} {C : Caching} {exps : List Str} {sc : Obj} {text t : Str} {run : Mem → World → Str × Mem × World}
    {d n : Nat} {name al : Str} (hs : SoundIn env S C exps sc text name run d) (hgood : Good [] t) (ht : t = trim text) {sh0 : Shared}
    (hexit : sh0.exit = false) (hS : SiteOf env sh0 S) (hC : CachingOf sh0 C) (hsane : Sane env exps sh0.w) {m : Mem} {sh : Shared}
    {inh : Inherit} {b : Nat} (hn : d < n) (ha : After S sh0 sc m b al sh inh) (hmax : (blockIn run m sh0.w).2.1.bifs ≤ sh0.max) :
    ∃ sh', block (runBlocks env n) false sh inh name t [] = .ok (blockIn run m sh0.w).1 sh' inh ∧
      After S (inWorld sh0 (blockIn run m sh0.w).2.2) sc (blockIn run m sh0.w).2.1 b al sh' inh ∧ Kept b sh sh' ∧
      SiteOf env (inWorld sh0 (blockIn run m sh0.w).2.2) S ∧ Sane env exps (blockIn run m sh0.w).2.2 := by
  obtain ⟨n, rfl⟩ : ∃ k, n = k + 1 := ⟨n - 1, by omega⟩
  obtain ⟨sh1, inh1, h1, h2, h3, h6, h7⟩ := hs sh0 hexit hS hC hsane n m sh (inside name inh) (b + 1) (by omega)
      ⟨ha.hold, ha.last, ha.lastC, rfl, inside_level ha.level name, ha.sees, ha.params, ha.snippets, ha.declared⟩ hmax
  subst ht
  obtain ⟨z, h4, h5⟩ := produces_trim h1
  obtain ⟨l, hwf⟩ := good_wf hgood rfl 0
  have hp := (C68_blocks env n sh sh1 (inside name inh) inh1 (trim text) [] (ended true z) l hwf).2 ⟨true, z, h4, rfl⟩
  have hf := dropBlock_forgets sh1 inh1
  rw [h2.level.count] at hf
  have hk : ∀ j, j < b + 1 → (dropBlock sh1 inh1).indir (blockId j) = sh.indir (blockId j) := by
    intro j hj
    rw [hf.others _ (fun he => by have := blockId_inj he; omega), h3 j hj]
  refine ⟨dropBlock sh1 inh1, ?_, ?_, fun j hj => hk j (by omega), h6, h7⟩
  · rw [block_eval, hp]
    simp only [ended, if_true, h5]
    rfl
  · obtain ⟨f, hf'⟩ := dropBlock_sh sh1 inh1
    refine ⟨(h2.hold.other (m' := (blockIn run m sh0.w).2.1) rfl rfl).indir (by rw [hf']), ha.last, ha.lastC, ha.alias, ha.level, ?_,
      ha.params, ha.snippets, ha.declared⟩
    obtain ⟨j, hj1, hj2, hj3⟩ := ha.level.block
    have hs := ha.sees
    rw [hj3] at hs ⊢
    rw [hk j (by omega), hs]
    rfl

/-- The code of a cached part, shown. -/
theorem soundIn_shown {env : Env} {S : Site} {C : Caching} {exps : List Str} {sc : Obj} {body : List Chunk} {al : Str} {d n : Nat}
    (hs : SoundIn env S C exps sc (printPieces body) c!"cache" (piecesMean env S C c!"cache" body) d) (hok : PiecesOk S c!"cache" body)
    {sh0 : Shared} (hexit : sh0.exit = false) (hS : SiteOf env sh0 S) (hC : CachingOf sh0 C) (hsane : Sane env exps sh0.w) {m : Mem}
    {sh : Shared} {inh : Inherit} {b : Nat} (hn : d < n) (ha : After S sh0 sc m b al sh inh)
    (hmax : (blockIn (piecesMean env S C c!"cache" body) m sh0.w).2.1.bifs ≤ sh0.max) :
    ∃ sh', nested (runBlocks env n) false sh inh c!"cache" (trim (printPieces body)) [] =
        .ok (blockIn (piecesMean env S C c!"cache" body) m sh0.w).1 sh' inh ∧
      After S (inWorld sh0 (blockIn (piecesMean env S C c!"cache" body) m sh0.w).2.2) sc
        (blockIn (piecesMean env S C c!"cache" body) m sh0.w).2.1 b al sh' inh ∧ Kept b sh sh' ∧
      SiteOf env (inWorld sh0 (blockIn (piecesMean env S C c!"cache" body) m sh0.w).2.2) S ∧
      Sane env exps (blockIn (piecesMean env S C c!"cache" body) m sh0.w).2.2 := by
  by_cases ho : c!"{:" <:+: trim (printPieces body)
  · rw [nested_block ho]
    exact soundIn_block hs (good_trim (pieces_good body hok [] cont_nil).1) rfl hexit hS hC hsane hn ha hmax
  · rw [nested_plain ho]
    have e := text_pieces env S C c!"cache" body (noOpen_trim ho) m sh0.w
    have e2 : blockIn (piecesMean env S C c!"cache" body) m sh0.w = (trim (printPieces body), m, sh0.w) := by
      simp only [blockIn, e]
    rw [e2]
    exact ⟨sh, rfl, ha, .refl _ _, hS, hsane⟩

theorem nested_file {env : Env} {S : Site} {C : Caching} {sh0 sh : Shared} {sc : Obj} {m : Mem} (hS : SiteOf env sh0 S) (hC : CachingOf sh0 C)
    (hh : Holding sh0 sc m sh) (e i o : Str) (body : List Chunk) :
    CacheBlock.file env sh (counted sh) (trim (printPieces body)) [[], e, i, o, []] e = pieceFile env S C m.data e i o body := by
  have := file_eq hS hC hh e i o [.text (printPieces body)]
  unfold fileOf at this
  rw [printAll_text] at this
  exact this

/-- What a cached part does. -/
theorem nested_run {env : Env} {S : Site} {C : Caching} {exps : List Str} {sc : Obj} (hW : Writable env) (hap : NotEntries env S C)
    {e i o : Str} {body : List Chunk} {d : Nat} (he : ArgOk e) (hi : ArgOk i) (ho : ArgOk o) (hb : PiecesOk S c!"cache" body) (hex : e ∈ exps)
    (ih : SoundIn env S C exps sc (printPieces body) c!"cache" (piecesMean env S C c!"cache" body) d) {al : Str}
    {sh0 : Shared} (hexit : sh0.exit = false) (hS : SiteOf env sh0 S) (hC : CachingOf sh0 C) (hsane : Sane env exps sh0.w)
    {n : Nat} {m : Mem} {sh : Shared} {inh : Inherit} {b : Nat} (hd : d < n) (ha : After S sh0 sc m b al sh inh) (hcnt : sh.count < sh.max)
    (hmax : (cachedIn env C e (pieceFile env S C m.data e i o body) (piecesMean env S C c!"cache" body) { m with bifs := m.bifs + 1 } sh0.w).2.1.bifs
      ≤ sh0.max) :
    ∃ r sh' inh', r = cachedIn env C e (pieceFile env S C m.data e i o body) (piecesMean env S C c!"cache" body) { m with bifs := m.bifs + 1 } sh0.w ∧
      runBif env (runBlocks env n) sh inh (Chunk.cached e i o body).print [] = finish false r.1 sh' inh' ∧
      After S (inWorld sh0 r.2.2) sc r.2.1 b al sh' inh' ∧ Kept b (counted sh) sh' ∧ SiteOf env (inWorld sh0 r.2.2) S ∧ Sane env exps r.2.2 := by
  have hc := ha.counted
  have hfile := nested_file (C := C) hS hC ha.hold e i o body
  have hw : (counted sh).w = sh0.w := by rw [hc.hold]
  -- evaluating the code in a world with the same files
  have hsh : ∀ (w : World) (x : Bool), w.fs = sh0.w.fs →
      (blockIn (piecesMean env S C c!"cache" body) { m with bifs := m.bifs + 1 } w).2.1.bifs ≤ sh0.max →
      ∃ sh2, nested (runBlocks env n) false (inWorld (counted sh) w) { entered sh inh with inCache := x } c!"cache" (trim (printPieces body)) [] =
          .ok (blockIn (piecesMean env S C c!"cache" body) { m with bifs := m.bifs + 1 } w).1 sh2 { entered sh inh with inCache := x } ∧
        After S (inWorld sh0 (blockIn (piecesMean env S C c!"cache" body) { m with bifs := m.bifs + 1 } w).2.2) sc
          (blockIn (piecesMean env S C c!"cache" body) { m with bifs := m.bifs + 1 } w).2.1 b al sh2 (entered sh inh) ∧
        Kept b (counted sh) sh2 ∧ SiteOf env (inWorld sh0 (blockIn (piecesMean env S C c!"cache" body) { m with bifs := m.bifs + 1 } w).2.2) S ∧
        Sane env exps (blockIn (piecesMean env S C c!"cache" body) { m with bifs := m.bifs + 1 } w).2.2 := by
    intro w x hfs hb'
    obtain ⟨sh2, h1, h2, h3, h4, h5⟩ := soundIn_shown ih hb (sh0 := inWorld sh0 w) hexit (siteOf_fs hS hfs) (hC.world w)
      ⟨by rw [show (inWorld sh0 w).w.fs = sh0.w.fs from hfs]; exact hsane.readable,
        by rw [show (inWorld sh0 w).w.fs = sh0.w.fs from hfs]; exact hsane.files, hsane.clock⟩ hd ((hc.world w).inCache x) hb'
    exact ⟨sh2, h1, h2.inCache inh.inCache, h3, h4, h5⟩
  unfold cachedIn at hmax ⊢
  by_cases hon : C.on m.data
  · rw [if_pos hon] at hmax ⊢
    have hblk := cacheBlock_part (R := runBlocks env n) (inh := inh) (l := [.text (printPieces body)]) he hi ho hcnt ((cacheOn_iff hC ha.hold).2 hon)
    rw [printAll_text] at hblk
    have miss : ∀ w : World, w.fs = sh0.w.fs →
        Missing env (counted sh) (CacheBlock.file env sh (counted sh) (trim (printPieces body)) [[], e, i, o, []] e) e (inWorld (counted sh) w) →
        (blockIn (piecesMean env S C c!"cache" body) { m with bifs := m.bifs + 1 } w).2.1.bifs ≤ sh0.max →
        ∃ r sh' inh', r = blockIn (piecesMean env S C c!"cache" body) { m with bifs := m.bifs + 1 } w ∧
          runBif env (runBlocks env n) sh inh (Chunk.cached e i o body).print [] = finish false r.1 sh' inh' ∧
          After S (inWorld sh0 (storedIn env r.2.2 (pieceFile env S C m.data e i o body) r.1)) sc r.2.1 b al sh' inh' ∧ Kept b (counted sh) sh' ∧
          SiteOf env (inWorld sh0 (storedIn env r.2.2 (pieceFile env S C m.data e i o body) r.1)) S ∧
          Sane env exps (storedIn env r.2.2 (pieceFile env S C m.data e i o body) r.1) := by
      intro w hfs hmiss hb'
      obtain ⟨sh2, h1, h2, h3, h4, h5⟩ := hsh w true hfs hb'
      generalize hr : blockIn (piecesMean env S C c!"cache" body) { m with bifs := m.bifs + 1 } w = r at h1 h2 h4 h5
      have hw2 : sh2.w = r.2.2 := by rw [h2.hold]; rfl
      have := C38_miss env _ sh (counted sh) _ sh2 inh _ [] _ [] _ e _ _ hblk hmiss h1 (hW.dirs _ _) (hW.files _ _) (hW.write _ _)
      rw [Chunk.print]
      refine ⟨r, _, _, rfl, this, ?_, h3, ?_, ?_⟩
      · have h2 := h2.world (storedIn env r.2.2 (pieceFile env S C m.data e i o body) r.1)
        rw [hfile, show stored (ticked sh2) (pieceFile env S C m.data e i o body) r.1 (env.now sh2.w.tick) =
            inWorld sh2 (storedIn env r.2.2 (pieceFile env S C m.data e i o body) r.1) by
          unfold stored ticked inWorld storedIn
          rw [hw2]]
        exact h2
      · exact siteOf_stored (sh0 := inWorld sh0 r.2.2) h4 hap rfl
      · exact sane_stored h5 rfl
    cases hfs : sh0.w.fs (pieceFile env S C m.data e i o body) with
    | none =>
      have f1 : freshIn env e (pieceFile env S C m.data e i o body) sh0.w = none := by unfold freshIn; rw [hfs]
      have f2 : looked (pieceFile env S C m.data e i o body) sh0.w = sh0.w := by unfold looked; rw [hfs]
      rw [f1, f2] at hmax
      rw [f1, f2]
      dsimp only at hmax ⊢
      obtain ⟨r, sh', inh', rfl, h1, h2, h3, h4, h5⟩ := miss sh0.w rfl (by
        have : inWorld (counted sh) sh0.w = counted sh := by unfold inWorld; rw [← hw]
        rw [this]
        exact .absent (by rw [hfile, hw]; exact hfs)) hmax
      exact ⟨_, sh', inh', rfl, h1, h2, h3, h4, h5⟩
    | some en =>
      have f2 : looked (pieceFile env S C m.data e i o body) sh0.w = ⟨sh0.w.fs, sh0.w.tick + 1⟩ := by unfold looked; rw [hfs]
      have hfit := hsane.files _ _ e hfs hex
      by_cases hx : en.mtime + lifetime e < env.now sh0.w.tick
      · have f1 : freshIn env e (pieceFile env S C m.data e i o body) sh0.w = none := by unfold freshIn; rw [hfs]; simp only [if_pos hx]
        rw [f1, f2] at hmax
        rw [f1, f2]
        dsimp only at hmax ⊢
        obtain ⟨r, sh', inh', rfl, h1, h2, h3, h4, h5⟩ := miss ⟨sh0.w.fs, sh0.w.tick + 1⟩ rfl (by
          have : inWorld (counted sh) ⟨sh0.w.fs, sh0.w.tick + 1⟩ = ticked (counted sh) := by unfold inWorld ticked; rw [hw]
          rw [this]
          exact .expired en (by rw [hfile, hw]; exact hfs) hfit (by rw [hw]; exact hx)) hmax
        exact ⟨_, sh', inh', rfl, h1, h2, h3, h4, h5⟩
      · obtain ⟨t, ht⟩ := hsane.readable _ _ hfs
        have f1 : freshIn env e (pieceFile env S C m.data e i o body) sh0.w = some t := by
          unfold freshIn; rw [hfs]; simp only [if_neg hx, ht, Option.getD_some]
        rw [f1, f2]
        dsimp only
        have := C38_hit env (runBlocks env n) sh (counted sh) inh [] _ [] _ e t _ en hblk (by rw [hfile, hw]; exact hfs) ht hfit
          (by rw [hw]; omega)
        refine ⟨_, ticked (counted sh), entered sh inh, rfl, by rw [Chunk.print]; exact this, ?_, .refl _ _, siteOf_fs hS rfl,
          ⟨hsane.readable, hsane.files, hsane.clock⟩⟩
        have := hc.world ⟨sh0.w.fs, sh0.w.tick + 1⟩
        rw [show ticked (counted sh) = inWorld (counted sh) ⟨sh0.w.fs, sh0.w.tick + 1⟩ by unfold inWorld ticked; rw [hw]]
        exact this
  · rw [if_neg hon] at hmax ⊢
    obtain ⟨dl, r, h1, h2, rfl⟩ := Part.src_parts (l := [.text (printPieces body)]) he hi ho
    rw [printAll_text] at h1
    have := C75_off env (runBlocks env n) sh inh [] _ [] _ _ (by unfold Mods; simp) (by simp) (by simp) (by simp) hcnt (.inl rfl) h1 (by
      rw [Option.getD_some, h2]
      intro hx
      exact (args_chars he hi ho '{' (hx.subset (by simp))).1 rfl) (fun h => hon ((cacheOn_iff hC ha.hold).1 h))
    obtain ⟨sh2, h3, h4, h5, h6, h7⟩ := hsh sh0.w inh.inCache rfl hmax
    have e1 : inWorld (counted sh) sh0.w = counted sh := by unfold inWorld; rw [← hw]
    rw [e1] at h3
    refine ⟨_, sh2, entered sh inh, rfl, ?_, h4, h5, h6, h7⟩
    rw [Chunk.print]
    refine this.trans ?_
    unfold shown
    rw [show decide ('+' ∈ ([] : Str)) = false from rfl]
    rw [show nested (runBlocks env n) false (counted sh) (entered sh inh) c!"cache" (trim (printPieces body)) [] = _ from h3]
    rfl

mutual
/-- What a part does. -/
theorem sound_piece {env : Env} {S : Site} {C : Caching} {exps : List Str} {sc : Obj} (hW : Writable env) (hap : NotEntries env S C) :
    ∀ (x : Chunk) {al : Str}, x.Ok S al → al ≠ c!"coalesce" → (∀ e ∈ x.lives, e ∈ exps) →
      SoundIn env S C exps sc x.print al (x.means env S C al) (pieceDepth x)
  | .plain l, al, hok, hal, hexp => by
    intro sh0 hexit hS hC hsane n m sh inh b hd ha hmax
    simp only [Chunk.Ok] at hok
    simp only [Chunk.means, Chunk.print, pieceDepth] at hd hmax ⊢
    obtain ⟨sh', inh', h1, h2, h3⟩ := sound_all (env := env) (sc := sc) hexit hS l hok n m sh inh b hd ha hmax
    exact ⟨sh', inh', h1, h2, h3, hS, hsane⟩
  | .cached e i o body, al, hok, hal, hexp => by
    intro sh0 hexit hS hC hsane n m sh inh b hd ha hmax
    have hbif := piece_isBif hok
    simp only [Chunk.Ok] at hok
    obtain ⟨he, hi, ho, hb⟩ := hok
    simp only [Chunk.lives, List.mem_cons] at hexp
    have ih := sound_pieces (sc := sc) hW hap body hb (by decide) (fun x hx => hexp x (.inr hx))
    simp only [pieceDepth] at hd
    simp only [Chunk.means] at hmax ⊢
    have hx : sh.exit = false := by rw [ha.hold]; exact hexit
    have hcnt : sh.count < sh.max := by
      have := cachedIn_mono (env := env) (C := C) (e := e) (file := pieceFile env S C m.data e i o body) (pieces_mono env S C body c!"cache")
        { m with bifs := m.bifs + 1 } sh0.w
      rw [ha.hold]
      show m.bifs < sh0.max
      simp only at this
      omega
    obtain ⟨r, sh', inh', hr, h1, h2, h3, h4, h5⟩ := nested_run hW hap he hi ho hb (hexp e (.inl rfl)) ih hexit hS hC hsane (n := n) (by omega) ha hcnt hmax
    rw [← hr]
    refine ⟨sh', { inh' with lastBifOut := !r.1.isEmpty, lastCoalesceOut := !r.1.isEmpty }, ?_, h2.marked _ _, h3, h4, h5⟩
    have := Produces.evaluated (env := env) (R := runBlocks env n) (only := []) hx hbif (by
      rintro ⟨e1, e2⟩
      rw [ha.alias] at e1
      exact hal e1) h1 (.nil _ _)
    simpa [finish] using this
/-- What a page does. -/
theorem sound_pieces {env : Env} {S : Site} {C : Caching} {exps : List Str} {sc : Obj} (hW : Writable env) (hap : NotEntries env S C) :
    ∀ (l : List Chunk) {al : Str}, PiecesOk S al l → al ≠ c!"coalesce" → (∀ e ∈ livesAll l, e ∈ exps) →
      SoundIn env S C exps sc (printPieces l) al (piecesMean env S C al l) (piecesDepth l)
  | [], al, hok, hal, hexp => by
    intro sh0 hexit hS hC hsane n m sh inh b hd ha hmax
    simp only [piecesMean, printPieces]
    exact ⟨sh, inh, .nil _ _, ha, .refl _ _, hS, hsane⟩
  | x :: l, al, hok, hal, hexp => by
    intro sh0 hexit hS hC hsane n m sh inh b hd ha hmax
    simp only [PiecesOk] at hok
    simp only [livesAll, List.mem_append] at hexp
    simp only [piecesDepth] at hd
    simp only [piecesMean, printPieces] at hmax ⊢
    obtain ⟨sh1, inh1, h1, ha1, hk1, hS1, hsane1⟩ := sound_piece (sc := sc) hW hap x hok.1 hal (fun e he => hexp e (.inl he)) sh0 hexit hS hC hsane n m sh
      inh b (by omega) ha (Nat.le_trans (pieces_mono env S C l al _ _) hmax)
    obtain ⟨sh2, inh2, h2, ha2, hk2, hS2, hsane2⟩ := sound_pieces (sc := sc) hW hap l hok.2 hal (fun e he => hexp e (.inr he))
      (inWorld sh0 (x.means env S C al m sh0.w).2.2) hexit hS1 (hC.world _) hsane1 n _ sh1 inh1 b (by omega) ha1 hmax
    refine ⟨sh2, inh2, C68_append h1 rfl (by rw [ha1.hold]; exact hexit) ?_ h2, ha2, hk1.trans hk2, hS2, hsane2⟩
    rintro ⟨r, hr⟩
    have := (pieces_good l hok.2 [] cont_nil).2.1.1
    rw [← hr] at this
    exact this (by simp)
end

/-! ### C118 -/

/-- **C118 (renders).** For every page of templates and cached parts, with cached parts in cached parts to any depth, every schema,
every content of the cache and every clock: the render prints what the page means, ends with the data and the number of BIFs the
page means, and leaves in the cache exactly the entries the page means.  The premises are those of C85_render. -/
theorem C118_render (env : Env) (n : Nat) (w : World) (t : Tpl) (S : Site) (C : Caching) (l : List Chunk) (sh : Shared) (s d defs : Obj)
    (hnew : Shared.new env w t.schema = some sh) (hS : SiteOf env sh S) (hC : CachingOf sh C) (hW : Writable env)
    (hap : NotEntries env S C) (hsane : Sane env (livesAll l) w)
    (hok : PiecesOk S [] l) (hraw : t.raw = printPieces l) (hb : c!"{:" <:+: printPieces l)
    (hs : t.schema = .obj s) (hd : Obj.get? c!"data" s = some (.obj d))
    (hinh : Obj.get? c!"inherit" s = some (.obj defs)) (hdefs : Defs S defs)
    (hmax : (piecesMean env S C [] l (startMem d defs) w).2.1.bifs ≤ sh.max)
    (hcache : ¬ c!"{:!cache;" <:+: trim (piecesMean env S C [] l (startMem d defs) w).1) :
    ∃ r t', r = piecesMean env S C [] l (startMem d defs) w ∧ t.render env n w = .ok t' ∧
      TextResult t' r.1 r.2.1.bifs ∧ t'.shared.schema.index c!"data" = .obj r.2.1.data ∧ t'.shared.w = r.2.2 := by
  obtain ⟨hgood, hcont, hskip⟩ := pieces_good l hok [] cont_nil
  obtain ⟨sh1, inh, s1, hinit, hs1, hd1, hsees, hl, hlc, hal⟩ := init_data hnew ⟨by
    rw [hraw]
    refine C16_unchanged _ (fun hx => ?_)
    have := hskip [] (by simpa using hx)
    exact absurd this.length_le (by decide), hraw⟩ hs hd hinh
  obtain ⟨sc', g, hf⟩ := initShared_frame hinit
  obtain ⟨s1', s2, s3, s4, s5, s6, s7⟩ := sharedNew_start hnew
  have hw0 : sh.w = w := by
    unfold Shared.new at hnew
    dsimp only at hnew
    split at hnew
    · simp only [Option.some.injEq] at hnew
      rw [← hnew]
    · simp at hnew
  have hmx : sh1.max = sh.max := by rw [hf]
  have hcnt : sh1.count = 0 := by rw [hf]; exact s5
  have hex : sh1.exit = false := by rw [hf]; exact s7
  have hw1 : sh1.w = w := by rw [hf]; exact hw0
  have hS1 : SiteOf env sh1 S := by
    refine ⟨hS.F, ?_, ?_, ?_, hS.json, hS.md5, ?_⟩
    · rw [hf]; exact hS.filterAll
    · rw [hf]; exact hS.sanitize
    · rw [hf]; exact hS.lang
    · rw [hf]; exact hS.file
  have hC1 : CachingOf sh1 C := by
    refine ⟨?_, ?_, ?_, ?_, ?_, ?_⟩ <;> rw [hf]
    · exact hC.dir
    · exact hC.pre
    · exact hC.disabled
    · exact hC.post
    · exact hC.get
    · exact hC.cookies
  have hm0 : (⟨startData d, defs, inh.lastBifOut, inh.lastCoalesceOut, sh1.count⟩ : Mem) = startMem d defs := by
    rw [hl, hlc, hcnt]; rfl
  have hsame := Obj.insert_same hd1
  have hh : Holding sh1 s1 (startMem d defs) sh1 := by
    show sh1 = { sh1 with schema := .obj (Obj.insert c!"data" (.obj (startData d)) s1), indir := sh1.indir, count := 0 }
    rw [hsame, ← hs1, ← hcnt]
  have hlev := C24_start hinit
  generalize hr : piecesMean env S C [] l (startMem d defs) w = r at hmax hcache ⊢
  obtain ⟨sh2, inh2, hp, ha2, _⟩ := sound_pieces (sc := s1) hW hap l hok (by decide) (exps := livesAll l) (fun _ h => h) sh1 hex hS1 hC1
    (by rw [hw1]; exact hsane) (max (piecesDepth l) (sh1.max + 1)) (startMem d defs) sh1 { inh with blockCount := inh.blockCount + 1 } 1
    (by omega) ⟨hh, hl, hlc, hal, hlev, hsees, hdefs.params, hdefs.snippets, hdefs.declared⟩ (by rw [hw1, hr, hmx]; exact hmax)
  rw [hw1, hr] at hp ha2
  obtain ⟨bl, hwf⟩ := good_wf hgood rfl 0
  have hp := (C68_blocks env _ sh1 sh2 _ inh2 (printPieces l) [] _ bl hwf).2 ⟨true, _, hp, rfl⟩
  have hne : parseSrc (runBlocks env (sh1.max + 1)) sh1 { inh with blockCount := inh.blockCount + 1 } (printPieces l) [] ≠ .oof := by
    unfold parseSrc
    rw [C15_complete _ _ hwf]
    dsimp only
    rcases C19_terminates env (sh1.max + 1) sh1 { inh with blockCount := inh.blockCount + 1 } (printPieces l) [] bl (by omega) (by omega) with
      ⟨o, s, i, h⟩ | ⟨p, h⟩ <;> (rw [h]; simp)
  have hle := parseSrc_le (fun sh inh src bs only h => C19_depth env (sh1.max + 1) (max (piecesDepth l) (sh1.max + 1) + 1) (by omega) sh inh src only bs h)
    sh1 { inh with blockCount := inh.blockCount + 1 } _ _ hne
  rw [hle] at hp
  have hends := ha2.hold
  have hoth : ∀ k, k ≠ c!"data" → sh2.schema.index k = sh1.schema.index k := by
    intro k hk
    rw [hends, hs1]
    simp only [Value.index, Value.get?]
    rw [Obj.get?_insert_ne _ _ (Ne.symm hk)]
  have hstat : sh2.statusCode = c!"200" := by rw [hends]; show sh1.statusCode = _; rw [hf]; exact s1'
  refine ⟨r, ⟨printPieces l, t.filePath, t.schema, sh2, replacements (trim r.1)⟩, rfl, ?_, ?_, hends.data, by rw [hends]; rfl⟩
  · have hb' : contains bifOpen t.raw = true := (contains_iff (by decide)).2 (by rw [hraw]; exact hb)
    unfold Tpl.render
    simp only [hb', Bool.not_true, Bool.false_eq_true, if_false]
    unfold renderWith
    rw [hnew]
    simp only
    rw [hinit]
    simp only
    rw [C24_passes hinit, hp]
    simp only [ended, if_true, cacheLoop_done env inh n _ _ hcache]
    unfold endsRender
    rw [applyMoveto_empty ((hoth _ (by decide)).trans (initShared_ok hinit).2.1)]
    simp only [Option.map_some]
    have c4 : sh2.redirectJs = [] := by rw [hends]; show sh1.redirectJs = _; rw [hf]; exact s4
    have := C40_three_digits sh2 (replacements (trim r.1)) 2 0 0 (by omega) (by omega) (by omega) hstat
    rw [this, c4]
    simp
  · refine ⟨rfl, hstat, ?_, ?_, ?_, ?_, ?_⟩
    · show sh2.statusText = _; rw [hends]; show sh1.statusText = _; rw [hf]; exact s2
    · show sh2.statusParam = _; rw [hends]; show sh1.statusParam = _; rw [hf]; exact s3
    · show sh2.count = _; rw [hends]
    · show sh2.hasError = _; rw [hends]; show sh1.hasError = _; rw [hf]; exact s6
    · show sh2.schema.index c!"__error" = _
      rw [hoth _ (by decide)]; exact (initShared_ok hinit).2.2.1


/-! Ages. -/

theorem aged_more {vs vs' : List Evaluation} {d : Nat} (hv : ∀ v ∈ vs, v ∈ vs') {t : Nat} {al s : Str} {l : List Chunk}
    (h : AgedText vs d t al l s) : ∀ {t' : Nat}, t' ≤ t → AgedText vs' d t' al l s := by
  induction h with
  | nil t al => intro t' _; exact .nil _ _
  | plain v h1 h2 h3 _ ih => intro t' ht; exact .plain v (hv v h1) h2 (by omega) (ih ht)
  | cached _ _ ih1 ih2 => intro t' ht; exact .cached (ih1 (by omega)) (ih2 ht)

theorem aged_append {vs : List Evaluation} {d : Nat} {t : Nat} {al s : Str} {l : List Chunk} (h : AgedText vs d t al l s) :
    ∀ {l' : List Chunk} {s' : Str}, AgedText vs d t al l' s' → AgedText vs d t al (l ++ l') (s ++ s') := by
  induction h with
  | nil t al => intro l' s' h; simpa using h
  | plain v h1 h2 h3 _ ih =>
    intro l' s' h
    rw [List.cons_append, List.append_assoc]
    exact .plain v h1 h2 h3 (ih h)
  | cached h1 _ ih1 ih2 =>
    intro l' s' h
    rw [List.cons_append, List.append_assoc]
    exact .cached h1 (ih2 h)

/-- What a cache holds after a history that started without entries. -/
def Stocked (env : Env) (C : Caching) (known : Chunk → Prop) (d : Nat) (vs : List Evaluation) (w : World) : Prop :=
  ∀ text expires en, w.fs (entryFile env C.dir C.pre text expires) = some en →
    ∃ e i o body S data x t, known (.cached e i o body) ∧ pieceFile env S C data e i o body = entryFile env C.dir C.pre text expires ∧
      en.content = some (trim x) ∧ en.mtime ≤ t + d ∧ AgedText vs d t c!"cache" body x

theorem Stocked.more {env : Env} {C : Caching} {known : Chunk → Prop} {d : Nat} {vs vs' : List Evaluation} {w w' : World}
    (h : Stocked env C known d vs w) (hv : ∀ v ∈ vs, v ∈ vs')
    (hw : ∀ text expires, w'.fs (entryFile env C.dir C.pre text expires) = w.fs (entryFile env C.dir C.pre text expires)) :
    Stocked env C known d vs' w' := by
  intro text expires en hen
  rw [hw] at hen
  obtain ⟨e, i, o, body, S, data, x, t, h1, h2, h3, h4, h5⟩ := h text expires en hen
  exact ⟨e, i, o, body, S, data, x, t, h1, h2, h3, h4, aged_more hv h5 (Nat.le_refl _)⟩

theorem looked_fs (file : Str) (w : World) : (looked file w).fs = w.fs := by
  unfold looked
  split <;> rfl

theorem looked_tick (file : Str) (w : World) : w.tick ≤ (looked file w).tick := by
  unfold looked
  split <;> simp

theorem cachedIn_tick {env : Env} {C : Caching} {e file : Str} {run : Mem → World → Str × Mem × World}
    (h : ∀ m w, w.tick ≤ (run m w).2.2.tick) (m : Mem) (w : World) : w.tick ≤ (cachedIn env C e file run m w).2.2.tick := by
  unfold cachedIn
  split
  · split
    · exact looked_tick _ _
    · exact Nat.le_trans (looked_tick file w) (Nat.le_trans (h m _) (Nat.le_succ _))
  · exact h m w

mutual
/-- The clock does not go back. -/
theorem piece_tick (env : Env) (S : Site) (C : Caching) : ∀ (x : Chunk) (al : Str) (m : Mem) (w : World),
    w.tick ≤ (x.means env S C al m w).2.2.tick
  | .plain l, al, m, w => by simp only [Chunk.means]; exact Nat.le_refl _
  | .cached e i o body, al, m, w => by
    simp only [Chunk.means]
    exact cachedIn_tick (fun m w => pieces_tick env S C body _ m w) _ _
theorem pieces_tick (env : Env) (S : Site) (C : Caching) : ∀ (l : List Chunk) (al : Str) (m : Mem) (w : World),
    w.tick ≤ (piecesMean env S C al l m w).2.2.tick
  | [], al, m, w => by simp only [piecesMean]; exact Nat.le_refl _
  | x :: l, al, m, w => by
    simp only [piecesMean]
    exact Nat.le_trans (piece_tick env S C x al m w) (pieces_tick env S C l al _ _)
end

mutual
theorem piece_aged {env : Env} {S : Site} {C : Caching} {known : Chunk → Prop} (hsep : Separate env C known) {d lo hi T : Nat}
    (hclock : ∀ t, lo ≤ t → t ≤ hi → T ≤ env.now t ∧ env.now t ≤ T + d) : ∀ (x : Chunk) (al : Str) (m : Mem) (w : World)
    (vs : List Evaluation), known x → Stocked env C known d vs w → lo ≤ w.tick → (x.means env S C al m w).2.2.tick ≤ hi →
    AgedText (vs ++ x.evaluates env S C T al m w) d T al [x] (x.means env S C al m w).1 ∧
      Stocked env C known d (vs ++ x.evaluates env S C T al m w) (x.means env S C al m w).2.2
  | .plain l, al, m, w, vs, hk, hst, hlo, hhi => by
    simp only [Chunk.means, Chunk.evaluates]
    refine ⟨?_, hst.more (by simp +contextual) (fun _ _ => rfl)⟩
    have := AgedText.plain (d := d) (t := T) (vs := vs ++ [⟨S, al, l, m, T⟩]) (al := al) ⟨S, al, l, m, T⟩ (by simp) rfl (Nat.le_refl _) (.nil _ _)
    simpa [Evaluation.text] using this
  | .cached e i o body, al, m, w, vs, hk, hst, hlo, hhi => by
    -- the text of a part that is evaluated
    have fresh : ∀ w1 : World, w1.fs = w.fs → lo ≤ w1.tick →
        (blockIn (piecesMean env S C c!"cache" body) { m with bifs := m.bifs + 1 } w1).2.2.tick ≤ hi →
        AgedText (vs ++ piecesEvaluate env S C T c!"cache" body { m with bifs := m.bifs + 1 } w1) d T c!"cache" body
            (piecesMean env S C c!"cache" body { m with bifs := m.bifs + 1 } w1).1 ∧
          Stocked env C known d (vs ++ piecesEvaluate env S C T c!"cache" body { m with bifs := m.bifs + 1 } w1)
            (blockIn (piecesMean env S C c!"cache" body) { m with bifs := m.bifs + 1 } w1).2.2 := by
      intro w1 hfs h1 h2
      exact pieces_aged hsep hclock body c!"cache" _ w1 vs (hsep.inner e i o body hk) (hst.more (fun _ h => h) (fun _ _ => by rw [hfs])) h1 h2
    have wrap : ∀ {us : List Evaluation} {t : Nat} {y : Str}, AgedText us d t c!"cache" body y → T - (lifetime e + d) ≤ t →
        AgedText us d T al [.cached e i o body] (trim (trim y)) := by
      intro us t y h1 h2
      have := AgedText.cached (al := al) (e := e) (i := i) (o := o) (aged_more (fun _ h => h) h1 h2) (.nil T al)
      rw [trim_idem]
      simpa using this
    simp only [Chunk.means, Chunk.evaluates] at hhi ⊢
    generalize hf : pieceFile env S C m.data e i o body = file at hhi ⊢
    unfold cachedIn at hhi ⊢
    by_cases hon : C.on m.data
    · have hon' : C.on ({ m with bifs := m.bifs + 1 } : Mem).data := hon
      rw [if_pos hon'] at hhi ⊢
      rw [if_pos hon]
      cases hfr : freshIn env e file w with
      | some text =>
        rw [hfr] at hhi
        simp only at hhi ⊢
        have hm2 : Stocked env C known d (vs ++ []) (looked file w) :=
          hst.more (by simp) (fun _ _ => by rw [looked_fs])
        refine ⟨?_, hm2⟩
        unfold freshIn at hfr
        cases hen : w.fs file with
        | none => rw [hen] at hfr; simp at hfr
        | some en =>
          rw [hen] at hfr
          simp only at hfr
          split at hfr
          · simp at hfr
          · next hx =>
            simp only [Option.some.injEq] at hfr
            have hen' := hen
            rw [← hf] at hen'
            obtain ⟨e', i', o', body', S', data', x, t, h1, h2, h3, h4, h5⟩ := hst _ _ en hen'
            have := hsep.entries _ _ _ _ _ _ _ _ h1 hk _ _ _ _ h2
            subst this
            rw [h3] at hfr
            simp only [Option.getD_some] at hfr
            rw [← hfr, List.append_nil]
            have hT := (hclock w.tick hlo (Nat.le_trans (looked_tick file w) hhi)).1
            exact wrap h5 (by omega)
      | none =>
        rw [hfr] at hhi
        simp only at hhi ⊢
        have hle : (blockIn (piecesMean env S C c!"cache" body) { m with bifs := m.bifs + 1 } (looked file w)).2.2.tick ≤ hi :=
          Nat.le_trans (Nat.le_succ _) hhi
        obtain ⟨h1, h2⟩ := fresh (looked file w) (looked_fs file w) (Nat.le_trans hlo (looked_tick file w)) hle
        refine ⟨wrap h1 (by omega), ?_⟩
        intro text expires en hen
        simp only [storedIn] at hen
        split at hen
        · next heq =>
          simp only [Option.some.injEq] at hen
          refine ⟨e, i, o, body, S, m.data, _, T, hk, hf.trans heq.symm, by rw [← hen]; rfl, ?_, h1⟩
          rw [← hen]
          refine (hclock _ ?_ hle).2
          exact Nat.le_trans (Nat.le_trans hlo (looked_tick file w)) (pieces_tick env S C body _ _ _)
        · exact h2 text expires en hen
    · have hon' : ¬ C.on ({ m with bifs := m.bifs + 1 } : Mem).data := hon
      rw [if_neg hon'] at hhi ⊢
      rw [if_neg hon]
      obtain ⟨h1, h2⟩ := fresh w rfl hlo hhi
      exact ⟨wrap h1 (by omega), h2⟩
theorem pieces_aged {env : Env} {S : Site} {C : Caching} {known : Chunk → Prop} (hsep : Separate env C known) {d lo hi T : Nat}
    (hclock : ∀ t, lo ≤ t → t ≤ hi → T ≤ env.now t ∧ env.now t ≤ T + d) : ∀ (l : List Chunk) (al : Str) (m : Mem) (w : World)
    (vs : List Evaluation), (∀ x ∈ l, known x) → Stocked env C known d vs w → lo ≤ w.tick → (piecesMean env S C al l m w).2.2.tick ≤ hi →
    AgedText (vs ++ piecesEvaluate env S C T al l m w) d T al l (piecesMean env S C al l m w).1 ∧
      Stocked env C known d (vs ++ piecesEvaluate env S C T al l m w) (piecesMean env S C al l m w).2.2
  | [], al, m, w, vs, hk, hst, hlo, hhi => by
    simp only [piecesMean, piecesEvaluate, List.append_nil]
    exact ⟨.nil _ _, hst⟩
  | x :: l, al, m, w, vs, hk, hst, hlo, hhi => by
    simp only [piecesMean, piecesEvaluate] at hhi ⊢
    obtain ⟨h1, h2⟩ := piece_aged (S := S) hsep hclock x al m w vs (hk x (by simp)) hst hlo (Nat.le_trans (pieces_tick env S C l al _ _) hhi)
    obtain ⟨h3, h4⟩ := pieces_aged (S := S) hsep hclock l al _ _ _ (fun y hy => hk y (by simp [hy])) h2
      (Nat.le_trans hlo (piece_tick env S C x al m w)) hhi
    rw [← List.append_assoc]
    exact ⟨aged_append (l := [x]) (aged_more (fun v hv => List.mem_append.2 (.inl hv)) h1 (Nat.le_refl _)) h3, h4⟩
end

theorem asked_stocked {env : Env} {C : Caching} {known : Chunk → Prop} (hsep : Separate env C known) {d : Nat} {w0 w : World}
    {vs : List Evaluation} (h : Asked env C known d w0 vs w) (h0 : ∀ text expires, w0.fs (entryFile env C.dir C.pre text expires) = none) :
    Stocked env C known d vs w := by
  induction h with
  | start =>
    intro text expires en h
    rw [h0] at h
    simp at h
  | ask S l m _ hk hc ih => exact (pieces_aged hsep (fun t h1 h2 => hc t h1 h2) l [] m _ _ hk ih (Nat.le_refl _) (Nat.le_refl _)).2
  | other _ hw ih => exact ih.more (fun _ h => h) hw

/-- **C118 (how old).** For every history of a cache that had no entries at the start — any number of requests, with any data, for any
sites and pages with cached parts nested to any depth, and any other activity between them that leaves the entries as they are — in
which every request takes at most `d` seconds, and such that cached parts that share an entry have the same parts in them: what a
request shows for each template of its page that is not in a cached part comes from an evaluation at the time this request began or
later (it is the evaluation in this request: C118_render); for a template in cached parts with the lifetimes `L₁, …, Lₖ`, from the outer to the inner, from an evaluation of that template in a request that
began at most `(L₁ + d) + … + (Lₖ + d)` seconds before this one. -/
theorem C118_age_partial (env : Env) (C : Caching) (known : Chunk → Prop) (hsep : Separate env C known) (d : Nat) (w0 w : World)
    (vs : List Evaluation) (h : Asked env C known d w0 vs w) (h0 : ∀ text expires, w0.fs (entryFile env C.dir C.pre text expires) = none)
    (S : Site) (l : List Chunk) (m : Mem) (hk : ∀ x ∈ l, known x)
    (hc : ∀ t, w.tick ≤ t → t ≤ (piecesMean env S C [] l m w).2.2.tick → env.now w.tick ≤ env.now t ∧ env.now t ≤ env.now w.tick + d) :
    AgedText (vs ++ piecesEvaluate env S C (env.now w.tick) [] l m w) d (env.now w.tick) [] l (piecesMean env S C [] l m w).1 :=
  (pieces_aged hsep (fun t h1 h2 => hc t h1 h2) l [] m _ _ hk (asked_stocked hsep h h0) (Nat.le_refl _) (Nat.le_refl _)).1

/-- **C118 (two levels).** The example of the documentation: a template `a` and a cached part with the template `b`, together in a cached
part.  A request shows a text of `a` evaluated by a request that began at most the outer lifetime (and `d`) before, and a text of `b`
evaluated by a request that began at most the outer *and* the inner lifetime (and twice `d`) before.  The documentation has the
inner lifetime only: see C118_refuted. -/
theorem C118_two_partial (env : Env) (C : Caching) (known : Chunk → Prop) (hsep : Separate env C known) (d : Nat) (w0 w : World)
    (vs : List Evaluation) (h : Asked env C known d w0 vs w) (h0 : ∀ text expires, w0.fs (entryFile env C.dir C.pre text expires) = none)
    (S : Site) (m : Mem) (e i o e' i' o' : Str) (a b : List Node) (hk : known (.cached e i o [.plain a, .cached e' i' o' [.plain b]]))
    (hc : ∀ t, w.tick ≤ t → t ≤ (piecesMean env S C [] [.cached e i o [.plain a, .cached e' i' o' [.plain b]]] m w).2.2.tick →
      env.now w.tick ≤ env.now t ∧ env.now t ≤ env.now w.tick + d) :
    ∃ now, now = piecesEvaluate env S C (env.now w.tick) [] [.cached e i o [.plain a, .cached e' i' o' [.plain b]]] m w ∧
      ∃ va ∈ vs ++ now, ∃ vb ∈ vs ++ now, va.l = a ∧ vb.l = b ∧
        env.now w.tick ≤ va.at' + (lifetime e + d) ∧ env.now w.tick ≤ vb.at' + (lifetime e + d) + (lifetime e' + d) ∧
        (piecesMean env S C [] [.cached e i o [.plain a, .cached e' i' o' [.plain b]]] m w).1 = trim (va.text ++ trim vb.text) := by
  refine ⟨_, rfl, ?_⟩
  have hA := C118_age_partial env C known hsep d w0 w vs h h0 S _ m (fun x hx => by
    simp only [List.mem_cons, List.not_mem_nil, or_false] at hx
    rw [hx]; exact hk) hc
  generalize (piecesMean env S C [] [.cached e i o [.plain a, .cached e' i' o' [.plain b]]] m w).1 = s at hA ⊢
  generalize vs ++ piecesEvaluate env S C (env.now w.tick) [] [.cached e i o [.plain a, .cached e' i' o' [.plain b]]] m w = us at hA ⊢
  cases hA with
  | cached h1 h2 =>
    cases h2
    cases h1 with
    | plain va h3 h4 h5 h6 =>
      cases h6 with
      | cached h7 h8 =>
        cases h8
        cases h7 with
        | plain vb g1 g2 g3 g4 =>
          cases g4
          refine ⟨va, h3, vb, g1, rfl, rfl, by omega, by omega, by simp⟩

mutual
/-- The evaluations of a request have its time. -/
theorem piece_when (env : Env) (S : Site) (C : Caching) (T : Nat) : ∀ (x : Chunk) (al : Str) (m : Mem) (w : World),
    ∀ v ∈ x.evaluates env S C T al m w, v.at' = T
  | .plain l, al, m, w, v, hv => by
    simp only [Chunk.evaluates, List.mem_cons, List.not_mem_nil, or_false] at hv
    rw [hv]
  | .cached e i o body, al, m, w, v, hv => by
    simp only [Chunk.evaluates] at hv
    split at hv
    · split at hv
      · simp at hv
      · exact pieces_when env S C T body _ _ _ v hv
    · exact pieces_when env S C T body _ _ _ v hv
theorem pieces_when (env : Env) (S : Site) (C : Caching) (T : Nat) : ∀ (l : List Chunk) (al : Str) (m : Mem) (w : World),
    ∀ v ∈ piecesEvaluate env S C T al l m w, v.at' = T
  | [], al, m, w, v, hv => by simp [piecesEvaluate] at hv
  | x :: l, al, m, w, v, hv => by
    simp only [piecesEvaluate, List.mem_append] at hv
    rcases hv with hv | hv
    · exact piece_when env S C T x al m w v hv
    · exact pieces_when env S C T l al _ _ v hv
end

/-- **C118 (requests).** The render of a page continues the history of the cache, and prints a text of the ages of C118_age_partial. -/
theorem C118_requests_partial (env : Env) (n : Nat) (w : World) (t : Tpl) (S : Site) (C : Caching) (l : List Chunk) (sh : Shared) (s d defs : Obj)
    (hnew : Shared.new env w t.schema = some sh) (hS : SiteOf env sh S) (hC : CachingOf sh C) (hW : Writable env)
    (hap : NotEntries env S C) (hsane : Sane env (livesAll l) w)
    (hok : PiecesOk S [] l) (hraw : t.raw = printPieces l) (hb : c!"{:" <:+: printPieces l)
    (hs : t.schema = .obj s) (hd : Obj.get? c!"data" s = some (.obj d))
    (hinh : Obj.get? c!"inherit" s = some (.obj defs)) (hdefs : Defs S defs)
    (hmax : (piecesMean env S C [] l (startMem d defs) w).2.1.bifs ≤ sh.max)
    (hcache : ¬ c!"{:!cache;" <:+: trim (piecesMean env S C [] l (startMem d defs) w).1)
    (known : Chunk → Prop) (hsep : Separate env C known) (takes : Nat) (w0 : World) (vs : List Evaluation)
    (hist : Asked env C known takes w0 vs w) (h0 : ∀ text expires, w0.fs (entryFile env C.dir C.pre text expires) = none)
    (hk : ∀ x ∈ l, known x)
    (hc : ∀ k, w.tick ≤ k → k ≤ (piecesMean env S C [] l (startMem d defs) w).2.2.tick →
      env.now w.tick ≤ env.now k ∧ env.now k ≤ env.now w.tick + takes) :
    ∃ now text t', t.render env n w = .ok t' ∧ t'.out = replacements (trim text) ∧
      Asked env C known takes w0 (vs ++ now) t'.shared.w ∧ (∀ v ∈ now, v.at' = env.now w.tick) ∧
      AgedText (vs ++ now) takes (env.now w.tick) [] l text := by
  obtain ⟨r1, t1, rfl, h1, h2, h3, h4⟩ := C118_render env n w t S C l sh s d defs hnew hS hC hW hap hsane hok hraw hb hs hd hinh hdefs hmax hcache
  refine ⟨piecesEvaluate env S C (env.now w.tick) [] l (startMem d defs) w, _, t1, h1, h2.out, ?_, ?_,
    C118_age_partial env C known hsep takes w0 w vs hist h0 S l (startMem d defs) hk hc⟩
  · rw [h4]
    exact .ask S l (startMem d defs) hist hk hc
  · exact fun v hv => pieces_when env S C _ l [] _ _ v hv

/-! Examples. -/

/-- The example of the documentation (doc/bif-cache.md, Nesting), with a variable instead of the date. -/
def Sample.nestBody : List Chunk := [.plain [.text c!"<b>", .var false c!"x", .text c!"</b>"]]
/-- What is in the outer part. -/
def Sample.nestOuter : List Chunk := [.plain [.var false c!"x", .text c!" "], .cached c!"300" [] [] Sample.nestBody]
/-- The page. -/
def Sample.nestPage : List Chunk := [.cached c!"100" [] [] Sample.nestOuter]

example : printPieces Sample.nestPage = c!"{:cache; /100/// >> {:;x:} {:cache; /300/// >> <b>{:;x:}</b> :} :}" := by decide +kernel

theorem Sample.nestPage_ok : PiecesOk Sample.pageSite [] Sample.nestPage := by
  simp only [Sample.nestPage, Sample.nestOuter, Sample.nestBody, PiecesOk, Chunk.Ok, AllOk, Node.Ok, and_true]
  exact ⟨by unfold ArgOk; decide, by unfold ArgOk; decide, by unfold ArgOk; decide,
    ⟨nameOk_of (by decide), textOk_of (by decide)⟩, by unfold ArgOk; decide, by unfold ArgOk; decide, by unfold ArgOk; decide,
    textOk_of (by decide), nameOk_of (by decide), textOk_of (by decide)⟩

/-- A request. -/
def Sample.askNest (l : List Chunk) (x : Str) (w : World) : RRes :=
  (Sample.tpl (Sample.schema 1000 [(c!"x", .str x)] Sample.pageDefs) (printPieces l)).render Sample.envC 10 w

/-- The time at which a request begins. -/
def Sample.timeOf (w : World) : Nat := Sample.envC.now w.tick

/-- The second request comes when the outer entry has expired and the inner one has not. -/
def Sample.secondNest : World := Sample.after 294 (Sample.askNest Sample.nestPage c!"A" Sample.pageWorld)
/-- The third when the new outer entry has not expired. -/
def Sample.thirdNest : World := Sample.after 95 (Sample.askNest Sample.nestPage c!"B" Sample.secondNest)

set_option maxRecDepth 10000 in
/-- **C118 (what fails).** The claim of the documentation, that with the lifetimes 100 and 300 the inner text is updated every 300
seconds, is false: the third request, 394 seconds after the first, shows the inner text of the first (the new outer entry was made
from an inner entry that was almost at its end). -/
theorem C118_refuted :
    (Sample.outOf (Sample.askNest Sample.nestPage c!"A" Sample.pageWorld)).map (·.1) = some c!"A <b>A</b>" ∧
    (Sample.outOf (Sample.askNest Sample.nestPage c!"B" Sample.secondNest)).map (·.1) = some c!"B <b>A</b>" ∧
    (Sample.outOf (Sample.askNest Sample.nestPage c!"C" Sample.thirdNest)).map (·.1) = some c!"B <b>A</b>" ∧
    Sample.timeOf Sample.thirdNest = Sample.timeOf Sample.pageWorld + 394 := by
  decide +kernel

/-- A page with a part of the lifetime 5. -/
def Sample.shortPage : List Chunk := [.cached c!"5" [] [] Sample.nestBody]
/-- A page with this part in a part of the lifetime 60. -/
def Sample.shortNest : List Chunk := [.cached c!"60" [] [] [.plain [.var false c!"x", .text c!" "], .cached c!"5" [] [] Sample.nestBody]]
/-- A page with the same in the outer part, without the inner cache. -/
def Sample.shortCode : List Chunk := [.cached c!"60" [] [] [.plain [.var false c!"x", .text c!" ", .code false [.text c!"<b>", .var false c!"x", .text c!"</b>"]]]]

set_option maxRecDepth 10000 in
/-- **C118 (what fails).** The claim of the documentation, that a nested cached part has no effect if its lifetime is at most that of
its parent, is false: when another page has made its entry, the part shows what that page showed. -/
theorem C118_effect_refuted :
    (Sample.outOf (Sample.askNest Sample.shortNest c!"B" (Sample.after 2 (Sample.askNest Sample.shortPage c!"A" Sample.pageWorld)))).map (·.1) =
      some c!"B <b>A</b>" ∧
    (Sample.outOf (Sample.askNest Sample.shortCode c!"B" (Sample.after 2 (Sample.askNest Sample.shortPage c!"A" Sample.pageWorld)))).map (·.1) =
      some c!"B <b>B</b>" := by
  decide +kernel

theorem Sample.nest_sane : Sane Sample.envC (livesAll Sample.nestPage) Sample.pageWorld := by
  have hlives : ∀ x ∈ livesAll Sample.nestPage, x = c!"100" ∨ x = c!"300" := by
    intro x hx
    simpa [Sample.nestPage, Sample.nestOuter, Sample.nestBody, livesAll, Chunk.lives] using hx
  have h60 : lifetime c!"100" = 100 := by decide +kernel
  have h5 : lifetime c!"300" = 300 := by decide +kernel
  refine ⟨Sample.page_sane.readable, ?_, ?_⟩
  · intro file e x h hx
    simp only [Sample.pageWorld] at h
    split at h
    · simp only [Option.some.injEq] at h
      subst h
      rcases hlives x hx with rfl | rfl
      · rw [h60]; decide
      · rw [h5]; decide
    · simp at h
  · intro t x hx
    have : Sample.envC.now t ≤ 1500 := by simp only [Sample.envC]; omega
    rcases hlives x hx with rfl | rfl
    · rw [h60]; omega
    · rw [h5]; omega

set_option maxRecDepth 10000 in
/-- The premises of C118_render are met. -/
example : ∃ r t', r = piecesMean Sample.envC Sample.pageSite Sample.caching [] Sample.nestPage (startMem [(c!"x", .str c!"X")] Sample.pageDefs)
      Sample.pageWorld ∧ Sample.askNest Sample.nestPage c!"X" Sample.pageWorld = .ok t' ∧
    TextResult t' r.1 r.2.1.bifs ∧ t'.shared.schema.index c!"data" = .obj r.2.1.data ∧ t'.shared.w = r.2.2 :=
  C118_render Sample.envC 10 Sample.pageWorld (Sample.tpl (Sample.schema 1000 [(c!"x", .str c!"X")] Sample.pageDefs) (printPieces Sample.nestPage))
    Sample.pageSite Sample.caching Sample.nestPage _ _ [(c!"x", .str c!"X")] Sample.pageDefs rfl (Sample.page_site rfl).1 (Sample.page_site rfl).2
    ⟨fun _ _ => rfl, fun _ _ => rfl, fun _ _ => rfl⟩ Sample.page_apart Sample.nest_sane Sample.nestPage_ok rfl (by decide +kernel) rfl rfl rfl
    ⟨.inr ⟨_, rfl⟩, rfl, rfl⟩ (by decide +kernel) (by decide +kernel)

/-- The parts of the page. -/
def Sample.nestKnown (x : Chunk) : Prop := x = .cached c!"100" [] [] Sample.nestOuter ∨ x ∈ Sample.nestOuter ∨ x ∈ Sample.nestBody

theorem entry_expires {env : Env} {dir pre t t' e e' : Str} (h : entryFile env dir pre t e = entryFile env dir pre t' e')
    (hl : e.length = e'.length) : e = e' := by
  unfold entryFile at h
  exact (List.append_inj' h hl).2

theorem Sample.nest_separate : Separate Sample.envC Sample.caching Sample.nestKnown := by
  have hcase : ∀ e i o body, Sample.nestKnown (.cached e i o body) →
      (e = c!"100" ∧ body = Sample.nestOuter) ∨ (e = c!"300" ∧ body = Sample.nestBody) := by
    intro e i o body h
    rcases h with h | h | h
    · cases h; exact .inl ⟨rfl, rfl⟩
    · simp only [Sample.nestOuter, List.mem_cons, List.not_mem_nil, or_false] at h
      rcases h with h | h
      · cases h
      · cases h; exact .inr ⟨rfl, rfl⟩
    · simp [Sample.nestBody] at h
  refine ⟨?_, ?_⟩
  · intro e i o body h x hx
    rcases hcase e i o body h with ⟨_, rfl⟩ | ⟨_, rfl⟩
    · exact .inr (.inl hx)
    · exact .inr (.inr hx)
  · intro e i o body e' i' o' body' h h' S data S' data' hf
    unfold pieceFile at hf
    rcases hcase _ _ _ _ h with ⟨rfl, rfl⟩ | ⟨rfl, rfl⟩ <;> rcases hcase _ _ _ _ h' with ⟨rfl, rfl⟩ | ⟨rfl, rfl⟩
    · rfl
    · exact absurd (entry_expires hf rfl) (by decide)
    · exact absurd (entry_expires hf rfl) (by decide)
    · rfl

theorem Sample.no_entries (text expires : Str) :
    Sample.pageWorld.fs (entryFile Sample.envC Sample.caching.dir Sample.caching.pre text expires) = none := by
  obtain ⟨r, h⟩ := Sample.entry_slash text expires
  rw [h]
  simp [Sample.pageWorld]

theorem Sample.clock_close {w w' : World} (h : w'.tick ≤ w.tick + 5) : ∀ t, w.tick ≤ t → t ≤ w'.tick →
    Sample.envC.now w.tick ≤ Sample.envC.now t ∧ Sample.envC.now t ≤ Sample.envC.now w.tick + 5 := by
  intro t h1 h2
  simp only [Sample.envC]
  omega

set_option maxRecDepth 10000 in
/-- The premises of C118_age_partial and C118_two_partial are met by a history of a request, some time, and another request. -/
example : ∃ vs w, Asked Sample.envC Sample.caching Sample.nestKnown 5 Sample.pageWorld vs w ∧ vs.length = 2 ∧ Sample.timeOf w = 1296 ∧
    ∃ now, now = piecesEvaluate Sample.envC Sample.pageSite Sample.caching (Sample.envC.now w.tick) [] Sample.nestPage
        (startMem [(c!"x", .str c!"B")] Sample.pageDefs) w ∧ now.length = 1 ∧
      ∃ va ∈ vs ++ now, ∃ vb ∈ vs ++ now, va.l = [.var false c!"x", .text c!" "] ∧ vb.l = [.text c!"<b>", .var false c!"x", .text c!"</b>"] ∧
        Sample.envC.now w.tick ≤ va.at' + (lifetime c!"100" + 5) ∧
        Sample.envC.now w.tick ≤ vb.at' + (lifetime c!"100" + 5) + (lifetime c!"300" + 5) ∧
        (piecesMean Sample.envC Sample.pageSite Sample.caching [] Sample.nestPage (startMem [(c!"x", .str c!"B")] Sample.pageDefs) w).1 =
          trim (va.text ++ trim vb.text) := by
  have hA := Asked.ask (env := Sample.envC) (C := Sample.caching) (known := Sample.nestKnown) (d := 5) Sample.pageSite Sample.nestPage
    (startMem [(c!"x", .str c!"A")] Sample.pageDefs) (.start (w0 := Sample.pageWorld))
    (fun x hx => .inl (by simpa [Sample.nestPage] using hx)) (Sample.clock_close (by decide +kernel))
  have hO := Asked.other (w' := ⟨(piecesMean Sample.envC Sample.pageSite Sample.caching [] Sample.nestPage
    (startMem [(c!"x", .str c!"A")] Sample.pageDefs) Sample.pageWorld).2.2.fs, 296⟩) hA (fun _ _ => rfl)
  obtain ⟨now, hnow, hrest⟩ := C118_two_partial Sample.envC Sample.caching Sample.nestKnown Sample.nest_separate 5 _ _ _ hO Sample.no_entries
    Sample.pageSite (startMem [(c!"x", .str c!"B")] Sample.pageDefs) _ _ _ _ _ _ _ _ (.inl rfl) (Sample.clock_close (by decide +kernel))
  refine ⟨_, _, hO, by decide +kernel, by decide +kernel, now, hnow, ?_, hrest⟩
  rw [hnow]
  decide +kernel

end Nts
