import Verif.Spec.Holes
import Verif.Props.Nest
import Verif.Props.Only
import Verif.Props.InCache
import Verif.Props.CacheOff
import Verif.Props.Answer
import Verif.Props.Second
/-
C119: excluded parts of cached parts.
-/
set_option autoImplicit false
namespace Nts
open Spec

mutual
/-- Depth of nesting. -/
def itemDepth : Item → Nat
  | .plain l => depthAll l
  | .cached _ _ _ body => itemsDepth body + 1
  | .hole body => itemsDepth body + 1
/-- The largest. -/
def itemsDepth : List Item → Nat
  | [] => 0
  | x :: l => max (itemDepth x) (itemsDepth l)
end

/-! Texts. -/

theorem hole_trim (l : List Item) : trim (holeText l) = holeText l := by
  have e : holeText l = ('{' :: ':' :: (c!"!cache;" ++ (c!" " ++ printItems l ++ c!" ") ++ c!":")) ++ ['}'] := by simp [holeText, bifText]
  rw [e]
  unfold trim
  rw [show trimStart (('{' :: ':' :: (c!"!cache;" ++ (c!" " ++ printItems l ++ c!" ") ++ c!":")) ++ ['}']) =
    ('{' :: ':' :: (c!"!cache;" ++ (c!" " ++ printItems l ++ c!" ") ++ c!":")) ++ ['}'] by simp [trimStart, isWs], trimEnd_last (by decide)]

mutual
theorem item_good {S : Site} {al : Str} : ∀ (x : Item), x.Ok S al → ∀ (k : Str), Cont k →
    Good k x.print ∧ Cont (x.print ++ k) ∧ Skips c!"*" x.print
  | .plain l, h, k, hk => by
    simp only [Item.Ok] at h
    simp only [Item.print]
    exact ⟨good_all l h k hk, cont_all h hk, skips_all (.inr rfl) l h⟩
  | .cached e i o body, h, k, hk => by
    simp only [Item.Ok] at h
    obtain ⟨he, hi, ho, hb⟩ := h
    have hc := args_chars he hi ho
    have g := items_good body hb
    simp only [Item.print]
    refine ⟨good_isBif ?_, cont_bif _ _ _ _, ?_⟩
    · refine isBif_text (by decide) (by decide) (by decide) ?_ (by simp)
      refine bal_src (a := c!" " ++ (c!"/" ++ e ++ c!"/" ++ i ++ c!"/" ++ o ++ c!"/") ++ c!" >> ") ?_ ?_ ?_ (g _ (cont_blank _)).1
      · exact not_mem_append (not_mem_append (by decide) (fun h => (hc _ h).1 rfl)) (by decide)
      · exact not_mem_append (not_mem_append (by decide) (fun h => (hc _ h).2.1 rfl)) (by decide)
      · have := (g [] cont_nil).2.1
        simpa using this
    · refine skips_bif ?_ (skips_append (skips_append (skips_noBrace ?_) (g [] cont_nil).2.2) (skips_noBrace (by decide)))
      · intro k hk
        simpa [List.infix_cons_iff, List.cons_prefix_cons] using hk
      · exact not_mem_append (not_mem_append (by decide) (fun h => (args_chars he hi ho _ h).1 rfl)) (by decide)
  | .hole body, h, k, hk => by
    simp only [Item.Ok] at h
    have g := items_good body h
    simp only [Item.print]
    refine ⟨good_isBif ?_, cont_bif _ _ _ _, ?_⟩
    · refine isBif_text (by decide) (by decide) (by decide) ?_ (by simp)
      exact bal_src (a := c!" ") (by decide) (by decide) (by simpa using (g [] cont_nil).2.1) (g _ (cont_blank _)).1
    · refine skips_bif ?_ (skips_append (skips_append (skips_noBrace (by decide)) (g [] cont_nil).2.2) (skips_noBrace (by decide)))
      intro k hk
      simpa [List.infix_cons_iff, List.cons_prefix_cons] using hk
theorem items_good {S : Site} {al : Str} : ∀ (l : List Item), ItemsOk S al l → ∀ (k : Str), Cont k →
    Good k (printItems l) ∧ Cont (printItems l ++ k) ∧ Skips c!"*" (printItems l)
  | [], _, k, hk => by
    simp only [printItems]
    exact ⟨.nil _, by simpa using hk, fun k hk => hk⟩
  | x :: l, h, k, hk => by
    simp only [ItemsOk] at h
    obtain ⟨g1, g2, g3⟩ := items_good l h.2 k hk
    obtain ⟨h1, h2, h3⟩ := item_good x h.1 (printItems l ++ k) g2
    simp only [printItems]
    exact ⟨good_append h1 g1, by simpa using h2, skips_append h3 g3⟩
end

theorem hole_isBif {S : Site} {l : List Item} (h : ItemsOk S c!"cache" l) : IsBif (holeText l) := by
  have g := items_good l h
  unfold holeText
  refine isBif_text (by decide) (by decide) (by decide) ?_ (by simp)
  exact bal_src (a := c!" ") (by decide) (by decide) (by simpa using (g [] cont_nil).2.1) (g _ (cont_blank _)).1

theorem parts_items {S : Site} {al : Str} {l : List Item} (h : ItemsOk S al l) :
    Parts (c!" " ++ printItems l ++ c!" ") none (trim (printItems l)) := by
  have hb : ∀ x ∈ (c!" " : Str), isWs x = true := by intro x hx; simp at hx; subst hx; decide
  have e : trim (c!" " ++ printItems l ++ c!" ") = trim (printItems l) := by
    rw [List.append_assoc, trim_outer hb hb]
  have := Parts.code (src := c!" " ++ printItems l ++ c!" ") (by
    rw [e]; exact good_noSep (good_trim (items_good l h [] cont_nil).1))
  rwa [e] at this

theorem item_isBif {S : Site} {al e i o : Str} {body : List Item} (h : (Item.cached e i o body).Ok S al) :
    IsBif (Item.cached e i o body).print := by
  simp only [Item.Ok] at h
  obtain ⟨he, hi, ho, hb⟩ := h
  have hc := args_chars he hi ho
  have g := items_good body hb
  simp only [Item.print]
  refine isBif_text (by decide) (by decide) (by decide) ?_ (by simp)
  refine bal_src (a := c!" " ++ (c!"/" ++ e ++ c!"/" ++ i ++ c!"/" ++ o ++ c!"/") ++ c!" >> ") ?_ ?_ ?_ (g _ (cont_blank _)).1
  · exact not_mem_append (not_mem_append (by decide) (fun h => (hc _ h).1 rfl)) (by decide)
  · exact not_mem_append (not_mem_append (by decide) (fun h => (hc _ h).2.1 rfl)) (by decide)
  · have := (g [] cont_nil).2.1
    simpa using this

/-- Parts without BIFs are their text. -/
theorem text_items (env : Env) (S : Site) (C : Caching) (al : Str) (c : Bool) : ∀ (l : List Item), ¬ c!"{:" <:+: printItems l → ∀ m w,
    itemsMean env S C al c l m w = (printItems l, m, w)
  | [], _, m, w => by simp [itemsMean, printItems]
  | x :: l, h, m, w => by
    simp only [printItems] at h
    have hl : ¬ c!"{:" <:+: printItems l := fun hx => h (hx.trans ⟨x.print, [], by simp⟩)
    have hx : ¬ c!"{:" <:+: x.print := fun hx => h (hx.trans ⟨[], printItems l, by simp⟩)
    cases x with
    | plain t =>
      simp only [Item.print] at hx
      simp only [itemsMean, Item.means, printItems, Item.print, text_means S al t hx, text_items env S C al c l hl]
    | cached e i o b => exact absurd ⟨[], _, by simp only [Item.print, bifText, List.append_assoc]; rfl⟩ hx
    | hole l => exact absurd ⟨[], _, by simp only [Item.print, bifText, List.append_assoc]; rfl⟩ hx

theorem holeIn_mono {run : Mem → World → Str × Mem × World} (h : MonoIn run) : MonoIn (holeIn run) := by
  intro m w
  exact Nat.le_trans (Nat.le_succ _) (h { m with bifs := m.bifs + 1 } w)

mutual
theorem item_mono (env : Env) (S : Site) (C : Caching) : ∀ (x : Item) (al : Str) (c : Bool), MonoIn (x.means env S C al c)
  | .plain l, al, c, m, w => by
    simp only [Item.means]
    exact mono_all S l al m
  | .cached e i o body, al, c, m, w => by
    simp only [Item.means]
    exact Nat.le_trans (Nat.le_succ _) (cachedIn_mono (items_mono env S C body c!"cache" _) { m with bifs := m.bifs + 1 } w)
  | .hole l, al, c, m, w => by
    simp only [Item.means]
    split
    · exact Nat.le_succ _
    · exact holeIn_mono (items_mono env S C l c!"cache" false) m w
theorem items_mono (env : Env) (S : Site) (C : Caching) : ∀ (l : List Item) (al : Str) (c : Bool), MonoIn (itemsMean env S C al c l)
  | [], al, c, m, w => by simp only [itemsMean]; exact Nat.le_refl _
  | x :: l, al, c, m, w => by
    simp only [itemsMean]
    exact Nat.le_trans (item_mono env S C x al c m w) (items_mono env S C l al c _ _)
end

/-! Evaluation. -/

/-- `run` is what evaluating `text` does, with the files and the clock, in a part that is being stored (or not). -/
def SoundAt (env : Env) (S : Site) (C : Caching) (exps : List Str) (sc : Obj) (c : Bool) (text al : Str) (run : Mem → World → Str × Mem × World)
    (d : Nat) : Prop :=
  ∀ (sh0 : Shared), sh0.exit = false → SiteOf env sh0 S → CachingOf sh0 C → Spec.Sane env exps sh0.w →
    ∀ (n : Nat) (m : Mem) (sh : Shared) (inh : Inherit) (b : Nat), d ≤ n → inh.inCache = c → After S sh0 sc m b al sh inh → (run m sh0.w).2.1.bifs ≤ sh0.max →
    ∃ sh' inh', Produces env (runBlocks env n) [] text sh inh true (run m sh0.w).1 sh' inh' ∧
      After S (inWorld sh0 (run m sh0.w).2.2) sc (run m sh0.w).2.1 b al sh' inh' ∧ Kept b sh sh' ∧
      SiteOf env (inWorld sh0 (run m sh0.w).2.2) S ∧ Spec.Sane env exps (run m sh0.w).2.2

/-- A block of parts is evaluated to what it means. -/
theorem soundAt_block {env : Env} {S : Site} {C : Caching} {exps : List Str} {sc : Obj} {text t : Str} {run : Mem → World → Str × Mem × World}
    {d n : Nat} {c : Bool} {name al : Str} (hs : SoundAt env S C exps sc c text name run d) (hgood : Good [] t) (ht : t = trim text) {sh0 : Shared}
    (hexit : sh0.exit = false) (hS : SiteOf env sh0 S) (hC : CachingOf sh0 C) (hsane : Spec.Sane env exps sh0.w) {m : Mem} {sh : Shared}
    {inh : Inherit} {b : Nat} (hn : d < n) (hc : inh.inCache = c) (ha : After S sh0 sc m b al sh inh) (hmax : (blockIn run m sh0.w).2.1.bifs ≤ sh0.max) :
    ∃ sh', block (runBlocks env n) false sh inh name t [] = .ok (blockIn run m sh0.w).1 sh' inh ∧
      After S (inWorld sh0 (blockIn run m sh0.w).2.2) sc (blockIn run m sh0.w).2.1 b al sh' inh ∧ Kept b sh sh' ∧
      SiteOf env (inWorld sh0 (blockIn run m sh0.w).2.2) S ∧ Spec.Sane env exps (blockIn run m sh0.w).2.2 := by
  obtain ⟨n, rfl⟩ : ∃ k, n = k + 1 := ⟨n - 1, by omega⟩
  obtain ⟨sh1, inh1, h1, h2, h3, h6, h7⟩ := hs sh0 hexit hS hC hsane n m sh (inside name inh) (b + 1) (by omega) hc
      ⟨ha.hold, ha.last, ha.lastC, rfl, inside_level ha.level name, ha.sees, ha.params, ha.snippets, ha.declared⟩ hmax
  subst ht
  obtain ⟨z, h4, h5⟩ := produces_trim h1
  obtain ⟨l, hwf⟩ := good_wf hgood rfl 0
  have hp := (C68_blocks env n sh sh1 (inside name inh) inh1 (trim text) [] (ended true z) l hwf).2 ⟨true, z, h4, rfl⟩
  have hf := dropBlock_forgets sh1 inh1
  rw [h2.level.count] at hf
  have hk : ∀ j, j < b + 1 → (dropBlock sh1 inh1).indir (blockId j) = sh.indir (blockId j) := by
    intro j hj
    rw [hf.others _ (fun he => by have := blockId_inj he; omega), h3 j hj]
  refine ⟨dropBlock sh1 inh1, ?_, ?_, fun j hj => hk j (by omega), h6, h7⟩
  · rw [block_eval, hp]
    simp only [ended, if_true, h5]
    rfl
  · obtain ⟨f, hf'⟩ := dropBlock_sh sh1 inh1
    refine ⟨(h2.hold.other (m' := (blockIn run m sh0.w).2.1) rfl rfl).indir (by rw [hf']), ha.last, ha.lastC, ha.alias, ha.level, ?_,
      ha.params, ha.snippets, ha.declared⟩
    obtain ⟨j, hj1, hj2, hj3⟩ := ha.level.block
    have hs := ha.sees
    rw [hj3] at hs ⊢
    rw [hk j (by omega), hs]
    rfl

/-- The code of a cached part, shown. -/
theorem soundAt_shown {env : Env} {S : Site} {C : Caching} {exps : List Str} {sc : Obj} {body : List Item} {c : Bool} {al : Str} {d n : Nat}
    (hs : SoundAt env S C exps sc c (printItems body) c!"cache" (itemsMean env S C c!"cache" c body) d) (hok : ItemsOk S c!"cache" body)
    {sh0 : Shared} (hexit : sh0.exit = false) (hS : SiteOf env sh0 S) (hC : CachingOf sh0 C) (hsane : Spec.Sane env exps sh0.w) {m : Mem}
    {sh : Shared} {inh : Inherit} {b : Nat} (hn : d < n) (hc : inh.inCache = c) (ha : After S sh0 sc m b al sh inh)
    (hmax : (blockIn (itemsMean env S C c!"cache" c body) m sh0.w).2.1.bifs ≤ sh0.max) :
    ∃ sh', nested (runBlocks env n) false sh inh c!"cache" (trim (printItems body)) [] =
        .ok (blockIn (itemsMean env S C c!"cache" c body) m sh0.w).1 sh' inh ∧
      After S (inWorld sh0 (blockIn (itemsMean env S C c!"cache" c body) m sh0.w).2.2) sc
        (blockIn (itemsMean env S C c!"cache" c body) m sh0.w).2.1 b al sh' inh ∧ Kept b sh sh' ∧
      SiteOf env (inWorld sh0 (blockIn (itemsMean env S C c!"cache" c body) m sh0.w).2.2) S ∧
      Spec.Sane env exps (blockIn (itemsMean env S C c!"cache" c body) m sh0.w).2.2 := by
  by_cases ho : c!"{:" <:+: trim (printItems body)
  · rw [nested_block ho]
    exact soundAt_block hs (good_trim (items_good body hok [] cont_nil).1) rfl hexit hS hC hsane hn hc ha hmax
  · rw [nested_plain ho]
    have e := text_items env S C c!"cache" c body (noOpen_trim ho) m sh0.w
    have e2 : blockIn (itemsMean env S C c!"cache" c body) m sh0.w = (trim (printItems body), m, sh0.w) := by
      simp only [blockIn, e]
    rw [e2]
    exact ⟨sh, rfl, ha, .refl _ _, hS, hsane⟩

theorem item_file {env : Env} {S : Site} {C : Caching} {sh0 sh : Shared} {sc : Obj} {m : Mem} (hS : SiteOf env sh0 S) (hC : CachingOf sh0 C)
    (hh : Holding sh0 sc m sh) (e i o : Str) (body : List Item) :
    CacheBlock.file env sh (counted sh) (trim (printItems body)) [[], e, i, o, []] e = itemFile env S C m.data e i o body := by
  have := file_eq hS hC hh e i o [.text (printItems body)]
  unfold fileOf at this
  rw [printAll_text] at this
  exact this

/-- What a cached part does. -/
theorem item_run {env : Env} {S : Site} {C : Caching} {exps : List Str} {sc : Obj} (hW : Writable env) (hap : NotEntries env S C)
    {e i o : Str} {body : List Item} {d : Nat} (he : ArgOk e) (hi : ArgOk i) (ho : ArgOk o) (hb : ItemsOk S c!"cache" body) (hex : e ∈ exps)
    {c : Bool}
    (ih : ∀ q, SoundAt env S C exps sc q (printItems body) c!"cache" (itemsMean env S C c!"cache" q body) d) {al : Str}
    {sh0 : Shared} (hexit : sh0.exit = false) (hS : SiteOf env sh0 S) (hC : CachingOf sh0 C) (hsane : Spec.Sane env exps sh0.w)
    {n : Nat} {m : Mem} {sh : Shared} {inh : Inherit} {b : Nat} (hd : d < n) (hic : inh.inCache = c) (ha : After S sh0 sc m b al sh inh) (hcnt : sh.count < sh.max)
    (hmax : (cachedIn env C e (itemFile env S C m.data e i o body) (itemsMean env S C c!"cache" (c || decide (C.on m.data)) body) { m with bifs := m.bifs + 1 } sh0.w).2.1.bifs
      ≤ sh0.max) :
    ∃ r sh' inh', r = cachedIn env C e (itemFile env S C m.data e i o body) (itemsMean env S C c!"cache" (c || decide (C.on m.data)) body) { m with bifs := m.bifs + 1 } sh0.w ∧
      runBif env (runBlocks env n) sh inh (Item.cached e i o body).print [] = finish false r.1 sh' inh' ∧
      After S (inWorld sh0 r.2.2) sc r.2.1 b al sh' inh' ∧ Kept b (counted sh) sh' ∧ SiteOf env (inWorld sh0 r.2.2) S ∧ Spec.Sane env exps r.2.2 := by
  have hc := ha.counted
  have hfile := item_file (C := C) hS hC ha.hold e i o body
  have hw : (counted sh).w = sh0.w := by rw [hc.hold]
  -- evaluating the code in a world with the same files
  have hsh : ∀ (w : World) (x : Bool), w.fs = sh0.w.fs →
      (blockIn (itemsMean env S C c!"cache" x body) { m with bifs := m.bifs + 1 } w).2.1.bifs ≤ sh0.max →
      ∃ sh2, nested (runBlocks env n) false (inWorld (counted sh) w) { entered sh inh with inCache := x } c!"cache" (trim (printItems body)) [] =
          .ok (blockIn (itemsMean env S C c!"cache" x body) { m with bifs := m.bifs + 1 } w).1 sh2 { entered sh inh with inCache := x } ∧
        After S (inWorld sh0 (blockIn (itemsMean env S C c!"cache" x body) { m with bifs := m.bifs + 1 } w).2.2) sc
          (blockIn (itemsMean env S C c!"cache" x body) { m with bifs := m.bifs + 1 } w).2.1 b al sh2 (entered sh inh) ∧
        Kept b (counted sh) sh2 ∧ SiteOf env (inWorld sh0 (blockIn (itemsMean env S C c!"cache" x body) { m with bifs := m.bifs + 1 } w).2.2) S ∧
        Spec.Sane env exps (blockIn (itemsMean env S C c!"cache" x body) { m with bifs := m.bifs + 1 } w).2.2 := by
    intro w x hfs hb'
    obtain ⟨sh2, h1, h2, h3, h4, h5⟩ := soundAt_shown (ih x) hb (sh0 := inWorld sh0 w) hexit (siteOf_fs hS hfs) (hC.world w)
      ⟨by rw [show (inWorld sh0 w).w.fs = sh0.w.fs from hfs]; exact hsane.readable,
        by rw [show (inWorld sh0 w).w.fs = sh0.w.fs from hfs]; exact hsane.files, hsane.clock⟩ hd rfl ((hc.world w).inCache x) hb'
    exact ⟨sh2, h1, h2.inCache inh.inCache, h3, h4, h5⟩
  unfold cachedIn at hmax ⊢
  by_cases hon : C.on m.data
  · rw [if_pos hon] at hmax ⊢
    rw [decide_eq_true hon, Bool.or_true] at hmax ⊢
    have hblk := cacheBlock_part (R := runBlocks env n) (inh := inh) (l := [.text (printItems body)]) he hi ho hcnt ((cacheOn_iff hC ha.hold).2 hon)
    rw [printAll_text] at hblk
    have miss : ∀ w : World, w.fs = sh0.w.fs →
        Missing env (counted sh) (CacheBlock.file env sh (counted sh) (trim (printItems body)) [[], e, i, o, []] e) e (inWorld (counted sh) w) →
        (blockIn (itemsMean env S C c!"cache" true body) { m with bifs := m.bifs + 1 } w).2.1.bifs ≤ sh0.max →
        ∃ r sh' inh', r = blockIn (itemsMean env S C c!"cache" true body) { m with bifs := m.bifs + 1 } w ∧
          runBif env (runBlocks env n) sh inh (Item.cached e i o body).print [] = finish false r.1 sh' inh' ∧
          After S (inWorld sh0 (storedIn env r.2.2 (itemFile env S C m.data e i o body) r.1)) sc r.2.1 b al sh' inh' ∧ Kept b (counted sh) sh' ∧
          SiteOf env (inWorld sh0 (storedIn env r.2.2 (itemFile env S C m.data e i o body) r.1)) S ∧
          Spec.Sane env exps (storedIn env r.2.2 (itemFile env S C m.data e i o body) r.1) := by
      intro w hfs hmiss hb'
      obtain ⟨sh2, h1, h2, h3, h4, h5⟩ := hsh w true hfs hb'
      generalize hr : blockIn (itemsMean env S C c!"cache" true body) { m with bifs := m.bifs + 1 } w = r at h1 h2 h4 h5
      have hw2 : sh2.w = r.2.2 := by rw [h2.hold]; rfl
      have := C38_miss env _ sh (counted sh) _ sh2 inh _ [] _ [] _ e _ _ hblk hmiss h1 (hW.dirs _ _) (hW.files _ _) (hW.write _ _)
      rw [Item.print]
      refine ⟨r, _, _, rfl, this, ?_, h3, ?_, ?_⟩
      · have h2 := h2.world (storedIn env r.2.2 (itemFile env S C m.data e i o body) r.1)
        rw [hfile, show stored (ticked sh2) (itemFile env S C m.data e i o body) r.1 (env.now sh2.w.tick) =
            inWorld sh2 (storedIn env r.2.2 (itemFile env S C m.data e i o body) r.1) by
          unfold stored ticked inWorld storedIn
          rw [hw2]]
        exact h2
      · exact siteOf_stored (sh0 := inWorld sh0 r.2.2) h4 hap rfl
      · exact sane_stored h5 rfl
    cases hfs : sh0.w.fs (itemFile env S C m.data e i o body) with
    | none =>
      have f1 : freshIn env e (itemFile env S C m.data e i o body) sh0.w = none := by unfold freshIn; rw [hfs]
      have f2 : looked (itemFile env S C m.data e i o body) sh0.w = sh0.w := by unfold looked; rw [hfs]
      rw [f1, f2] at hmax
      rw [f1, f2]
      dsimp only at hmax ⊢
      obtain ⟨r, sh', inh', rfl, h1, h2, h3, h4, h5⟩ := miss sh0.w rfl (by
        have : inWorld (counted sh) sh0.w = counted sh := by unfold inWorld; rw [← hw]
        rw [this]
        exact .absent (by rw [hfile, hw]; exact hfs)) hmax
      exact ⟨_, sh', inh', rfl, h1, h2, h3, h4, h5⟩
    | some en =>
      have f2 : looked (itemFile env S C m.data e i o body) sh0.w = ⟨sh0.w.fs, sh0.w.tick + 1⟩ := by unfold looked; rw [hfs]
      have hfit := hsane.files _ _ e hfs hex
      by_cases hx : en.mtime + lifetime e < env.now sh0.w.tick
      · have f1 : freshIn env e (itemFile env S C m.data e i o body) sh0.w = none := by unfold freshIn; rw [hfs]; simp only [if_pos hx]
        rw [f1, f2] at hmax
        rw [f1, f2]
        dsimp only at hmax ⊢
        obtain ⟨r, sh', inh', rfl, h1, h2, h3, h4, h5⟩ := miss ⟨sh0.w.fs, sh0.w.tick + 1⟩ rfl (by
          have : inWorld (counted sh) ⟨sh0.w.fs, sh0.w.tick + 1⟩ = ticked (counted sh) := by unfold inWorld ticked; rw [hw]
          rw [this]
          exact .expired en (by rw [hfile, hw]; exact hfs) hfit (by rw [hw]; exact hx)) hmax
        exact ⟨_, sh', inh', rfl, h1, h2, h3, h4, h5⟩
      · obtain ⟨t, ht⟩ := hsane.readable _ _ hfs
        have f1 : freshIn env e (itemFile env S C m.data e i o body) sh0.w = some t := by
          unfold freshIn; rw [hfs]; simp only [if_neg hx, ht, Option.getD_some]
        rw [f1, f2]
        dsimp only
        have := C38_hit env (runBlocks env n) sh (counted sh) inh [] _ [] _ e t _ en hblk (by rw [hfile, hw]; exact hfs) ht hfit
          (by rw [hw]; omega)
        refine ⟨_, ticked (counted sh), entered sh inh, rfl, by rw [Item.print]; exact this, ?_, .refl _ _, siteOf_fs hS rfl,
          ⟨hsane.readable, hsane.files, hsane.clock⟩⟩
        have := hc.world ⟨sh0.w.fs, sh0.w.tick + 1⟩
        rw [show ticked (counted sh) = inWorld (counted sh) ⟨sh0.w.fs, sh0.w.tick + 1⟩ by unfold inWorld ticked; rw [hw]]
        exact this
  · rw [if_neg hon] at hmax ⊢
    rw [decide_eq_false hon, Bool.or_false, ← hic] at hmax ⊢
    obtain ⟨dl, r, h1, h2, rfl⟩ := Part.src_parts (l := [.text (printItems body)]) he hi ho
    rw [printAll_text] at h1
    have := C75_off env (runBlocks env n) sh inh [] _ [] _ _ (by unfold Mods; simp) (by simp) (by simp) (by simp) hcnt (.inl rfl) h1 (by
      rw [Option.getD_some, h2]
      intro hx
      exact (args_chars he hi ho '{' (hx.subset (by simp))).1 rfl) (fun h => hon ((cacheOn_iff hC ha.hold).1 h))
    obtain ⟨sh2, h3, h4, h5, h6, h7⟩ := hsh sh0.w inh.inCache rfl hmax
    have e1 : inWorld (counted sh) sh0.w = counted sh := by unfold inWorld; rw [← hw]
    rw [e1] at h3
    refine ⟨_, sh2, entered sh inh, rfl, ?_, h4, h5, h6, h7⟩
    rw [Item.print]
    refine this.trans ?_
    unfold shown
    rw [show decide ('+' ∈ ([] : Str)) = false from rfl]
    rw [show nested (runBlocks env n) false (counted sh) (entered sh inh) c!"cache" (trim (printItems body)) [] = _ from h3]
    rfl

/-! ### The second pass -/

/-- **C119 (carried).** For every code, every state and every selection `only` of BIFs: what evaluates without errors when all BIFs are
evaluated evaluates in the same way — same text, same data, same everything — in the pass over the page that evaluates only the
excluded parts, once it is inside one of them.  (The excluded part of the page of the example for C119_render meets the premises: `hole_run`.) -/
theorem C119_carried (env : Env) (n : Nat) (only : Str) (scope : Bool) (sh sh' : Shared) (inh inh' : Inherit) (name text x : Str)
    (hin : inh.inOnly = true) (h : evaluated (runBlocks env n) scope sh inh name text [] = .ok x sh' inh') (he : sh'.hasError = false) :
    evaluated (runBlocks env n) scope sh inh name text only = .ok x sh' inh' := by
  have hpar : ∀ (sh : Shared) (inh : Inherit) (x : Str) (sh' : Shared) (inh' : Inherit), inh.inOnly = true →
      parseSrc (runBlocks env n) sh inh text [] = .ok x sh' inh' → sh'.hasError = false →
      parseSrc (runBlocks env n) sh inh text only = .ok x sh' inh' := by
    intro sh inh x sh' inh' hi h he
    unfold parseSrc at h ⊢
    split at h
    · exact h
    · exact carried only env n _ _ _ _ _ _ _ hi h he
  unfold evaluated runChild at h ⊢
  dsimp only at h ⊢
  have hci : ∀ o, childInherit ⟨sh, inh, { BifS.new with alias := name }, [], o⟩ = childInherit ⟨sh, inh, { BifS.new with alias := name }, [], []⟩ :=
    fun _ => rfl
  rw [hci only]
  generalize hp : (if scope = true then createBlockSchema sh inh else (sh, inh)) = p at h ⊢
  cases hr : parseSrc (runBlocks env n) p.1 (childInherit ⟨sh, inh, { BifS.new with alias := name }, [], []⟩) text [] with
  | panic q => rw [hr] at h; simp at h
  | oof => rw [hr] at h; simp at h
  | ok y sh2 inh2 =>
    rw [hr] at h
    have he2 : sh2.hasError = false := by
      simp only [PRes.ok.injEq] at h
      obtain ⟨f, hf⟩ := dropBlock_sh (if scope = true then updateIndir sh2 inh2.indir p.2.indir else sh2) inh2
      rw [hf] at h
      rw [← h.2.1] at he
      cases scope
      · exact he
      · simp only [if_true, updateIndir] at he
        split at he <;> exact he
    rw [hpar _ (childInherit ⟨sh, inh, { BifS.new with alias := name }, [], []⟩) _ _ _ hin hr he2]
    exact h

/-- What an excluded part does, where it is evaluated. -/
theorem hole_run {env : Env} {S : Site} {C : Caching} {exps : List Str} {sc : Obj} {body : List Item} {d : Nat} (hok : ItemsOk S c!"cache" body)
    (ih : SoundAt env S C exps sc false (printItems body) c!"cache" (itemsMean env S C c!"cache" false body) d) {al : Str}
    {sh0 : Shared} (hexit : sh0.exit = false) (hS : SiteOf env sh0 S) (hC : CachingOf sh0 C) (hsane : Spec.Sane env exps sh0.w)
    {n : Nat} {m : Mem} {sh : Shared} {inh : Inherit} {b : Nat} (hd : d < n) (hic : inh.inCache = false) (ha : After S sh0 sc m b al sh inh)
    (hmax : (holeIn (itemsMean env S C c!"cache" false body) m sh0.w).2.1.bifs ≤ sh0.max) :
    ∃ r sh' inh', r = holeIn (itemsMean env S C c!"cache" false body) m sh0.w ∧
      runBif env (runBlocks env n) sh inh (holeText body) [] = .ok r.1 sh' inh' ∧
      After S (inWorld sh0 r.2.2) sc r.2.1 b al sh' inh' ∧ Kept b sh sh' ∧ SiteOf env (inWorld sh0 r.2.2) S ∧ Spec.Sane env exps r.2.2 := by
  have hc := ha.counted
  have hmono := items_mono env S C body c!"cache" false { m with bifs := m.bifs + 1 } sh0.w
  have hcnt : sh.count < sh.max := by
    rw [ha.hold]
    show m.bifs < sh0.max
    have h2 : (itemsMean env S C c!"cache" false body { m with bifs := m.bifs + 1 } sh0.w).2.1.bifs ≤ sh0.max := hmax
    simp only at hmono
    omega
  obtain ⟨sh1, h1, h2, h3, h4, h5⟩ := soundAt_block ih (good_trim (items_good body hok [] cont_nil).1) rfl hexit hS hC hsane hd
    (inh := entered sh inh) hic hc hmax
  have := C75_evaluated env (runBlocks env n) sh sh1 inh (entered sh inh) c!"!" _ [] _ _ none (by unfold Mods; decide) (by decide) (by decide)
    (by decide) hcnt (.inl rfl) (parts_items hok) (by decide) hic (h1)
  exact ⟨_, _, _, rfl, this, h2.marked _ _, h3, h4, h5⟩

mutual
/-- What a part does. -/
theorem sound_item {env : Env} {S : Site} {C : Caching} {exps : List Str} {sc : Obj} (hW : Writable env) (hap : NotEntries env S C) :
    ∀ (x : Item) {al : Str} (c : Bool), x.Ok S al → al ≠ c!"coalesce" → (∀ e ∈ x.lives, e ∈ exps) →
      SoundAt env S C exps sc c x.print al (x.means env S C al c) (itemDepth x)
  | .plain l, al, c, hok, hal, hexp => by
    intro sh0 hexit hS hC hsane n m sh inh b hd hic ha hmax
    simp only [Item.Ok] at hok
    simp only [Item.means, Item.print, itemDepth] at hd hmax ⊢
    obtain ⟨sh', inh', h1, h2, h3⟩ := sound_all (env := env) (sc := sc) hexit hS l hok n m sh inh b hd ha hmax
    exact ⟨sh', inh', h1, h2, h3, hS, hsane⟩
  | .hole l, al, c, hok, hal, hexp => by
    intro sh0 hexit hS hC hsane n m sh inh b hd hic ha hmax
    simp only [Item.Ok] at hok
    simp only [itemDepth] at hd
    simp only [Item.means, Item.print] at hmax ⊢
    rw [show bifText c!"!" c!"cache" (c!" " ++ printItems l ++ c!" ") = holeText l from rfl]
    have hx : sh.exit = false := by rw [ha.hold]; exact hexit
    have hal' : ¬ (inh.alias = c!"coalesce" ∧ inh.lastCoalesceOut = true) := by
      rintro ⟨e1, e2⟩
      rw [ha.alias] at e1
      exact hal e1
    cases c with
    | true =>
      rw [if_pos rfl] at hmax ⊢
      have hcnt : sh.count < sh.max := by rw [ha.hold]; exact hmax
      have h1 := C75_excluded env (runBlocks env n) sh inh c!"!" (c!" " ++ printItems l ++ c!" ") [] _ none (by unfold Mods; decide) (by decide)
        (by decide) (by decide) hcnt (.inl rfl) (parts_items hok) (by decide) hic
      have ht : trim (holeText l) = holeText l := hole_trim l
      refine ⟨counted sh, { entered sh inh with lastBifOut := true, lastCoalesceOut := true }, ?_, ha.counted.marked true true,
        .of_eq rfl, hS, hsane⟩
      have h1' : runBif env (runBlocks env n) sh inh (holeText l) [] =
          .ok (holeText l) (counted sh) { entered sh inh with lastBifOut := true, lastCoalesceOut := true } := by
        refine h1.trans ?_
        unfold finish
        rw [show decide ('^' ∈ c!"!") = false from rfl]
        simp only [Bool.false_eq_true, if_false]
        rw [show bifText c!"!" c!"cache" (c!" " ++ printItems l ++ c!" ") = holeText l from rfl, ht]
        have : (holeText l).isEmpty = false := by simp [holeText, bifText]
        rw [this]
        rfl
      have := Produces.evaluated (env := env) (R := runBlocks env n) (only := []) hx (hole_isBif hok) hal' h1' (.nil _ _)
      simpa using this
    | false =>
      rw [if_neg (by decide)] at hmax ⊢
      obtain ⟨r, sh', inh', hr, h1, h2, h3, h4, h5⟩ := hole_run (sc := sc) hok (sound_items (sc := sc) hW hap l false hok (by decide)
        (fun x hx => hexp x (by simpa only [Item.lives] using hx))) hexit hS hC hsane (n := n) (by omega) hic ha hmax
      rw [← hr]
      refine ⟨sh', inh', ?_, h2, h3, h4, h5⟩
      have := Produces.evaluated (env := env) (R := runBlocks env n) (only := []) hx (hole_isBif hok) hal' h1 (.nil _ _)
      simpa using this
  | .cached e i o body, al, c, hok, hal, hexp => by
    intro sh0 hexit hS hC hsane n m sh inh b hd hic ha hmax
    have hbif := item_isBif hok
    simp only [Item.Ok] at hok
    obtain ⟨he, hi, ho, hb⟩ := hok
    simp only [Item.lives, List.mem_cons] at hexp
    have ih := fun q => sound_items (sc := sc) hW hap body q hb (by decide) (fun x hx => hexp x (.inr hx))
    simp only [itemDepth] at hd
    simp only [Item.means] at hmax ⊢
    have hx : sh.exit = false := by rw [ha.hold]; exact hexit
    have hcnt : sh.count < sh.max := by
      have := cachedIn_mono (env := env) (C := C) (e := e) (file := itemFile env S C m.data e i o body)
        (items_mono env S C body c!"cache" (c || decide (C.on m.data))) { m with bifs := m.bifs + 1 } sh0.w
      rw [ha.hold]
      show m.bifs < sh0.max
      simp only at this
      omega
    obtain ⟨r, sh', inh', hr, h1, h2, h3, h4, h5⟩ := item_run hW hap he hi ho hb (hexp e (.inl rfl)) ih hexit hS hC hsane (n := n) (by omega) hic ha
      hcnt hmax
    rw [← hr]
    refine ⟨sh', { inh' with lastBifOut := !r.1.isEmpty, lastCoalesceOut := !r.1.isEmpty }, ?_, h2.marked _ _, h3, h4, h5⟩
    have := Produces.evaluated (env := env) (R := runBlocks env n) (only := []) hx hbif (by
      rintro ⟨e1, e2⟩
      rw [ha.alias] at e1
      exact hal e1) h1 (.nil _ _)
    simpa [finish] using this
/-- What a page does. -/
theorem sound_items {env : Env} {S : Site} {C : Caching} {exps : List Str} {sc : Obj} (hW : Writable env) (hap : NotEntries env S C) :
    ∀ (l : List Item) {al : Str} (c : Bool), ItemsOk S al l → al ≠ c!"coalesce" → (∀ e ∈ livesItems l, e ∈ exps) →
      SoundAt env S C exps sc c (printItems l) al (itemsMean env S C al c l) (itemsDepth l)
  | [], al, c, hok, hal, hexp => by
    intro sh0 hexit hS hC hsane n m sh inh b hd hic ha hmax
    simp only [itemsMean, printItems]
    exact ⟨sh, inh, .nil _ _, ha, .refl _ _, hS, hsane⟩
  | x :: l, al, c, hok, hal, hexp => by
    intro sh0 hexit hS hC hsane n m sh inh b hd hic ha hmax
    simp only [ItemsOk] at hok
    simp only [livesItems, List.mem_append] at hexp
    simp only [itemsDepth] at hd
    simp only [itemsMean, printItems] at hmax ⊢
    obtain ⟨sh1, inh1, h1, ha1, hk1, hS1, hsane1⟩ := sound_item (sc := sc) hW hap x c hok.1 hal (fun e he => hexp e (.inl he)) sh0 hexit hS hC hsane n
      m sh inh b (by omega) hic ha (Nat.le_trans (items_mono env S C l al c _ _) hmax)
    obtain ⟨sh2, inh2, h2, ha2, hk2, hS2, hsane2⟩ := sound_items (sc := sc) hW hap l c hok.2 hal (fun e he => hexp e (.inr he))
      (inWorld sh0 (x.means env S C al c m sh0.w).2.2) hexit hS1 (hC.world _) hsane1 n _ sh1 inh1 b (by omega) ((produces_inCache h1).trans hic)
      ha1 hmax
    refine ⟨sh2, inh2, C68_append h1 rfl (by rw [ha1.hold]; exact hexit) ?_ h2, ha2, hk1.trans hk2, hS2, hsane2⟩
    rintro ⟨r, hr⟩
    have := (items_good l hok.2 [] cont_nil).2.1.1
    rw [← hr] at this
    exact this (by simp)
end

/-! ### The page completed -/

theorem calm_wf {t s : Str} (h : Calm t) (hs1 : s.head? ≠ some ':') (hs2 : s.head? ≠ some '}') : ∀ {p : Nat} {l : List (Nat × Nat)},
    WellFormed (p + t.length) s l → WellFormed p (t ++ s) l := by
  induction t with
  | nil => intro p l hw; simpa using hw
  | cons c t ih =>
    intro p l hw
    obtain ⟨h1, h2⟩ := h
    have h1' : ¬ c!"{:" <:+: t := fun ht => h1 (ht.trans ⟨[c], [], by simp⟩)
    have h2' : ¬ c!":}" <:+: t := fun ht => h2 (ht.trans ⟨[c], [], by simp⟩)
    have key : ∀ a b : Char, s.head? ≠ some b → ¬ [a, b] <:+: c :: t → ¬ [a, b] <+: c :: (t ++ s) := by
      intro a b hb hn hp
      apply hn
      cases t with
      | nil =>
        cases s with
        | nil => simp at hp
        | cons x s =>
          simp only [List.nil_append, List.cons_prefix_cons] at hp
          exact absurd (by simp [hp.2.1]) hb
      | cons x t =>
        simp only [List.cons_append, List.cons_prefix_cons] at hp
        obtain ⟨rfl, rfl, _⟩ := hp
        exact ⟨[], t, by simp⟩
    refine .chr c (key '{' ':' hs1 h1) (key ':' '}' hs2 h2) (ih ⟨h1', h2'⟩ ?_)
    have : p + 1 + t.length = p + (c :: t).length := by simp; omega
    rw [this]
    exact hw

theorem holesText_head (rest : List (List Item × Str)) : (holesText rest).head? ≠ some ':' ∧ (holesText rest).head? ≠ some '}' := by
  cases rest with
  | nil => simp [holesText]
  | cons x rest => obtain ⟨l, t⟩ := x; simp [holesText, holeText, bifText]

theorem holes_wf {S : Site} : ∀ (rest : List (List Item × Str)), (∀ x ∈ rest, ItemsOk S c!"cache" x.1 ∧ Calm x.2) → ∀ p, ∃ l,
    WellFormed p (holesText rest) l
  | [], _, p => ⟨[], .nil p⟩
  | (l, t) :: rest, h, p => by
    obtain ⟨h1, h2⟩ := h (l, t) (by simp)
    obtain ⟨bl, hb⟩ := holes_wf rest (fun x hx => h x (by simp [hx])) (p + (holeText l).length + t.length)
    have hd := holesText_head rest
    exact ⟨_, .block (.inl (hole_isBif h1)) (calm_wf h2 hd.1 hd.2 hb)⟩

/-- Depth of nesting of the excluded parts. -/
def holesDepth : List (List Item × Str) → Nat
  | [] => 0
  | (l, _) :: rest => max (itemsDepth l + 1) (holesDepth rest)

theorem holes_mono (env : Env) (S : Site) (C : Caching) : ∀ (rest : List (List Item × Str)), MonoIn (holesShow env S C rest)
  | [], m, w => Nat.le_refl _
  | (l, t) :: rest, m, w => by
    simp only [holesShow]
    exact Nat.le_trans (holeIn_mono (items_mono env S C l c!"cache" false) m w) (holes_mono env S C rest _ _)

/-- What evaluating the excluded parts does. -/
theorem holes_run {env : Env} {S : Site} {C : Caching} {exps : List Str} {sc : Obj} (hW : Writable env) (hap : NotEntries env S C) {n b : Nat}
    {al : Str} (hal : al ≠ c!"coalesce") : ∀ (rest : List (List Item × Str)),
    (∀ x ∈ rest, ItemsOk S c!"cache" x.1 ∧ (∀ e ∈ livesItems x.1, e ∈ exps) ∧ Calm x.2) → ∀ {sh0 : Shared}, sh0.exit = false → SiteOf env sh0 S →
    CachingOf sh0 C → Spec.Sane env exps sh0.w →
    ∀ {m : Mem} {sh : Shared} {inh : Inherit}, holesDepth rest ≤ n → inh.inCache = false →
    After S sh0 sc m b al sh inh → (holesShow env S C rest m sh0.w).2.1.bifs ≤ sh0.max →
    ∃ sh' inh', Produces env (runBlocks env n) [] (holesText rest) sh inh true (holesShow env S C rest m sh0.w).1 sh' inh' ∧
      After S (inWorld sh0 (holesShow env S C rest m sh0.w).2.2) sc (holesShow env S C rest m sh0.w).2.1 b al sh' inh' ∧
      SiteOf env (inWorld sh0 (holesShow env S C rest m sh0.w).2.2) S ∧ Spec.Sane env exps (holesShow env S C rest m sh0.w).2.2
  | [], _, sh0, _, hS, _, hsane, m, sh, inh, _, _, ha, _ => ⟨sh, inh, .nil _ _, ha, hS, hsane⟩
  | (l, t) :: rest, h, sh0, hexit, hS, hC, hsane, m, sh, inh, hd, hic, ha, hmax => by
    obtain ⟨h1, h2, h3⟩ := h (l, t) (by simp)
    dsimp only at h1 h2 h3
    simp only [holesDepth] at hd
    simp only [holesShow, holesText] at hmax ⊢
    obtain ⟨r, sh1, inh1, hr, g1, g2, _, g4, g5⟩ := hole_run (sc := sc) h1 (sound_items (sc := sc) hW hap l false h1 (by decide) h2) hexit hS hC
      hsane (n := n) (by omega) hic ha (Nat.le_trans (holes_mono env S C rest _ _) hmax)
    rw [← hr] at hmax ⊢
    have hic1 : inh1.inCache = false := (C75_ends env _ _ _ _ _ _ _ _ g1).trans hic
    obtain ⟨sh2, inh2, k1, k2, k3, k4⟩ := holes_run (sc := sc) hW hap (n := n) hal rest (fun x hx => h x (by simp [hx])) (sh0 := inWorld sh0 r.2.2)
      hexit g4 (hC.world _) g5 (by omega) hic1 g2 hmax
    refine ⟨sh2, inh2, .evaluated (by rw [ha.hold]; exact hexit) (hole_isBif h1) ?_ g1 ?_, k2, k3, k4⟩
    · rintro ⟨e1, e2⟩
      rw [ha.alias] at e1
      exact hal e1
    · have hx1 : sh1.exit = false := by rw [g2.hold]; exact hexit
      refine C68_append (produces_text env (runBlocks env n) [] hx1 t h3.1) rfl hx1 ?_ k1
      rintro ⟨r, hr⟩
      have := (holesText_head rest).1
      rw [← hr] at this
      exact this (by simp)

/-- A pass of the render, from what its text produces. -/
theorem pass_produces {env : Env} {filePath raw raw' : Str} {sh0 sh1 : Shared} {inh : Inherit}
    (hinit : initShared env filePath raw sh0 = .ok (raw', sh1, inh)) {sh sh' : Shared} {inh' : Inherit} {text only y : Str} {n : Nat}
    {bl : List (Nat × Nat)} (hn : sh.max + 1 ≤ n) (hcnt : sh.count ≤ sh.max) (hwf : WellFormed 0 text bl)
    (hp : Produces env (runBlocks env n) only text sh { inh with blockCount := inh.blockCount + 1 } true y sh' inh') :
    pass env sh inh text only = .ok (trim y) sh' inh' := by
  have hp := (C68_blocks env _ sh sh' _ inh' text only _ bl hwf).2 ⟨true, _, hp, rfl⟩
  have hne : parseSrc (runBlocks env (sh.max + 1)) sh { inh with blockCount := inh.blockCount + 1 } text only ≠ .oof := by
    unfold parseSrc
    rw [C15_complete _ _ hwf]
    dsimp only
    rcases C19_terminates env (sh.max + 1) sh { inh with blockCount := inh.blockCount + 1 } text only bl hcnt (by omega) with
      ⟨o, s, i, h⟩ | ⟨p, h⟩ <;> (rw [h]; simp)
  have hle := parseSrc_le (fun sh' inh src bs only h => C19_depth env (sh.max + 1) (n + 1) (by omega) sh' inh src only bs h)
    sh { inh with blockCount := inh.blockCount + 1 } _ _ hne
  rw [hle] at hp
  rw [C24_passes hinit, hp]
  rfl

theorem completes_trim {env : Env} {S : Site} {C : Caching} {exps : List Str} {max k : Nat} {x y : Str} {m m' : Mem} {w w' : World}
    (h : Completes env S C exps max x m w k y m' w') (hx : trim x = x) : trim y = y := by
  induction h with
  | done _ => exact hx
  | pass _ _ _ _ _ _ _ _ ih => exact ih (trim_idem _)

/-- The passes that complete a page. -/
theorem completes_run {env : Env} {S : Site} {C : Caching} {exps : List Str} {sc : Obj} (hW : Writable env) (hap : NotEntries env S C)
    {filePath raw raw' : Str} {shi sh1 : Shared} {inh : Inherit} (hinit : initShared env filePath raw shi = .ok (raw', sh1, inh))
    (hexit : sh1.exit = false) (herr : sh1.hasError = false) (hC : CachingOf sh1 C)
    (hlev : AtLevel { inh with blockCount := inh.blockCount + 1 } 1) (hin : inh.inCache = false) (hal : inh.alias = [])
    {k : Nat} {x y : Str} {m m' : Mem} {w w' : World} (h : Completes env S C exps sh1.max x m w k y m' w') :
    ∀ (n : Nat) (sh : Shared), k ≤ n → m.bifs ≤ sh1.max → SiteOf env (inWorld sh1 w) S → Spec.Sane env exps w →
      After S (inWorld sh1 w) sc (again m) 1 [] sh { inh with blockCount := inh.blockCount + 1 } →
      ∃ sh', cacheLoop env inh n sh x = .ok y sh' inh ∧ Holding (inWorld sh1 w') sc m' sh' := by
  induction h with
  | done hne =>
    intro n sh _ _ _ _ ha
    exact ⟨sh, cacheLoop_done env inh n _ _ hne, ha.hold.other rfl rfl⟩
  | @pass m m' w w' k t' first l t rest hfirst hrest hmax _ ih =>
    intro n sh hk hm hS hsane ha
    obtain ⟨n, rfl⟩ : ∃ j, n = j + 1 := ⟨n - 1, by omega⟩
    have hx : sh.exit = false := by rw [ha.hold]; exact hexit
    have hmx : sh.max = sh1.max := by rw [ha.hold]; rfl
    have hcnt : sh.count ≤ sh.max := by rw [hmx, ha.hold]; exact hm
    obtain ⟨sh3, inh3, hq1, hq2, hq3, hq4⟩ := holes_run (env := env) (sc := sc) hW hap (sh0 := inWorld sh1 w) (al := [])
      (n := max (holesDepth ((l, t) :: rest)) (sh.max + 1)) (by decide) ((l, t) :: rest) hrest hexit hS (hC.world _) hsane
      (inh := { inh with blockCount := inh.blockCount + 1 }) (by omega) hin ha hmax
    generalize hq : holesShow env S C ((l, t) :: rest) (again m) w = q at hmax ih hq1 hq2 hq3 hq4
    rw [show (inWorld sh1 w).w = w from rfl, hq] at hq1 hq2 hq3 hq4
    have hq1 := excluded_run hx (by show inh.alias ≠ _; rw [hal]; decide) (hole_isBif (hrest (l, t) (by simp)).1) hq1
      (by rw [hq2.hold]; exact herr) inh.bifCount
    have hd2 := holesText_head ((l, t) :: rest)
    have hq5 := C68_append (produces_text env (runBlocks env (max (holesDepth ((l, t) :: rest)) (sh.max + 1))) c!"!cache" hx first hfirst.1) rfl hx (by
      rintro ⟨r, hr⟩
      have hr : _ = holesText ((l, t) :: rest) := hr
      rw [← hr] at hd2
      exact hd2.1 (by simp)) hq1
    obtain ⟨bl2, hwf2⟩ := holes_wf ((l, t) :: rest) (fun x hx => ⟨(hrest x hx).1, (hrest x hx).2.2⟩) (0 + first.length)
    have hp2 := pass_produces hinit (by omega) hcnt (calm_wf hfirst hd2.1 hd2.2 hwf2) hq5
    obtain ⟨j1, ja, jb, jc⟩ := hq2.level.block
    obtain ⟨j2, ka, kb, kc⟩ := hlev.block
    have hj : inh3.indir = inh.indir := by
      rw [jc, show inh.indir = blockId j2 from kc, show j1 = j2 by omega]
    obtain ⟨sh', h1, h2⟩ := ih n sh3 (by omega) hmax hq3 hq4
      ⟨hq2.hold.other rfl rfl, ha.last, ha.lastC, ha.alias, hlev, by rw [← hj]; exact hq2.sees, hq2.params, hq2.snippets, hq2.declared⟩
    refine ⟨sh', ?_, h2⟩
    unfold cacheLoop
    rw [if_pos ((contains_iff (by decide)).2 ⟨first, c!" " ++ printItems l ++ c!" " ++ c!":}" ++ (t ++ holesText rest), by
      simp [holesText, holeText, bifText]⟩), hp2]
    exact h1

/-! ### C119 -/

/-- **C119 (renders).** For every page of templates, cached parts and excluded parts, nested in any way, every schema, every content of the
cache and every clock.  Let `r` be what evaluating the page gives — where the excluded parts of a part that is being stored, or was
taken from the cache, are still there as they are written.  If its text is a text without BIFs and excluded parts, each followed by such a
text, each of them is evaluated, in order and in its place, with the data and the definitions at the end of the page; and so on as long as there are
excluded parts in the text (`Completes`).  The render prints the text that is so completed; it ends with the data and the number of BIFs after it; and the
entries of the cache are those this leaves.  The premises are those of C85_render. -/
theorem C119_render (env : Env) (n k : Nat) (w w' : World) (t : Tpl) (S : Site) (C : Caching) (l : List Item) (exps : List Str) (sh : Shared)
    (s d defs : Obj) (text : Str) (m' : Mem)
    (hnew : Shared.new env w t.schema = some sh) (hS : SiteOf env sh S) (hC : CachingOf sh C) (hW : Writable env)
    (hap : NotEntries env S C) (hexps : ∀ e ∈ livesItems l, e ∈ exps) (hsane : Spec.Sane env exps w)
    (hok : ItemsOk S [] l) (hraw : t.raw = printItems l) (hb : c!"{:" <:+: printItems l)
    (hs : t.schema = .obj s) (hd : Obj.get? c!"data" s = some (.obj d))
    (hinh : Obj.get? c!"inherit" s = some (.obj defs)) (hdefs : Defs S defs)
    (hmax : (itemsMean env S C [] false l (startMem d defs) w).2.1.bifs ≤ sh.max)
    (hcomp : Completes env S C exps sh.max (trim (itemsMean env S C [] false l (startMem d defs) w).1)
      (itemsMean env S C [] false l (startMem d defs) w).2.1 (itemsMean env S C [] false l (startMem d defs) w).2.2 k text m' w')
    (hk : k ≤ n) :
    ∃ t', t.render env n w = .ok t' ∧ TextResult t' text m'.bifs ∧ t'.shared.schema.index c!"data" = .obj m'.data ∧ t'.shared.w = w' := by
  obtain ⟨hgood, hcont, hskip⟩ := items_good l hok [] cont_nil
  obtain ⟨sh1, inh, s1, hinit, hs1, hd1, hsees, hl, hlc, hal⟩ := init_data hnew ⟨by
    rw [hraw]
    refine C16_unchanged _ (fun hx => ?_)
    have := hskip [] (by simpa using hx)
    exact absurd this.length_le (by decide), hraw⟩ hs hd hinh
  obtain ⟨sc', g, hf⟩ := initShared_frame hinit
  obtain ⟨s1', s2, s3, s4, s5, s6, s7⟩ := sharedNew_start hnew
  have hw0 : sh.w = w := by
    unfold Shared.new at hnew
    dsimp only at hnew
    split at hnew
    · simp only [Option.some.injEq] at hnew
      rw [← hnew]
    · simp at hnew
  have hmx : sh1.max = sh.max := by rw [hf]
  have hcnt : sh1.count = 0 := by rw [hf]; exact s5
  have hex : sh1.exit = false := by rw [hf]; exact s7
  have hw1 : sh1.w = w := by rw [hf]; exact hw0
  have hS1 : SiteOf env sh1 S := by
    refine ⟨hS.F, ?_, ?_, ?_, hS.json, hS.md5, ?_⟩
    · rw [hf]; exact hS.filterAll
    · rw [hf]; exact hS.sanitize
    · rw [hf]; exact hS.lang
    · rw [hf]; exact hS.file
  have hC1 : CachingOf sh1 C := by
    refine ⟨?_, ?_, ?_, ?_, ?_, ?_⟩ <;> rw [hf]
    · exact hC.dir
    · exact hC.pre
    · exact hC.disabled
    · exact hC.post
    · exact hC.get
    · exact hC.cookies
  have hm0 : (⟨startData d, defs, inh.lastBifOut, inh.lastCoalesceOut, sh1.count⟩ : Mem) = startMem d defs := by
    rw [hl, hlc, hcnt]; rfl
  have hsame := Obj.insert_same hd1
  have hh : Holding sh1 s1 (startMem d defs) sh1 := by
    show sh1 = { sh1 with schema := .obj (Obj.insert c!"data" (.obj (startData d)) s1), indir := sh1.indir, count := 0 }
    rw [hsame, ← hs1, ← hcnt]
  have hlev := C24_start hinit
  have hin0 : ({ inh with blockCount := inh.blockCount + 1 } : Inherit).inCache = false := by
    have := initShared_inCache hinit
    exact this
  generalize hr : itemsMean env S C [] false l (startMem d defs) w = r at hmax hcomp
  obtain ⟨sh2, inh2, hp, ha2, hrest2⟩ := sound_items (sc := s1) hW hap l false hok (by decide) (exps := exps) hexps sh1 hex hS1 hC1
    (by rw [hw1]; exact hsane) (max (itemsDepth l) (sh1.max + 1)) (startMem d defs) sh1 { inh with blockCount := inh.blockCount + 1 } 1
    (by omega) hin0 ⟨hh, hl, hlc, hal, hlev, hsees, hdefs.params, hdefs.snippets, hdefs.declared⟩ (by rw [hw1, hr, hmx]; exact hmax)
  rw [hw1, hr] at hp ha2 hrest2
  obtain ⟨bl, hwf⟩ := good_wf hgood rfl 0
  have hp1 := pass_produces hinit (n := max (itemsDepth l) (sh1.max + 1)) (by omega) (by omega) hwf hp
  obtain ⟨j1, ja, jb, jc⟩ := ha2.level.block
  obtain ⟨j2, ka, kb, kc⟩ := hlev.block
  have hj : inh2.indir = inh.indir := by
    rw [jc, show inh.indir = blockId j2 from kc, show j1 = j2 by omega]
  have ha3 : After S (inWorld sh1 r.2.2) s1 (again r.2.1) 1 [] sh2 { inh with blockCount := inh.blockCount + 1 } :=
    ⟨ha2.hold.other rfl rfl, hl, hlc, hal, hlev, by rw [← hj]; exact ha2.sees, ha2.params, ha2.snippets, ha2.declared⟩
  rw [← hmx] at hcomp
  obtain ⟨sh3, hl1, hends⟩ := completes_run hW hap hinit hex (by rw [hf]; exact s6) hC1 hlev hin0 hal hcomp n sh2 hk (by rw [hmx]; exact hmax)
    hrest2.2.1 hrest2.2.2 ha3
  have htr : trim text = text := completes_trim hcomp (trim_idem _)
  have hoth : ∀ k, k ≠ c!"data" → sh3.schema.index k = sh1.schema.index k := by
    intro k hk
    rw [hends, hs1]
    simp only [Value.index, Value.get?]
    rw [Obj.get?_insert_ne _ _ (Ne.symm hk)]
  have hstat : sh3.statusCode = c!"200" := by rw [hends]; show sh1.statusCode = _; rw [hf]; exact s1'
  refine ⟨⟨printItems l, t.filePath, t.schema, sh3, replacements text⟩, ?_, ?_, hends.data, by rw [hends]; rfl⟩
  · have hb' : contains bifOpen t.raw = true := (contains_iff (by decide)).2 (by rw [hraw]; exact hb)
    unfold Tpl.render
    simp only [hb', Bool.not_true, Bool.false_eq_true, if_false]
    unfold renderWith
    rw [hnew]
    simp only
    rw [hinit]
    simp only
    rw [hp1]
    simp only [hl1]
    unfold endsRender
    rw [applyMoveto_empty ((hoth _ (by decide)).trans (initShared_ok hinit).2.1)]
    simp only [Option.map_some]
    have c4 : sh3.redirectJs = [] := by rw [hends]; show sh1.redirectJs = _; rw [hf]; exact s4
    have := C40_three_digits sh3 (replacements text) 2 0 0 (by omega) (by omega) (by omega) hstat
    rw [this, c4]
    simp
  · refine ⟨by show replacements text = replacements (trim text); rw [htr], hstat, ?_, ?_, ?_, ?_, ?_⟩
    · show sh3.statusText = _; rw [hends]; show sh1.statusText = _; rw [hf]; exact s2
    · show sh3.statusParam = _; rw [hends]; show sh1.statusParam = _; rw [hf]; exact s3
    · show sh3.count = _; rw [hends]
    · show sh3.hasError = _; rw [hends]; show sh1.hasError = _; rw [hf]; exact s6
    · show sh3.schema.index c!"__error" = _
      rw [hoth _ (by decide)]; exact (initShared_ok hinit).2.2.1

end Nts
