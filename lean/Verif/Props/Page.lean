import Verif.Spec.Page
import Verif.Props.Lang
import Verif.Props.Cache
import Verif.Props.CacheOff
import Verif.Props.LangUse
/-
C85: pages with cached parts, for all sequences of requests.
-/
set_option autoImplicit false
namespace Nts
open Spec

/-- The settings of the cache in a state. -/
structure Spec.CachingOf (sh0 : Shared) (C : Caching) : Prop where
  dir : sh0.cacheDir = C.dir
  pre : sh0.cachePrefix = C.pre
  disabled : sh0.cacheDisable = C.disabled
  post : sh0.cacheOnPost = C.onPost
  get : sh0.cacheOnGet = C.onGet
  cookies : sh0.cacheOnCookies = C.onCookies

theorem noSlash_split {a : Str} (h : '/' ∉ a) (r : Str) : splitChar '/' (a ++ '/' :: r) = a :: splitChar '/' r := by
  unfold splitChar
  rw [splitCharGo_append '/' [] a _ h, splitCharGo, if_pos rfl]
  simp

theorem argOk_slash {a : Str} (h : ArgOk a) : '/' ∉ a := fun hx => (h _ hx).1 rfl

theorem args_split {e i o : Str} (he : ArgOk e) (hi : ArgOk i) (ho : ArgOk o) :
    splitChar '/' (c!"/" ++ e ++ c!"/" ++ i ++ c!"/" ++ o ++ c!"/") = [[], e, i, o, []] := by
  have h : c!"/" ++ e ++ c!"/" ++ i ++ c!"/" ++ o ++ c!"/" = [] ++ '/' :: (e ++ '/' :: (i ++ '/' :: (o ++ '/' :: []))) := by simp
  rw [h, noSlash_split (by simp), noSlash_split (argOk_slash he), noSlash_split (argOk_slash hi), noSlash_split (argOk_slash ho)]
  rfl

theorem argOk_plain {a : Str} (h : ArgOk a) : ¬ c!"{:" <:+: a := fun hx => (h '{' (hx.subset (by simp))).2.1 rfl

theorem args_chars {e i o : Str} (he : ArgOk e) (hi : ArgOk i) (ho : ArgOk o) :
    ∀ c ∈ c!"/" ++ e ++ c!"/" ++ i ++ c!"/" ++ o ++ c!"/", c ≠ '{' ∧ c ≠ '}' ∧ c ≠ ':' ∧ c ≠ '>' := by
  intro c hc
  simp only [List.mem_append, List.mem_cons, List.not_mem_nil, or_false] at hc
  have : c = '/' ∨ c ∈ e ∨ c ∈ i ∨ c ∈ o := by
    rcases hc with (((((h | h) | h) | h) | h) | h) | h <;> simp [h]
  rcases this with rfl | h | h | h
  · decide
  · exact (he c h).2
  · exact (hi c h).2
  · exact (ho c h).2

theorem argsGive_plain {R : Rec} {name only : Str} (sh : Shared) (inh : Inherit) : ∀ (l : List Str), (∀ a ∈ l, ¬ c!"{:" <:+: a) →
    ArgsGive R name only l sh inh l sh inh
  | [], _ => .nil _ _
  | a :: l, h => .cons (nested_plain (h a (by simp))) (argsGive_plain sh inh l (fun x hx => h x (by simp [hx])))

theorem entry_index (d : Obj) (k : Str) : (Value.obj d).index k = entry d k := rfl

theorem id_eq (env : Env) (S : Site) {sh0 sh : Shared} {m : Mem} {sc : Obj} (hS : SiteOf env sh0 S) (hh : Holding sh0 sc m sh)
    (expires id only code : Str) :
    identification (requestOf env sh (sh.schema.index c!"data") id expires code) only = idOf env S m.data expires id only code := by
  unfold identification idOf
  split
  · rfl
  · have e : sh.lang = S.lang := by rw [hh, hS.lang]
    unfold requestOf Request.text
    rw [hh.data]
    simp only [getFromKey_textOf, shownAs_eq, e, hS.F]
    rfl

theorem Part.src_parts {e i o : Str} {l : List Node} (he : ArgOk e) (hi : ArgOk i) (ho : ArgOk o) :
    ∃ d r, Parts (c!" " ++ (c!"/" ++ e ++ c!"/" ++ i ++ c!"/" ++ o ++ c!"/") ++ c!" >> " ++ printAll l ++ c!" ") (some (d :: r))
        (trim (printAll l)) ∧ d :: r = c!"/" ++ e ++ c!"/" ++ i ++ c!"/" ++ o ++ c!"/" ∧ d = '/' := by
  refine ⟨'/', e ++ c!"/" ++ i ++ c!"/" ++ o ++ c!"/", ?_, by simp, rfl⟩
  have hc := args_chars he hi ho
  have := parts_both (P := c!"/" ++ e ++ c!"/" ++ i ++ c!"/" ++ o ++ c!"/") (B := printAll l) (c := '/')
    (r := e ++ c!"/" ++ i ++ c!"/" ++ o ++ c!"/") (by simp) (by decide) (by
      rw [trim_blankEnd blank_space]
      unfold trim
      rw [show trimStart (c!"/" ++ e ++ c!"/" ++ i ++ c!"/" ++ o ++ c!"/") = (c!"/" ++ e ++ c!"/" ++ i ++ c!"/" ++ o) ++ ['/'] by
        simp [trimStart, isWs], trimEnd_last (by decide)]) (by
      intro k
      refine noSep_plain _ _ ?_
      intro c hx
      rcases List.mem_append.1 hx with h | h
      · exact ⟨(hc c h).1, (hc c h).2.2.1, (hc c h).2.2.2⟩
      · simp only [List.mem_cons, List.not_mem_nil, or_false] at h
        subst h; decide)
  simpa using this

/-- A cached part, in a state. -/
theorem cacheBlock_part {R : Rec} {sh : Shared} {inh : Inherit} {e i o : Str} {l : List Node}
    (he : ArgOk e) (hi : ArgOk i) (ho : ArgOk o) (hcnt : sh.count < sh.max) (hon : CacheOn sh) :
    CacheBlock R sh inh [] (c!" " ++ (c!"/" ++ e ++ c!"/" ++ i ++ c!"/" ++ o ++ c!"/") ++ c!" >> " ++ printAll l ++ c!" ") []
      (trim (printAll l)) [[], e, i, o, []] e (counted sh) where
  modifiers := by unfold Mods; simp
  nofilter := by simp
  noneg := by simp
  noscope := by simp
  budget := hcnt
  selected := .inl rfl
  on := hon
  parts := by
    obtain ⟨d, r, h1, h2, rfl⟩ := Part.src_parts (l := l) he hi ho
    refine ⟨'/', r, h1, ?_, { entered sh inh with inCache := true }, ?_⟩
    · rw [h2]
      intro hx
      exact (args_chars he hi ho '{' (hx.subset (by simp))).1 rfl
    · rw [h2, args_split he hi ho]
      refine argsGive_plain _ _ _ ?_
      intro a ha
      simp only [List.mem_cons, List.not_mem_nil, or_false] at ha
      rcases ha with rfl | rfl | rfl | rfl | rfl
      · simp
      · exact argOk_plain he
      · exact argOk_plain hi
      · exact argOk_plain ho
      · simp
  hasExpires := rfl

/-- Depth of nesting. -/
def Part.depth : Part → Nat
  | .plain l => depthAll l
  | .cached _ _ _ l => depthAll l + 1

/-- The same state in another world. -/
def inWorld (sh : Shared) (w : World) : Shared := { sh with w := w }

theorem Holding.world {sh0 sh : Shared} {sc : Obj} {m : Mem} (h : Holding sh0 sc m sh) (w : World) :
    Holding (inWorld sh0 w) sc m (inWorld sh w) := by
  unfold Holding inWorld at *
  rw [h]

theorem After.world {S : Site} {sh0 sh : Shared} {sc : Obj} {m : Mem} {b : Nat} {al : Str} {inh : Inherit}
    (h : After S sh0 sc m b al sh inh) (w : World) : After S (inWorld sh0 w) sc m b al (inWorld sh w) inh :=
  ⟨h.hold.world w, h.last, h.lastC, h.alias, h.level, h.sees, h.params, h.snippets, h.declared⟩

theorem After.inCache {S : Site} {sh0 sh : Shared} {sc : Obj} {m : Mem} {b : Nat} {al : Str} {inh : Inherit}
    (h : After S sh0 sc m b al sh inh) (x : Bool) : After S sh0 sc m b al sh { inh with inCache := x } :=
  ⟨h.hold, h.last, h.lastC, h.alias, ⟨h.level.count, h.level.block⟩, h.sees, h.params, h.snippets, h.declared⟩

/-- The entries of the cache are not files of the site. -/
theorem siteOf_stored {env : Env} {S : Site} {C : Caching} {sh0 : Shared} {w : World} {text expires x : Str} (hS : SiteOf env sh0 S)
    (hap : NotEntries env S C) (hw : w.fs = sh0.w.fs) :
    SiteOf env (inWorld sh0 (storedIn env w (entryFile env C.dir C.pre text expires) x)) S := by
  refine ⟨hS.F, hS.filterAll, hS.sanitize, hS.lang, hS.json, hS.md5, ?_⟩
  intro path t hp
  obtain ⟨e, canon, h1, h2, h3⟩ := hS.file path t hp
  refine ⟨e, canon, ?_, h2, h3⟩
  simp only [inWorld, storedIn]
  rw [if_neg (by rintro rfl; rw [hap] at hp; simp at hp), hw, h1]

theorem siteOf_fs {env : Env} {S : Site} {sh0 : Shared} {w : World} (hS : SiteOf env sh0 S) (hw : w.fs = sh0.w.fs) :
    SiteOf env (inWorld sh0 w) S :=
  ⟨hS.F, hS.filterAll, hS.sanitize, hS.lang, hS.json, hS.md5, fun path t hp => by simp only [inWorld, hw]; exact hS.file path t hp⟩

theorem sane_stored {env : Env} {exps : List Str} {w w0 : World} {file x : Str} (h : Sane env exps w0) (hw : w.fs = w0.fs) :
    Sane env exps (storedIn env w file x) := by
  refine ⟨?_, ?_, h.clock⟩
  · intro f e he
    simp only [storedIn] at he
    split at he
    · simp only [Option.some.injEq] at he
      exact ⟨x, by rw [← he]⟩
    · rw [hw] at he; exact h.readable f e he
  · intro f e y he hy
    simp only [storedIn] at he
    split at he
    · simp only [Option.some.injEq] at he
      rw [← he]; exact h.clock _ _ hy
    · rw [hw] at he; exact h.files f e y he hy

theorem cacheOn_iff {sh0 sh : Shared} {sc : Obj} {m : Mem} {C : Caching} (hC : CachingOf sh0 C) (hh : Holding sh0 sc m sh) :
    CacheOn sh ↔ C.on m.data := by
  unfold CacheOn Caching.on
  rw [hh.data, show sh.cacheDisable = C.disabled by rw [hh]; exact hC.disabled, show sh.cacheOnPost = C.onPost by rw [hh]; exact hC.post,
    show sh.cacheOnGet = C.onGet by rw [hh]; exact hC.get, show sh.cacheOnCookies = C.onCookies by rw [hh]; exact hC.cookies]

theorem file_eq {env : Env} {S : Site} {C : Caching} {sh0 sh : Shared} {sc : Obj} {m : Mem} (hS : SiteOf env sh0 S) (hC : CachingOf sh0 C)
    (hh : Holding sh0 sc m sh) (e i o : Str) (l : List Node) :
    CacheBlock.file env sh (counted sh) (trim (printAll l)) [[], e, i, o, []] e = fileOf env S C m.data e i o l := by
  unfold CacheBlock.file fileOf
  have h1 : (counted sh).cacheDir = C.dir := by rw [hh]; exact hC.dir
  have h2 : (counted sh).cachePrefix = C.pre := by rw [hh]; exact hC.pre
  have := id_eq env S hS hh e i o (trim (printAll l))
  rw [h1, h2, ← this]
  rfl

/-- What a cached part does. -/
theorem cached_run {env : Env} {S : Site} {C : Caching} {sh0 : Shared} {sc : Obj} (hexit : sh0.exit = false) (hS : SiteOf env sh0 S)
    (hC : CachingOf sh0 C) (hW : Writable env) {exps : List Str} (hsane : Sane env exps sh0.w) {e i o : Str} {l : List Node}
    (he : ArgOk e) (hi : ArgOk i) (ho : ArgOk o) (hl : AllOk S c!"cache" l) (hex : e ∈ exps) {n : Nat} {m : Mem} {sh : Shared} {inh : Inherit}
    {b : Nat} (hd : depthAll l < n) (ha : After S sh0 sc m b [] sh inh) (hcnt : sh.count < sh.max)
    (hmax : (cachedOf env S C e i o l { m with bifs := m.bifs + 1 } sh0.w).2.1.bifs ≤ sh0.max) :
    ∃ r sh' inh', r = cachedOf env S C e i o l { m with bifs := m.bifs + 1 } sh0.w ∧
      runBif env (runBlocks env n) sh inh (Part.cached e i o l).print [] = finish false r.1 sh' inh' ∧
      After S (inWorld sh0 r.2.2) sc r.2.1 b [] sh' inh' ∧ Kept b (counted sh) sh' := by
  have hc := ha.counted
  have hfile := file_eq (C := C) hS hC ha.hold e i o l
  have hw : (counted sh).w = sh0.w := by rw [hc.hold]
  -- evaluating the code in a world with the same files
  have hsh : ∀ (w : World) (x : Bool), w.fs = sh0.w.fs →
      (blockOf false (meansAll S c!"cache" l) { m with bifs := m.bifs + 1 }).2.bifs ≤ sh0.max →
      ∃ sh2, nested (runBlocks env n) false (inWorld (counted sh) w) { entered sh inh with inCache := x } c!"cache" (trim (printAll l)) [] =
          .ok (blockOf false (meansAll S c!"cache" l) { m with bifs := m.bifs + 1 }).1 sh2 { entered sh inh with inCache := x } ∧
        After S (inWorld sh0 w) sc (blockOf false (meansAll S c!"cache" l) { m with bifs := m.bifs + 1 }).2 b [] sh2 (entered sh inh) ∧
        Kept b (counted sh) sh2 := by
    intro w x hfs hb
    obtain ⟨sh2, inh2, h1, h2, h3, _⟩ := sound_shown (plus := false)
      (sound_all (env := env) (sh0 := inWorld sh0 w) (sc := sc) hexit (siteOf_fs hS hfs) l hl) hl hd ((hc.world w).inCache x) hb
    have hi2 := nested_inh h1
    subst hi2
    exact ⟨sh2, h1, h2.inCache inh.inCache, h3⟩
  unfold cachedOf at hmax ⊢
  dsimp only at hmax ⊢
  by_cases hon : C.on m.data
  · rw [if_pos hon] at hmax ⊢
    have hblk := cacheBlock_part (R := runBlocks env n) (inh := inh) (l := l) he hi ho hcnt ((cacheOn_iff hC ha.hold).2 hon)
    have miss : ∀ w : World, w.fs = sh0.w.fs →
        Missing env (counted sh) (CacheBlock.file env sh (counted sh) (trim (printAll l)) [[], e, i, o, []] e) e (inWorld (counted sh) w) →
        (blockOf false (meansAll S c!"cache" l) { m with bifs := m.bifs + 1 }).2.bifs ≤ sh0.max →
        ∃ sh' inh', runBif env (runBlocks env n) sh inh (Part.cached e i o l).print [] =
            finish false (blockOf false (meansAll S c!"cache" l) { m with bifs := m.bifs + 1 }).1 sh' inh' ∧
          After S (inWorld sh0 (storedIn env w (fileOf env S C m.data e i o l)
              (blockOf false (meansAll S c!"cache" l) { m with bifs := m.bifs + 1 }).1)) sc
            (blockOf false (meansAll S c!"cache" l) { m with bifs := m.bifs + 1 }).2 b [] sh' inh' ∧ Kept b (counted sh) sh' := by
      intro w hfs hmiss hb
      obtain ⟨sh2, h1, h2, h3⟩ := hsh w true hfs hb
      have hw2 : sh2.w = w := by rw [h2.hold]; rfl
      have := C38_miss env _ sh (counted sh) _ sh2 inh _ [] _ [] _ e _ _ hblk hmiss h1 (hW.dirs _ _) (hW.files _ _) (hW.write _ _)
      refine ⟨_, _, this, ?_, ?_⟩
      · have := h2.world (storedIn env w (fileOf env S C m.data e i o l)
          (blockOf false (meansAll S c!"cache" l) { m with bifs := m.bifs + 1 }).1)
        rw [hfile, show stored (ticked sh2) (fileOf env S C m.data e i o l) (blockOf false (meansAll S c!"cache" l) { m with bifs := m.bifs + 1 }).1
          (env.now sh2.w.tick) = inWorld sh2 (storedIn env w (fileOf env S C m.data e i o l)
            (blockOf false (meansAll S c!"cache" l) { m with bifs := m.bifs + 1 }).1) by
          unfold stored ticked inWorld storedIn
          rw [hw2]]
        exact this
      · exact h3
    cases hfs : sh0.w.fs (fileOf env S C m.data e i o l) with
    | none =>
      rw [hfs] at hmax
      dsimp only at hmax ⊢
      obtain ⟨sh', inh', h1, h2, h3⟩ := miss sh0.w rfl (by
        have : inWorld (counted sh) sh0.w = counted sh := by unfold inWorld; rw [← hw]
        rw [this]
        exact .absent (by rw [hfile, hw]; exact hfs)) hmax
      exact ⟨_, sh', inh', rfl, h1, h2, h3⟩
    | some en =>
      rw [hfs] at hmax
      dsimp only at hmax ⊢
      have hfit := hsane.files _ _ e hfs hex
      by_cases hx : en.mtime + lifetime e < env.now sh0.w.tick
      · rw [if_pos hx] at hmax ⊢
        obtain ⟨sh', inh', h1, h2, h3⟩ := miss ⟨sh0.w.fs, sh0.w.tick + 1⟩ rfl (by
          have : inWorld (counted sh) ⟨sh0.w.fs, sh0.w.tick + 1⟩ = ticked (counted sh) := by unfold inWorld ticked; rw [hw]
          rw [this]
          exact .expired en (by rw [hfile, hw]; exact hfs) hfit (by rw [hw]; exact hx)) hmax
        exact ⟨_, sh', inh', rfl, h1, h2, h3⟩
      · rw [if_neg hx] at hmax ⊢
        obtain ⟨t, ht⟩ := hsane.readable _ _ hfs
        have := C38_hit env (runBlocks env n) sh (counted sh) inh [] _ [] _ e t _ en hblk (by rw [hfile, hw]; exact hfs) ht hfit
          (by rw [hw]; omega)
        refine ⟨_, ticked (counted sh), entered sh inh, rfl, ?_, ?_, .refl _ _⟩
        · rw [ht]; exact this
        · have := hc.world ⟨sh0.w.fs, sh0.w.tick + 1⟩
          rw [show ticked (counted sh) = inWorld (counted sh) ⟨sh0.w.fs, sh0.w.tick + 1⟩ by unfold inWorld ticked; rw [hw]]
          exact this
  · rw [if_neg hon] at hmax ⊢
    obtain ⟨d, r, h1, h2, rfl⟩ := Part.src_parts (l := l) he hi ho
    have := C75_off env (runBlocks env n) sh inh [] _ [] _ _ (by unfold Mods; simp) (by simp) (by simp) (by simp) hcnt (.inl rfl) h1 (by
      rw [Option.getD_some, h2]
      intro hx
      exact (args_chars he hi ho '{' (hx.subset (by simp))).1 rfl) (fun h => hon ((cacheOn_iff hC ha.hold).1 h))
    obtain ⟨sh2, h3, h4, h5⟩ := hsh sh0.w inh.inCache rfl hmax
    have e1 : inWorld (counted sh) sh0.w = counted sh := by unfold inWorld; rw [← hw]
    rw [e1] at h3
    refine ⟨_, sh2, entered sh inh, rfl, ?_, h4, h5⟩
    refine this.trans ?_
    unfold shown
    rw [show decide ('+' ∈ ([] : Str)) = false from rfl]
    rw [show nested (runBlocks env n) false (counted sh) (entered sh inh) c!"cache" (trim (printAll l)) [] = _ from h3]
    rfl

/-! Texts. -/

theorem part_isBif {S : Site} {e i o : Str} {l : List Node} (he : ArgOk e) (hi : ArgOk i) (ho : ArgOk o) (hl : AllOk S c!"cache" l) :
    IsBif (Part.cached e i o l).print := by
  have hc := args_chars he hi ho
  unfold Part.print
  refine isBif_text (by decide) (by decide) (by decide) ?_ (by simp)
  refine bal_src (a := c!" " ++ (c!"/" ++ e ++ c!"/" ++ i ++ c!"/" ++ o ++ c!"/") ++ c!" >> ") ?_ ?_ (cont_all' hl) (good_all l hl _ (cont_blank _))
  · exact not_mem_append (not_mem_append (by decide) (fun h => (hc _ h).1 rfl)) (by decide)
  · exact not_mem_append (not_mem_append (by decide) (fun h => (hc _ h).2.1 rfl)) (by decide)

theorem page_good {S : Site} : ∀ (l : List Part), (∀ x ∈ l, x.Ok S) → Good [] (printPage l) ∧ Cont (printPage l) ∧ Skips c!"*" (printPage l)
  | [], _ => ⟨.nil _, cont_nil, fun k hk => hk⟩
  | x :: l, h => by
    obtain ⟨h1, h2, h3⟩ := page_good l (fun y hy => h y (by simp [hy]))
    have hx := h x (by simp)
    simp only [printPage]
    cases x with
    | plain t =>
      exact ⟨good_append (by rw [List.append_nil]; exact good_all t hx _ h2) h1, cont_all hx h2, skips_append (skips_all (.inr rfl) t hx) h3⟩
    | cached e i o t =>
      obtain ⟨he, hi, ho, hl⟩ := hx
      refine ⟨good_append (good_isBif (part_isBif he hi ho hl)) h1, cont_bif _ _ _ _, skips_append ?_ h3⟩
      refine skips_bif ?_ (skips_append (skips_append (skips_noBrace ?_) (skips_all (.inr rfl) t hl)) (skips_noBrace (by decide)))
      · intro k hk
        simpa [List.infix_cons_iff, List.cons_prefix_cons] using hk
      · exact not_mem_append (not_mem_append (by decide) (fun h => (args_chars he hi ho _ h).1 rfl)) (by decide)

/-! Counting. -/

theorem cached_mono {env : Env} {S : Site} {C : Caching} {e i o : Str} {l : List Node} (m : Mem) (w : World) :
    m.bifs ≤ (cachedOf env S C e i o l m w).2.1.bifs := by
  have := mono_block (plus := false) (mono_all S l c!"cache") m
  unfold cachedOf
  dsimp only
  split
  · split
    · exact this
    · split
      · exact this
      · exact Nat.le_refl _
  · exact this

theorem part_mono {env : Env} {S : Site} {C : Caching} (x : Part) (m : Mem) (w : World) : m.bifs ≤ (x.means env S C m w).2.1.bifs := by
  cases x with
  | plain l => exact mono_all S l [] m
  | cached e i o l => exact Nat.le_trans (Nat.le_succ _) (cached_mono { m with bifs := m.bifs + 1 } w)

theorem page_mono {env : Env} {S : Site} {C : Caching} : ∀ (l : List Part) (m : Mem) (w : World), m.bifs ≤ (pageMeans env S C l m w).2.1.bifs
  | [], m, w => Nat.le_refl _
  | x :: l, m, w => Nat.le_trans (part_mono x m w) (page_mono l _ _)

/-! Parts. -/

theorem cached_world {env : Env} {S : Site} {C : Caching} {sh0 : Shared} {exps : List Str} {e i o : Str} {l : List Node} {m : Mem}
    (hS : SiteOf env sh0 S) (hap : NotEntries env S C) (hsane : Sane env exps sh0.w) :
    SiteOf env (inWorld sh0 (cachedOf env S C e i o l m sh0.w).2.2) S ∧ Sane env exps (cachedOf env S C e i o l m sh0.w).2.2 := by
  have hsame : Sane env exps ⟨sh0.w.fs, sh0.w.tick + 1⟩ := ⟨hsane.readable, hsane.files, hsane.clock⟩
  unfold cachedOf fileOf
  dsimp only
  split
  · split
    · exact ⟨siteOf_stored hS hap rfl, sane_stored hsane rfl⟩
    · split
      · exact ⟨siteOf_stored hS hap rfl, sane_stored hsane rfl⟩
      · exact ⟨siteOf_fs hS rfl, hsame⟩
  · exact ⟨siteOf_fs hS rfl, hsane⟩

/-- What a part does. -/
theorem sound_part {env : Env} {S : Site} {C : Caching} {sh0 : Shared} {sc : Obj} (hexit : sh0.exit = false) (hS : SiteOf env sh0 S)
    (hC : CachingOf sh0 C) (hW : Writable env) (hap : NotEntries env S C) {exps : List Str} (hsane : Sane env exps sh0.w) {x : Part}
    (hok : x.Ok S) (hexp : ∀ e ∈ lifetimes [x], e ∈ exps) {n : Nat} {m : Mem} {sh : Shared} {inh : Inherit} {b : Nat} (hd : Part.depth x ≤ n)
    (ha : After S sh0 sc m b [] sh inh) (hmax : (x.means env S C m sh0.w).2.1.bifs ≤ sh0.max) :
    ∃ sh' inh', Produces env (runBlocks env n) [] x.print sh inh true (x.means env S C m sh0.w).1 sh' inh' ∧
      After S (inWorld sh0 (x.means env S C m sh0.w).2.2) sc (x.means env S C m sh0.w).2.1 b [] sh' inh' ∧
      SiteOf env (inWorld sh0 (x.means env S C m sh0.w).2.2) S ∧ Sane env exps (x.means env S C m sh0.w).2.2 := by
  cases x with
  | plain l =>
    obtain ⟨sh', inh', h1, h2, _⟩ := sound_all (env := env) (sc := sc) hexit hS l hok n m sh inh b hd ha hmax
    exact ⟨sh', inh', h1, h2, hS, hsane⟩
  | cached e i o l =>
    obtain ⟨he, hi, ho, hl⟩ := hok
    have hx : sh.exit = false := by rw [ha.hold]; exact hexit
    have hcnt : sh.count < sh.max := by
      have := cached_mono (env := env) (S := S) (C := C) (e := e) (i := i) (o := o) (l := l) { m with bifs := m.bifs + 1 } sh0.w
      have h2 : (cachedOf env S C e i o l { m with bifs := m.bifs + 1 } sh0.w).2.1.bifs ≤ sh0.max := hmax
      rw [ha.hold]
      show m.bifs < sh0.max
      simp only at this
      omega
    obtain ⟨r, sh', inh', hr, h1, h2, h3⟩ := cached_run hexit hS hC hW hsane he hi ho hl (hexp e (by simp [lifetimes])) (by exact hd) ha hcnt hmax
    have hwld := cached_world (l := l) (e := e) (i := i) (o := o) (m := { m with bifs := m.bifs + 1 }) hS hap hsane
    simp only [Part.means]
    rw [← hr] at hwld ⊢
    refine ⟨sh', { inh' with lastBifOut := !r.1.isEmpty, lastCoalesceOut := !r.1.isEmpty }, ?_, h2.marked _ _, hwld⟩
    have := Produces.evaluated (env := env) (R := runBlocks env n) (only := []) hx (part_isBif he hi ho hl) (by
      rintro ⟨e1, e2⟩
      rw [ha.alias] at e1
      simp at e1) h1 (.nil _ _)
    simpa [finish] using this

/-- What a page does; the site stays. -/
theorem sound_page_site {env : Env} {S : Site} {C : Caching} {sc : Obj} (hW : Writable env) (hap : NotEntries env S C) {exps : List Str} :
    ∀ (l : List Part) {sh0 : Shared}, sh0.exit = false → SiteOf env sh0 S → CachingOf sh0 C → Sane env exps sh0.w → (∀ x ∈ l, x.Ok S) →
    (∀ e ∈ lifetimes l, e ∈ exps) → ∀ {n : Nat} {m : Mem} {sh : Shared} {inh : Inherit} {b : Nat}, (∀ x ∈ l, Part.depth x ≤ n) →
    After S sh0 sc m b [] sh inh → (pageMeans env S C l m sh0.w).2.1.bifs ≤ sh0.max →
    ∃ sh' inh', Produces env (runBlocks env n) [] (printPage l) sh inh true (pageMeans env S C l m sh0.w).1 sh' inh' ∧
      After S (inWorld sh0 (pageMeans env S C l m sh0.w).2.2) sc (pageMeans env S C l m sh0.w).2.1 b [] sh' inh' ∧
      SiteOf env (inWorld sh0 (pageMeans env S C l m sh0.w).2.2) S
  | [], sh0, hexit, hS, hC, hsane, hok, hexp, n, m, sh, inh, b, hd, ha, hmax => ⟨sh, inh, .nil _ _, ha, hS⟩
  | x :: l, sh0, hexit, hS, hC, hsane, hok, hexp, n, m, sh, inh, b, hd, ha, hmax => by
    simp only [pageMeans, printPage] at hmax ⊢
    obtain ⟨sh1, inh1, h1, ha1, hS1, hsane1⟩ := sound_part hexit hS hC hW hap hsane (hok x (by simp)) (fun e he => hexp e (by
        cases x with
        | plain t => simp [lifetimes] at he
        | cached a b c d => simp [lifetimes] at he ⊢; exact .inl he)) (hd x (by simp)) ha
      (Nat.le_trans (page_mono l _ _) hmax)
    obtain ⟨sh2, inh2, h2, ha2, hS2⟩ := sound_page_site hW hap l (sh0 := inWorld sh0 (x.means env S C m sh0.w).2.2) hexit hS1
      ⟨hC.dir, hC.pre, hC.disabled, hC.post, hC.get, hC.cookies⟩ hsane1 (fun y hy => hok y (by simp [hy]))
      (fun e he => hexp e (by
        cases x with
        | plain t => simpa [lifetimes] using he
        | cached a b c d => simp [lifetimes]; exact .inr he)) (fun y hy => hd y (by simp [hy])) ha1 hmax
    refine ⟨sh2, inh2, C68_append h1 rfl (by rw [ha1.hold]; exact hexit) ?_ h2, ha2, hS2⟩
    rintro ⟨r, hr⟩
    exact (page_good l (fun y hy => hok y (by simp [hy]))).2.1.1 (by rw [← hr]; rfl)

/-- What a page does. -/
theorem sound_page {env : Env} {S : Site} {C : Caching} {sc : Obj} (hW : Writable env) (hap : NotEntries env S C) {exps : List Str}
    (l : List Part) {sh0 : Shared} (hexit : sh0.exit = false) (hS : SiteOf env sh0 S) (hC : CachingOf sh0 C) (hsane : Sane env exps sh0.w)
    (hok : ∀ x ∈ l, x.Ok S) (hexp : ∀ e ∈ lifetimes l, e ∈ exps) {n : Nat} {m : Mem} {sh : Shared} {inh : Inherit} {b : Nat}
    (hd : ∀ x ∈ l, Part.depth x ≤ n) (ha : After S sh0 sc m b [] sh inh) (hmax : (pageMeans env S C l m sh0.w).2.1.bifs ≤ sh0.max) :
    ∃ sh' inh', Produces env (runBlocks env n) [] (printPage l) sh inh true (pageMeans env S C l m sh0.w).1 sh' inh' ∧
      After S (inWorld sh0 (pageMeans env S C l m sh0.w).2.2) sc (pageMeans env S C l m sh0.w).2.1 b [] sh' inh' := by
  obtain ⟨sh', inh', h1, h2, _⟩ := sound_page_site hW hap l hexit hS hC hsane hok hexp hd ha hmax
  exact ⟨sh', inh', h1, h2⟩

theorem page_depth : ∀ l : List Part, ∃ k, ∀ x ∈ l, Part.depth x ≤ k
  | [] => ⟨0, fun x hx => by simp at hx⟩
  | y :: l => by
    obtain ⟨k, hk⟩ := page_depth l
    refine ⟨max (Part.depth y) k, fun x hx => ?_⟩
    rcases List.mem_cons.1 hx with rfl | hx
    · omega
    · have := hk x hx; omega

/-! ### C85 -/

/-- **C85 (renders).** For every page of parts of the language of C77, some of them cached, every schema, every content of the
cache and every clock: the render prints what the page means, ends with the data and the number of BIFs the page means, and leaves
in the cache exactly the entries the page means (those it stored; no other file is changed).  The premises: the configuration is
accepted and the limit of BIFs is enough; files can be read and entries written; no included file is an entry of the cache; and the
text has no `{:!cache;` in it (C75). -/
theorem C85_render (env : Env) (n : Nat) (w : World) (t : Tpl) (S : Site) (C : Caching) (l : List Part) (sh : Shared) (s d defs : Obj)
    (hnew : Shared.new env w t.schema = some sh) (hS : SiteOf env sh S) (hC : CachingOf sh C) (hW : Writable env)
    (hap : NotEntries env S C) (hsane : Sane env (lifetimes l) w)
    (hok : ∀ x ∈ l, x.Ok S) (hraw : t.raw = printPage l) (hb : c!"{:" <:+: printPage l)
    (hs : t.schema = .obj s) (hd : Obj.get? c!"data" s = some (.obj d))
    (hinh : Obj.get? c!"inherit" s = some (.obj defs)) (hdefs : Defs S defs)
    (hmax : (pageMeans env S C l (startMem d defs) w).2.1.bifs ≤ sh.max)
    (hcache : ¬ c!"{:!cache;" <:+: trim (pageMeans env S C l (startMem d defs) w).1) :
    ∃ r t', r = pageMeans env S C l (startMem d defs) w ∧ t.render env n w = .ok t' ∧
      TextResult t' r.1 r.2.1.bifs ∧ t'.shared.schema.index c!"data" = .obj r.2.1.data ∧ t'.shared.w = r.2.2 := by
  obtain ⟨hgood, hcont, hskip⟩ := page_good l hok
  obtain ⟨sh1, inh, s1, hinit, hs1, hd1, hsees, hl, hlc, hal⟩ := init_data hnew ⟨by
    rw [hraw]
    refine C16_unchanged _ (fun hx => ?_)
    have := hskip [] (by simpa using hx)
    exact absurd this.length_le (by decide), hraw⟩ hs hd hinh
  obtain ⟨sc', g, hf⟩ := initShared_frame hinit
  obtain ⟨s1', s2, s3, s4, s5, s6, s7⟩ := sharedNew_start hnew
  have hw0 : sh.w = w := by
    unfold Shared.new at hnew
    dsimp only at hnew
    split at hnew
    · simp only [Option.some.injEq] at hnew
      rw [← hnew]
    · simp at hnew
  have hmx : sh1.max = sh.max := by rw [hf]
  have hcnt : sh1.count = 0 := by rw [hf]; exact s5
  have hex : sh1.exit = false := by rw [hf]; exact s7
  have hw1 : sh1.w = w := by rw [hf]; exact hw0
  have hS1 : SiteOf env sh1 S := by
    refine ⟨hS.F, ?_, ?_, ?_, hS.json, hS.md5, ?_⟩
    · rw [hf]; exact hS.filterAll
    · rw [hf]; exact hS.sanitize
    · rw [hf]; exact hS.lang
    · rw [hf]; exact hS.file
  have hC1 : CachingOf sh1 C := by
    refine ⟨?_, ?_, ?_, ?_, ?_, ?_⟩ <;> rw [hf]
    · exact hC.dir
    · exact hC.pre
    · exact hC.disabled
    · exact hC.post
    · exact hC.get
    · exact hC.cookies
  have hm0 : (⟨startData d, defs, inh.lastBifOut, inh.lastCoalesceOut, sh1.count⟩ : Mem) = startMem d defs := by
    rw [hl, hlc, hcnt]; rfl
  have hsame := Obj.insert_same hd1
  have hh : Holding sh1 s1 (startMem d defs) sh1 := by
    show sh1 = { sh1 with schema := .obj (Obj.insert c!"data" (.obj (startData d)) s1), indir := sh1.indir, count := 0 }
    rw [hsame, ← hs1, ← hcnt]
  have hlev := C24_start hinit
  generalize hr : pageMeans env S C l (startMem d defs) w = r at hmax hcache ⊢
  obtain ⟨k, hk⟩ := page_depth l
  obtain ⟨sh2, inh2, hp, ha2⟩ := sound_page (env := env) (C := C) (sc := s1) hW hap (exps := lifetimes l) l (sh0 := sh1) hex hS1 hC1
    (by rw [hw1]; exact hsane) hok (fun _ h => h) (n := max k (sh1.max + 1)) (m := startMem d defs) (sh := sh1)
    (inh := { inh with blockCount := inh.blockCount + 1 }) (b := 1)
    (fun x hx => by have := hk x hx; omega)
    ⟨hh, hl, hlc, hal, hlev, hsees, hdefs.params, hdefs.snippets, hdefs.declared⟩ (by rw [hw1, hr, hmx]; exact hmax)
  rw [hw1, hr] at hp ha2
  obtain ⟨bl, hwf⟩ := good_wf hgood rfl 0
  have hp := (C68_blocks env _ sh1 sh2 _ inh2 (printPage l) [] _ bl hwf).2 ⟨true, _, hp, rfl⟩
  have hne : parseSrc (runBlocks env (sh1.max + 1)) sh1 { inh with blockCount := inh.blockCount + 1 } (printPage l) [] ≠ .oof := by
    unfold parseSrc
    rw [C15_complete _ _ hwf]
    dsimp only
    rcases C19_terminates env (sh1.max + 1) sh1 { inh with blockCount := inh.blockCount + 1 } (printPage l) [] bl (by omega) (by omega) with
      ⟨o, s, i, h⟩ | ⟨p, h⟩ <;> (rw [h]; simp)
  have hle := parseSrc_le (fun sh inh src bs only h => C19_depth env (sh1.max + 1) (max k (sh1.max + 1) + 1) (by omega) sh inh src only bs h)
    sh1 { inh with blockCount := inh.blockCount + 1 } _ _ hne
  rw [hle] at hp
  have hends := ha2.hold
  have hoth : ∀ k, k ≠ c!"data" → sh2.schema.index k = sh1.schema.index k := by
    intro k hk
    rw [hends, hs1]
    simp only [Value.index, Value.get?]
    rw [Obj.get?_insert_ne _ _ (Ne.symm hk)]
  have hstat : sh2.statusCode = c!"200" := by rw [hends]; show sh1.statusCode = _; rw [hf]; exact s1'
  refine ⟨r, ⟨printPage l, t.filePath, t.schema, sh2, replacements (trim r.1)⟩, rfl, ?_, ?_, hends.data, by rw [hends]; rfl⟩
  · have hb' : contains bifOpen t.raw = true := (contains_iff (by decide)).2 (by rw [hraw]; exact hb)
    unfold Tpl.render
    simp only [hb', Bool.not_true, Bool.false_eq_true, if_false]
    unfold renderWith
    rw [hnew]
    simp only
    rw [hinit]
    simp only
    rw [C24_passes hinit, hp]
    simp only [ended, if_true, cacheLoop_done env inh n _ _ hcache]
    unfold endsRender
    rw [applyMoveto_empty ((hoth _ (by decide)).trans (initShared_ok hinit).2.1)]
    simp only [Option.map_some]
    have c4 : sh2.redirectJs = [] := by rw [hends]; show sh1.redirectJs = _; rw [hf]; exact s4
    have := C40_three_digits sh2 (replacements (trim r.1)) 2 0 0 (by omega) (by omega) (by omega) hstat
    rw [this, c4]
    simp
  · refine ⟨rfl, hstat, ?_, ?_, ?_, ?_, ?_⟩
    · show sh2.statusText = _; rw [hends]; show sh1.statusText = _; rw [hf]; exact s2
    · show sh2.statusParam = _; rw [hends]; show sh1.statusParam = _; rw [hf]; exact s3
    · show sh2.count = _; rw [hends]
    · show sh2.hasError = _; rw [hends]; show sh1.hasError = _; rw [hf]; exact s6
    · show sh2.schema.index c!"__error" = _
      rw [hoth _ (by decide)]; exact (initShared_ok hinit).2.2.1

/-- A template that can be cached can be in a `code`. -/
theorem allOk_code {S : Site} : ∀ {l : List Node}, AllOk S c!"cache" l → AllOk S c!"code" l
  | [], _ => by simp only [AllOk]
  | x :: l, h => by
    simp only [AllOk] at h ⊢
    refine ⟨?_, allOk_code h.2⟩
    have hx := h.1
    cases x with
    | setParam name body =>
      simp only [Node.Ok] at hx
      exact absurd hx.1 (by decide)
    | _ => simpa only [Node.Ok] using hx

theorem asCode_ok {S : Site} : ∀ {l : List Part}, (∀ x ∈ l, x.Ok S) → ∀ x ∈ asCode l, x.Ok S
  | [], _, x, hx => by simp [asCode] at hx
  | .plain b :: l, h, x, hx => by
    simp only [asCode, List.mem_cons] at hx
    rcases hx with rfl | hx
    · exact h _ (by simp)
    · exact asCode_ok (fun y hy => h y (by simp [hy])) x hx
  | .cached e i o b :: l, h, x, hx => by
    simp only [asCode, List.mem_cons] at hx
    rcases hx with rfl | hx
    · have := (h (.cached e i o b) (by simp)).2.2.2
      simp only [Part.Ok, AllOk, Node.Ok, and_true]
      exact allOk_code this
    · exact asCode_ok (fun y hy => h y (by simp [hy])) x hx

theorem asCode_lifetimes : ∀ l : List Part, lifetimes (asCode l) = []
  | [] => rfl
  | .plain _ :: l => by simp only [asCode, lifetimes]; exact asCode_lifetimes l
  | .cached _ _ _ _ :: l => by simp only [asCode, lifetimes]; exact asCode_lifetimes l

theorem cached_miss {env : Env} {S : Site} {C : Caching} {e i o : Str} {l : List Node} {m : Mem} {w : World}
    (h : C.on m.data → ∀ en, w.fs (fileOf env S C m.data e i o l) = some en → en.mtime + lifetime e < env.now w.tick) :
    (cachedOf env S C e i o l m w).1 = (blockOf false (meansAll S c!"cache" l) m).1 ∧
      (cachedOf env S C e i o l m w).2.1 = (blockOf false (meansAll S c!"cache" l) m).2 := by
  unfold cachedOf
  dsimp only
  split
  · next hon =>
    split
    · exact ⟨rfl, rfl⟩
    · next en hen =>
      rw [if_pos (h hon en hen)]
      exact ⟨rfl, rfl⟩
  · exact ⟨rfl, rfl⟩

/-- A page of which no cached part finds a fresh entry means what it means with the cached parts as code. -/
theorem page_miss {env : Env} {S : Site} {C : Caching} : ∀ (l : List Part) (m : Mem) (w w' : World), NoneFresh env S C l m w →
    (pageMeans env S C l m w).1 = (pageMeans env S C (asCode l) m w').1 ∧
      (pageMeans env S C l m w).2.1 = (pageMeans env S C (asCode l) m w').2.1 ∧ (pageMeans env S C (asCode l) m w').2.2 = w'
  | [], m, w, w', _ => ⟨rfl, rfl, rfl⟩
  | .plain b :: l, m, w, w', h => by
    simp only [NoneFresh, Part.means] at h
    obtain ⟨h1, h2, h3⟩ := page_miss l _ _ w' h.2
    simp only [pageMeans, asCode, Part.means]
    exact ⟨by rw [h1], h2, h3⟩
  | .cached e i o b :: l, m, w, w', h => by
    simp only [NoneFresh] at h
    obtain ⟨h1, h2, h3⟩ := page_miss l _ _ w' h.2
    obtain ⟨c1, c2⟩ := cached_miss (env := env) (S := S) (C := C) (e := e) (i := i) (o := o) (l := b) (m := { m with bifs := m.bifs + 1 })
      (w := w) h.1
    have hp : (Part.plain [.code false b]).means env S C m w' = (trim (blockOf false (meansAll S c!"cache" b) { m with bifs := m.bifs + 1 }).1,
        { (blockOf false (meansAll S c!"cache" b) { m with bifs := m.bifs + 1 }).2 with
          last := !(blockOf false (meansAll S c!"cache" b) { m with bifs := m.bifs + 1 }).1.isEmpty
          lastC := !(blockOf false (meansAll S c!"cache" b) { m with bifs := m.bifs + 1 }).1.isEmpty }, w') := by
      have hal : meansAll S c!"code" b = meansAll S c!"cache" b := funext (all_al S (by decide) (by decide) b)
      simp only [Part.means, meansAll, Node.means, bifOf, hal]
      rw [if_neg (by simp)]
      simp
    have hm : ((Part.cached e i o b).means env S C m w).2.1 = ((Part.plain [.code false b]).means env S C m w').2.1 := by
      rw [hp]
      simp only [Part.means]
      rw [c1, c2]
    have ht : ((Part.cached e i o b).means env S C m w).1 = ((Part.plain [.code false b]).means env S C m w').1 := by
      rw [hp]
      simp only [Part.means]
      rw [c1]
    have hw' : ((Part.plain [.code false b]).means env S C m w').2.2 = w' := by rw [hp]
    simp only [pageMeans, asCode]
    rw [hm] at h1 h2 h3 ⊢
    rw [hw', ht]
    exact ⟨by rw [h1], h2, h3⟩

theorem bif_open {mods name src : Str} (h : mods = []) : c!"{:" <:+: bifText mods name src := by
  subst h
  exact ⟨[], (c!"" ++ name ++ c!";" ++ src ++ c!":}"), by simp [bifText]⟩

/-- A page with a cached part has a BIF in it. -/
theorem page_open : ∀ {l : List Part} {e i o : Str} {b : List Node}, .cached e i o b ∈ l →
    c!"{:" <:+: printPage l ∧ c!"{:" <:+: printPage (asCode l)
  | .plain t :: l, e, i, o, b, h => by
    obtain ⟨h1, h2⟩ := page_open (l := l) (by simpa using h)
    exact ⟨h1.trans ⟨_, [], List.append_nil _⟩, h2.trans ⟨_, [], List.append_nil _⟩⟩
  | .cached e' i' o' b' :: l, e, i, o, b, _ => by
    have hin : ∀ a b : Str, a <:+: a ++ b := fun a b => ⟨[], b, rfl⟩
    refine ⟨(bif_open rfl).trans (hin _ _), ?_⟩
    simp only [asCode, printPage, Part.print, printAll, Node.print]
    exact ((bif_open rfl).trans (hin _ _)).trans (hin _ _)

/-- **C85 (transparency).** For every page, schema, cache and clock such that no cached part finds a fresh entry at its turn: the
render of the page, and the render of the page with every `{:cache; /…/ >> … :}` replaced by `{:code; … :}`, print the same, end
with the same data and count the same BIFs; the second leaves the files as they are. -/
theorem C85_transparent (env : Env) (n : Nat) (w : World) (t : Tpl) (S : Site) (C : Caching) (l : List Part) (sh : Shared) (s d defs : Obj)
    (hnew : Shared.new env w t.schema = some sh) (hS : SiteOf env sh S) (hC : CachingOf sh C) (hW : Writable env)
    (hap : NotEntries env S C) (hsane : Sane env (lifetimes l) w)
    (hok : ∀ x ∈ l, x.Ok S) (hraw : t.raw = printPage l) (hb : ∃ e i o b, Part.cached e i o b ∈ l)
    (hs : t.schema = .obj s) (hd : Obj.get? c!"data" s = some (.obj d))
    (hinh : Obj.get? c!"inherit" s = some (.obj defs)) (hdefs : Defs S defs)
    (hmax : (pageMeans env S C l (startMem d defs) w).2.1.bifs ≤ sh.max)
    (hcache : ¬ c!"{:!cache;" <:+: trim (pageMeans env S C l (startMem d defs) w).1)
    (hnone : NoneFresh env S C l (startMem d defs) w) :
    ∃ t1 t2, t.render env n w = .ok t1 ∧ Tpl.render env n w { t with raw := printPage (asCode l) } = .ok t2 ∧
      t1.out = t2.out ∧ t1.shared.schema.index c!"data" = t2.shared.schema.index c!"data" ∧ t1.shared.count = t2.shared.count ∧
      t2.shared.w = w := by
  obtain ⟨e, i, o, b, hmem⟩ := hb
  obtain ⟨o1, o2⟩ := page_open hmem
  obtain ⟨m1, m2, m3⟩ := page_miss l (startMem d defs) w w hnone
  obtain ⟨r1, t1, rfl, h1, h2, h3, h4⟩ := C85_render env n w t S C l sh s d defs hnew hS hC hW hap hsane hok hraw o1 hs hd hinh hdefs hmax hcache
  obtain ⟨r2, t2, rfl, g1, g2, g3, g4⟩ := C85_render env n w { t with raw := printPage (asCode l) } S C (asCode l) sh s d defs hnew hS hC hW hap
    ⟨hsane.readable, fun _ _ _ _ hx => by rw [asCode_lifetimes] at hx; simp at hx, fun _ _ hx => by rw [asCode_lifetimes] at hx; simp at hx⟩
    (asCode_ok hok) rfl o2 hs hd hinh hdefs (by rw [← m2]; exact hmax) (by rw [← m1]; exact hcache)
  refine ⟨t1, t2, h1, g1, ?_, ?_, ?_, ?_⟩
  · rw [h2.out, g2.out, m1]
  · rw [h3, g3, m2]
  · rw [h2.ran, g2.ran, m2]
  · rw [g4, m3]

/-- What a cache holds after a history that started without entries. -/
def Filled (env : Env) (C : Caching) (vs : List Visit) (w : World) : Prop :=
  ∀ text expires en, w.fs (entryFile env C.dir C.pre text expires) = some en →
    ∃ u ∈ vs, C.on u.m.data ∧ u.file env C = entryFile env C.dir C.pre text expires ∧ en.content = some u.evaluated ∧
      (en.mtime = env.now u.w.tick ∨ en.mtime = env.now (u.w.tick + 1))

theorem filled_stored {env : Env} {C : Caching} {vs : List Visit} {v : Visit} {w : World} (hf : Filled env C vs w) (hon : C.on v.m.data)
    (ht : w.tick = v.w.tick ∨ w.tick = v.w.tick + 1) :
    Filled env C (vs ++ [v]) (storedIn env w (v.file env C) v.evaluated) := by
  intro text expires en h
  simp only [storedIn] at h
  split at h
  · next e =>
    simp only [Option.some.injEq] at h
    refine ⟨v, by simp, hon, e.symm, by rw [← h], ?_⟩
    rw [← h]
    rcases ht with h | h
    · exact .inl (by rw [h])
    · exact .inr (by rw [h])
  · obtain ⟨u, hu, h1⟩ := hf text expires en h
    exact ⟨u, by simp [hu], h1⟩

theorem filled_visit {env : Env} {C : Caching} {vs : List Visit} {v : Visit} (hf : Filled env C vs v.w) :
    Filled env C (vs ++ [v]) (cachedOf env v.S C v.expires v.id v.only v.l v.m v.w).2.2 := by
  have hmore : ∀ w : World, w.fs = v.w.fs → Filled env C (vs ++ [v]) w := by
    intro w hw text expires en h
    rw [hw] at h
    obtain ⟨u, hu, h1⟩ := hf text expires en h
    exact ⟨u, by simp [hu], h1⟩
  unfold cachedOf
  dsimp only
  split
  · next hon =>
    split
    · exact filled_stored hf hon (.inl rfl)
    · split
      · exact filled_stored (w := ⟨v.w.fs, v.w.tick + 1⟩) hf hon (.inr rfl)
      · exact hmore _ rfl
  · exact hmore _ rfl

theorem history_filled {env : Env} {C : Caching} {w0 w : World} {vs : List Visit} (h : History env C w0 vs w)
    (h0 : ∀ text expires, w0.fs (entryFile env C.dir C.pre text expires) = none) : Filled env C vs w := by
  induction h with
  | start =>
    intro text expires en h
    rw [h0] at h
    simp at h
  | visit v _ hw ih =>
    subst hw
    exact filled_visit ih
  | other _ hsame ih =>
    intro text expires en h
    rw [hsame] at h
    exact ih text expires en h

theorem gives_filled {env : Env} {C : Caching} {vs : List Visit} {v : Visit} (hf : Filled env C vs v.w) :
    v.gives env C = v.evaluated ∨
      (C.on v.m.data ∧ ∃ u ∈ vs, C.on u.m.data ∧ u.file env C = v.file env C ∧ v.gives env C = u.evaluated ∧
        ∃ stored, (stored = env.now u.w.tick ∨ stored = env.now (u.w.tick + 1)) ∧ env.now v.w.tick ≤ stored + lifetime v.expires) := by
  unfold Visit.gives cachedOf
  dsimp only
  split
  · next hon =>
    split
    · exact .inl rfl
    · next en hen =>
      split
      · exact .inl rfl
      · next hle =>
        obtain ⟨u, hu, h1, h2, h3, h4⟩ := hf _ _ en hen
        exact .inr ⟨hon, u, hu, h1, h2, by rw [h3]; rfl, en.mtime, h4, by omega⟩
  · exact .inl rfl

/-- **C85 (histories).** For every history of a cache that had no entries at the start — any number of visits of cached parts, by any
requests with any data, for any sites and pages sharing the cache, and any other activity between them that leaves the entries as
they are: every visit gives the text its own evaluation gives, or the text that the evaluation in an *earlier* visit with the same
entry gave, and then the lifetime of that entry, counted from when that visit stored it, is not over.  A visit by a request for which
the cache is off always evaluates. -/
theorem C85_history (env : Env) (C : Caching) (w0 w : World) (vs : List Visit) (h : History env C w0 vs w)
    (h0 : ∀ text expires, w0.fs (entryFile env C.dir C.pre text expires) = none) :
    ∀ before v after, vs = before ++ v :: after → v.gives env C = v.evaluated ∨
      (C.on v.m.data ∧ ∃ u ∈ before, C.on u.m.data ∧ u.file env C = v.file env C ∧ v.gives env C = u.evaluated ∧
        ∃ stored, (stored = env.now u.w.tick ∨ stored = env.now (u.w.tick + 1)) ∧ env.now v.w.tick ≤ stored + lifetime v.expires) := by
  induction h with
  | start => intro before v after e; simp at e
  | other _ _ ih => exact ih
  | @visit vs w v' hist hw ih =>
    intro before v after e
    rcases List.eq_nil_or_concat after with rfl | ⟨a, x, rfl⟩
    · have e' : vs ++ [v'] = before ++ [v] := e
      obtain ⟨rfl, e2⟩ := List.append_inj' e' rfl
      simp only [List.cons.injEq, and_true] at e2
      subst e2; subst hw
      exact gives_filled (history_filled hist h0)
    · have e' : vs ++ [v'] = (before ++ v :: a) ++ [x] := by rw [e]; simp
      exact ih before v a (List.append_inj' e' rfl).1

/-- **C85 (again).** When a visit has evaluated its part and stored it, a visit with the same entry within the lifetime gives that text,
whatever its data: the part is not evaluated, and neither the data nor the number of BIFs changes. -/
theorem C85_again (env : Env) (C : Caching) (u v : Visit) (hu : C.on u.m.data) (hv : C.on v.m.data) (hfile : u.file env C = v.file env C)
    (hmiss : u.w.fs (u.file env C) = none)
    (hw : v.w.fs (v.file env C) = (cachedOf env u.S C u.expires u.id u.only u.l u.m u.w).2.2.fs (v.file env C))
    (hfresh : env.now v.w.tick ≤ env.now u.w.tick + lifetime v.expires) :
    v.gives env C = u.evaluated ∧ (cachedOf env v.S C v.expires v.id v.only v.l v.m v.w).2.1 = v.m ∧
      (cachedOf env v.S C v.expires v.id v.only v.l v.m v.w).2.2.fs = v.w.fs := by
  have h1 : v.w.fs (v.file env C) = some ⟨some u.evaluated, env.now u.w.tick, true⟩ := by
    rw [hw]
    unfold cachedOf
    dsimp only
    rw [if_pos hu, show u.w.fs (fileOf env u.S C u.m.data u.expires u.id u.only u.l) = none from hmiss]
    simp only [storedIn]
    exact if_pos hfile.symm
  have h2 : cachedOf env v.S C v.expires v.id v.only v.l v.m v.w = (u.evaluated, v.m, ⟨v.w.fs, v.w.tick + 1⟩) := by
    unfold cachedOf
    dsimp only
    rw [if_pos hv, show v.w.fs (fileOf env v.S C v.m.data v.expires v.id v.only v.l) = _ from h1]
    dsimp only
    rw [if_neg (by omega)]
    rfl
  unfold Visit.gives
  rw [h2]
  exact ⟨rfl, rfl, rfl⟩

theorem page_bits {env : Env} {S : Site} {C : Caching} : ∀ (l : List Part) (m : Mem) (w : World),
    (pageMeans env S C l m w).1 = textOfBits env C (bitsOf env S C l m w)
  | [], _, _ => rfl
  | .plain b :: l, m, w => by
    simp only [pageMeans, bitsOf, textOfBits]
    rw [page_bits l]
    rfl
  | .cached e i o b :: l, m, w => by
    simp only [pageMeans, bitsOf, textOfBits]
    rw [page_bits l]
    rfl

theorem page_history {env : Env} {S : Site} {C : Caching} {w0 : World} : ∀ (l : List Part) (m : Mem) (w : World) (vs : List Visit),
    History env C w0 vs w → History env C w0 (vs ++ visitsOf (bitsOf env S C l m w)) (pageMeans env S C l m w).2.2
  | [], _, _, vs, h => by simpa [bitsOf, visitsOf, pageMeans] using h
  | .plain b :: l, m, w, vs, h => page_history l _ _ vs h
  | .cached e i o b :: l, m, w, vs, h => by
    have := page_history (S := S) l ((Part.cached e i o b).means env S C m w).2.1 _ _
      (History.visit ⟨S, e, i, o, b, { m with bifs := m.bifs + 1 }, w⟩ h rfl)
    simpa [bitsOf, visitsOf, pageMeans, Part.means] using this

/-- **C85 (requests).** The render of a page continues the history of the cache: its output is the texts of its parts and what its
visits give, in this order, and the files at its end are those of the history with its visits.  With C85_history: in every sequence
of requests, whatever the pages and the data, each cached part shows its own text or an earlier one that has not expired. -/
theorem C85_requests (env : Env) (n : Nat) (w : World) (t : Tpl) (S : Site) (C : Caching) (l : List Part) (sh : Shared) (s d defs : Obj)
    (hnew : Shared.new env w t.schema = some sh) (hS : SiteOf env sh S) (hC : CachingOf sh C) (hW : Writable env)
    (hap : NotEntries env S C) (hsane : Sane env (lifetimes l) w)
    (hok : ∀ x ∈ l, x.Ok S) (hraw : t.raw = printPage l) (hb : c!"{:" <:+: printPage l)
    (hs : t.schema = .obj s) (hd : Obj.get? c!"data" s = some (.obj d))
    (hinh : Obj.get? c!"inherit" s = some (.obj defs)) (hdefs : Defs S defs)
    (hmax : (pageMeans env S C l (startMem d defs) w).2.1.bifs ≤ sh.max)
    (hcache : ¬ c!"{:!cache;" <:+: trim (pageMeans env S C l (startMem d defs) w).1)
    (w0 : World) (vs : List Visit) (hist : History env C w0 vs w) :
    ∃ bits t', bits = bitsOf env S C l (startMem d defs) w ∧ t.render env n w = .ok t' ∧
      t'.out = replacements (trim (textOfBits env C bits)) ∧ History env C w0 (vs ++ visitsOf bits) t'.shared.w := by
  obtain ⟨r1, t1, rfl, h1, h2, h3, h4⟩ := C85_render env n w t S C l sh s d defs hnew hS hC hW hap hsane hok hraw hb hs hd hinh hdefs hmax hcache
  refine ⟨_, t1, rfl, h1, ?_, ?_⟩
  · rw [h2.out, page_bits]
  · rw [h4]
    exact page_history l _ _ vs hist

/-! Examples. -/

/-- A clock that does not get to the end of time. -/
def Sample.envC : Env := { Sample.env with now := fun t => 1000 + min t 500 }

/-- The settings of the cache in `Sample.schema`. -/
def Sample.caching : Caching := ⟨c!"/c", c!"p", false, false, true, true⟩

/-- A page with two cached parts; the second is identified by its `id` only. -/
def Sample.cachedPage : List Part := [
  .plain [.text c!"now ", .var true c!"x"],
  .cached c!"60" c!"a" [] [.text c!"<b>", .var true c!"x", .text c!"</b>"],
  .plain [.text c!" - "],
  .cached c!"5" c!"b" c!"true" [.code false [.text c!"<i>", .var true c!"x", .text c!"</i>"]]]

theorem Sample.cachedPage_ok : ∀ x ∈ Sample.cachedPage, x.Ok Sample.pageSite := by
  simp only [Sample.cachedPage, List.mem_cons, List.not_mem_nil, or_false, forall_eq_or_imp, forall_eq, Part.Ok, AllOk, Node.Ok, and_true,
    true_and]
  refine ⟨⟨textOk_of (by decide), nameOk_of (by decide)⟩,
    ⟨by unfold ArgOk; decide, by unfold ArgOk; decide, by unfold ArgOk; decide, textOk_of (by decide), nameOk_of (by decide), textOk_of (by decide)⟩,
    textOk_of (by decide), by unfold ArgOk; decide, by unfold ArgOk; decide, by unfold ArgOk; decide, textOk_of (by decide), nameOk_of (by decide), textOk_of (by decide)⟩

/-- A request for it. -/
def Sample.ask (x : Str) (w : World) : RRes :=
  (Sample.tpl (Sample.schema 1000 [(c!"x", .str x)] Sample.pageDefs) (printPage Sample.cachedPage)).render Sample.envC 10 w

/-- The world after a request, some time later. -/
def Sample.after (dt : Nat) : RRes → World
  | .ok t => ⟨t.shared.w.fs, t.shared.w.tick + dt⟩
  | _ => Sample.world

set_option maxRecDepth 10000 in
/-- Three requests with other data: at the second, both entries are fresh; at the third, one has expired. -/
example :
    (Sample.outOf (Sample.ask c!"X" Sample.pageWorld)).map (·.1) = some c!"now X<b>X</b> - <i>X</i>" ∧
    (Sample.outOf (Sample.ask c!"Y" (Sample.after 2 (Sample.ask c!"X" Sample.pageWorld)))).map (·.1) = some c!"now Y<b>X</b> - <i>X</i>" ∧
    (Sample.outOf (Sample.ask c!"Z" (Sample.after 10 (Sample.ask c!"X" Sample.pageWorld)))).map (·.1) = some c!"now Z<b>X</b> - <i>Z</i>" := by
  decide +kernel

theorem Sample.page_site {sh : Shared} (h : Shared.new Sample.envC Sample.pageWorld (Sample.schema 1000 [(c!"x", .str c!"X")] Sample.pageDefs) =
    some sh) : SiteOf Sample.envC sh Sample.pageSite ∧ CachingOf sh Sample.caching := by
  have e : some _ = some sh := h
  simp only [Option.some.injEq] at e
  subst e
  refine ⟨⟨rfl, rfl, rfl, rfl, rfl, rfl, ?_⟩, rfl, rfl, rfl, rfl, rfl, rfl⟩
  intro p t h
  simp only [Sample.pageSite] at h
  split at h
  · next hp =>
    simp only [Option.some.injEq] at h
    subst h hp
    exact ⟨_, _, rfl, rfl, rfl⟩
  · simp at h

theorem Sample.entry_slash (text expires : Str) : ∃ r, entryFile Sample.envC Sample.caching.dir Sample.caching.pre text expires = '/' :: r :=
  ⟨_, rfl⟩

theorem Sample.page_apart : NotEntries Sample.envC Sample.pageSite Sample.caching := by
  intro text expires
  obtain ⟨r, h⟩ := Sample.entry_slash text expires
  rw [h]
  simp [Sample.pageSite]

theorem Sample.page_sane : Sane Sample.envC (lifetimes Sample.cachedPage) Sample.pageWorld := by
  refine ⟨?_, ?_, ?_⟩
  · intro file e h
    simp only [Sample.pageWorld] at h
    split at h
    · simp only [Option.some.injEq] at h
      exact ⟨_, by rw [← h]; rfl⟩
    · simp at h
  · intro file e x h hx
    simp only [Sample.pageWorld] at h
    have hx : x = c!"60" ∨ x = c!"5" := by simpa [Sample.cachedPage, lifetimes] using hx
    have h60 : lifetime c!"60" = 60 := by decide +kernel
    have h5 : lifetime c!"5" = 5 := by decide +kernel
    split at h
    · simp only [Option.some.injEq] at h
      subst h
      rcases hx with rfl | rfl
      · rw [h60]; decide
      · rw [h5]; decide
    · simp at h
  · intro t x hx
    have hx : x = c!"60" ∨ x = c!"5" := by simpa [Sample.cachedPage, lifetimes] using hx
    have h60 : lifetime c!"60" = 60 := by decide +kernel
    have h5 : lifetime c!"5" = 5 := by decide +kernel
    have : Sample.envC.now t ≤ 1500 := by simp only [Sample.envC]; omega
    rcases hx with rfl | rfl
    · rw [h60]; omega
    · rw [h5]; omega

set_option maxRecDepth 10000 in
/-- The premises of C85_requests (so of C85_render) and of C85_history are met by the first request to a cache without entries. -/
example : ∃ bits t', bits = bitsOf Sample.envC Sample.pageSite Sample.caching Sample.cachedPage
      (startMem [(c!"x", .str c!"X")] Sample.pageDefs) Sample.pageWorld ∧ Sample.ask c!"X" Sample.pageWorld = .ok t' ∧
    t'.out = replacements (trim (textOfBits Sample.envC Sample.caching bits)) ∧
    History Sample.envC Sample.caching Sample.pageWorld ([] ++ visitsOf bits) t'.shared.w :=
  C85_requests Sample.envC 10 Sample.pageWorld (Sample.tpl (Sample.schema 1000 [(c!"x", .str c!"X")] Sample.pageDefs) (printPage Sample.cachedPage))
    Sample.pageSite Sample.caching Sample.cachedPage _ _ [(c!"x", .str c!"X")] Sample.pageDefs rfl (Sample.page_site rfl).1 (Sample.page_site rfl).2
    ⟨fun _ _ => rfl, fun _ _ => rfl, fun _ _ => rfl⟩ Sample.page_apart Sample.page_sane Sample.cachedPage_ok rfl (by decide +kernel) rfl rfl rfl
    ⟨.inr ⟨_, rfl⟩, rfl, rfl⟩ (by decide +kernel) (by decide +kernel) Sample.pageWorld [] .start

example (text expires : Str) :
    Sample.pageWorld.fs (entryFile Sample.envC Sample.caching.dir Sample.caching.pre text expires) = none := by
  obtain ⟨r, h⟩ := Sample.entry_slash text expires
  rw [h]
  simp [Sample.pageWorld]

set_option maxRecDepth 10000 in
/-- And those of C85_transparent. -/
example : ∃ t1 t2, Sample.ask c!"X" Sample.pageWorld = .ok t1 ∧
    Tpl.render Sample.envC 10 Sample.pageWorld
      { Sample.tpl (Sample.schema 1000 [(c!"x", .str c!"X")] Sample.pageDefs) (printPage Sample.cachedPage) with
        raw := printPage (asCode Sample.cachedPage) } = .ok t2 ∧
    t1.out = t2.out ∧ t1.shared.schema.index c!"data" = t2.shared.schema.index c!"data" ∧ t1.shared.count = t2.shared.count ∧
    t2.shared.w = Sample.pageWorld :=
  C85_transparent Sample.envC 10 Sample.pageWorld (Sample.tpl (Sample.schema 1000 [(c!"x", .str c!"X")] Sample.pageDefs) (printPage Sample.cachedPage))
    Sample.pageSite Sample.caching Sample.cachedPage _ _ [(c!"x", .str c!"X")] Sample.pageDefs rfl (Sample.page_site rfl).1 (Sample.page_site rfl).2
    ⟨fun _ _ => rfl, fun _ _ => rfl, fun _ _ => rfl⟩ Sample.page_apart Sample.page_sane Sample.cachedPage_ok rfl
    ⟨_, _, _, _, .tail _ (.head _)⟩ rfl rfl rfl
    ⟨.inr ⟨_, rfl⟩, rfl, rfl⟩ (by decide +kernel) (by decide +kernel) (by
      simp only [Sample.cachedPage, NoneFresh, true_and, and_true]
      have none_of : ∀ {α : Type} {x : Option α} {e : α} {p : Prop}, x.isNone = true → x = some e → p := by
        intro α x e p h1 h2; rw [h2] at h1; simp at h1
      exact ⟨fun _ e h => none_of (by decide +kernel) h, fun _ e h => none_of (by decide +kernel) h⟩)

end Nts
