import Verif.Props.Cache
import Verif.Props.AllowBif
import Verif.Props.Lang
/-
C75: what is excluded from the cache is evaluated at each request and never stored.
-/
set_option autoImplicit false
namespace Nts
open Spec

/-- **C75 (off).** When the cache is disabled, or the request has POST, GET or cookie data for which caching is not configured, a cached
block gives the evaluation of its code and nothing else: no entry is read or written. -/
theorem C75_off (env : Env) (R : Rec) (sh : Shared) (inh : Inherit) (mods src only c : Str) (p : Option Str)
    (hm : Mods mods) (hf : '&' ∉ mods) (hneg : '!' ∉ mods) (hsc : '+' ∉ mods) (hmax : sh.count < sh.max)
    (hsel : Selected inh mods c!"cache" only) (hparts : Parts src p c) (hflg : ¬ c!"{:flg;" <:+: p.getD [])
    (hoff : ¬ CacheOn sh) :
    runBif env R sh inh (bifText mods c!"cache" src) only = shown R mods c!"cache" c only (counted sh) (entered sh inh) := by
  rw [runBif_text env R sh inh mods c!"cache" src only hm named_cache hmax hsel]
  have hbody : bifBody env c!"cache" = bifCache env := rfl
  rw [hbody]
  unfold bifCache
  simp only [run_bind, run_denyMods]
  rw [if_neg (by simp [start, hf, hsc])]
  simp only [andThen_ok]
  rw [run_extract_plain R false hparts _ rfl (by simp)]
  simp only [andThen_ok, run_denyFlgParams]
  rw [if_neg (by
    rw [contains_iff (by decide)]
    exact hflg)]
  simp only [andThen_ok, run_getSt, run_ite]
  rw [if_neg (by simp [start, hneg])]
  have h : cacheOff (counted sh) (given (sh.schema.index c!"data") c!"POST")
      (given (sh.schema.index c!"data") c!"GET") (given (sh.schema.index c!"data") c!"COOKIES") = true := by
    unfold cacheOff
    simp only [counted]
    unfold CacheOn at hoff
    cases h1 : sh.cacheDisable <;> cases h2 : given (sh.schema.index c!"data") c!"POST" <;>
      cases h3 : given (sh.schema.index c!"data") c!"GET" <;> cases h4 : given (sh.schema.index c!"data") c!"COOKIES" <;>
      cases h5 : sh.cacheOnPost <;> cases h6 : sh.cacheOnGet <;> cases h7 : sh.cacheOnCookies <;> simp_all
  rw [if_pos (by exact h)]
  simp only [run_bind]
  exact bifResult_shown env R mods c!"cache" c only (counted sh) (entered sh inh) _ rfl rfl rfl rfl rfl rfl rfl rfl rfl

/-- **C75 (excluded, inside).** Inside a cached block, `{:!cache; ... :}` prints itself, unevaluated: what is stored contains its
text, not its output. -/
theorem C75_excluded (env : Env) (R : Rec) (sh : Shared) (inh : Inherit) (mods src only c : Str) (p : Option Str)
    (hm : Mods mods) (hf : '&' ∉ mods) (hneg : '!' ∈ mods) (hsc : '+' ∉ mods) (hmax : sh.count < sh.max)
    (hsel : Selected inh mods c!"cache" only) (hparts : Parts src p c) (hflg : ¬ c!"{:flg;" <:+: p.getD [])
    (hin : inh.inCache = true) :
    runBif env R sh inh (bifText mods c!"cache" src) only =
      finish (decide ('^' ∈ mods)) (bifText mods c!"cache" src) (counted sh) (entered sh inh) := by
  rw [runBif_text env R sh inh mods c!"cache" src only hm named_cache hmax hsel]
  have hbody : bifBody env c!"cache" = bifCache env := rfl
  rw [hbody]
  unfold bifCache
  simp only [run_bind, run_denyMods]
  rw [if_neg (by simp [start, hf, hsc])]
  simp only [andThen_ok]
  rw [run_extract_plain R false hparts _ rfl (by simp)]
  simp only [andThen_ok, run_denyFlgParams]
  rw [if_neg (by
    rw [contains_iff (by decide)]
    exact hflg)]
  simp only [andThen_ok, run_getSt, run_ite]
  rw [if_pos (by simp [start, hneg]), if_pos (by simp [start, hin])]
  rfl

/-- **C75 (excluded, outside).** Elsewhere - also in the pass that follows, over the page taken from the cache - `{:!cache; code :}`
gives the evaluation of its code. -/
theorem C75_evaluated (env : Env) (R : Rec) (sh sh1 : Shared) (inh inh1 : Inherit) (mods src only c x : Str) (p : Option Str)
    (hm : Mods mods) (hf : '&' ∉ mods) (hneg : '!' ∈ mods) (hsc : '+' ∉ mods) (hmax : sh.count < sh.max)
    (hsel : Selected inh mods c!"cache" only) (hparts : Parts src p c) (hflg : ¬ c!"{:flg;" <:+: p.getD [])
    (hin : inh.inCache = false)
    (hx : evaluated R false (counted sh) (entered sh inh) c!"cache" c only = .ok x sh1 inh1) :
    runBif env R sh inh (bifText mods c!"cache" src) only = finish (decide ('^' ∈ mods)) x sh1 inh1 := by
  rw [runBif_text env R sh inh mods c!"cache" src only hm named_cache hmax hsel]
  have hbody : bifBody env c!"cache" = bifCache env := rfl
  rw [hbody]
  unfold bifCache
  simp only [run_bind, run_denyMods]
  rw [if_neg (by simp [start, hf, hsc])]
  simp only [andThen_ok]
  rw [run_extract_plain R false hparts _ rfl (by simp)]
  simp only [andThen_ok, run_denyFlgParams]
  rw [if_neg (by
    rw [contains_iff (by decide)]
    exact hflg)]
  simp only [andThen_ok, run_getSt, run_ite]
  rw [if_pos (by simp [start, hneg]), if_neg (by simp [start, hin])]
  simp only [run_bind]
  have hms : (start sh inh mods c!"cache" src only).b.modScope = false := by simp [start, hsc]
  have hch : ∀ b : Bool, b = false → ∀ (c : Str) (s : St), run R (childParse c b) s = run R (childParse c false) s := by
    intro b h c s; rw [h]
  rw [hch _ hms, run_child_evaluated R _ _ rfl rfl]
  change bifResult env (Res.andThen (match evaluated R false (counted sh) (entered sh inh) c!"cache" c only with
    | .ok x sh' inh' => _
    | .panic p => _
    | .oof => _) _) = _
  rw [hx]
  simp only [andThen_ok, run_setOut]
  rfl

/-- **C75 (stored).** When a cached block without a usable entry has in its code a text `a`, then `{:!cache; ... :}`, then a text `b`,
what it gives and what is stored in its entry is `a`, the text of `{:!cache; ... :}` as it is written, and `b`: the code of the
excluded part is not evaluated, and its output is in no entry. -/
theorem C75_stored (env : Env) (n : Nat) (sh sh1 sh1' : Shared) (inh : Inherit) (mods src only a mods' src' b c expires : Str)
    (p : Option Str) (args : List Str) (k : Nat)
    (h : CacheBlock (runBlocks env (n + 1)) sh inh mods src only (a ++ bifText mods' c!"cache" src' ++ b) args expires sh1)
    (hmiss : Missing env sh1 (CacheBlock.file env sh sh1 (a ++ bifText mods' c!"cache" src' ++ b) args expires) expires sh1')
    (hlev : AtLevel inh k) (hex : sh1'.exit = false) (hmax : sh1'.count < sh1'.max)
    (ha : ¬ c!"{:" <:+: a) (hb : ¬ c!"{:" <:+: b)
    {l : List (Nat × Nat)} (hwf : WellFormed 0 (a ++ bifText mods' c!"cache" src' ++ b) l) (hbif : IsBif (bifText mods' c!"cache" src'))
    (hm : Mods mods') (hf : '&' ∉ mods') (hneg : '!' ∈ mods') (hsc : '+' ∉ mods') (hup : '^' ∉ mods')
    (hparts : Parts src' p c) (hflg : ¬ c!"{:flg;" <:+: p.getD [])
    (hdir : env.mkdirErr sh1'.w.tick (CacheBlock.dir env sh sh1 (a ++ bifText mods' c!"cache" src' ++ b) args expires) = none)
    (hcreate : env.createErr sh1'.w.tick (CacheBlock.file env sh sh1 (a ++ bifText mods' c!"cache" src' ++ b) args expires) = none)
    (hwrite : env.writeErr sh1'.w.tick (CacheBlock.file env sh sh1 (a ++ bifText mods' c!"cache" src' ++ b) args expires) = none) :
    ∃ sh3 inh3, runBif env (runBlocks env (n + 1)) sh inh (bifText mods c!"cache" src) only =
        .ok (trim (if '^' ∈ mods then c!"&#9224" ++ trim (a ++ bifText mods' c!"cache" src' ++ b)
          else trim (a ++ bifText mods' c!"cache" src' ++ b))) sh3 inh3 ∧
      sh3.w.fs (CacheBlock.file env sh sh1 (a ++ bifText mods' c!"cache" src' ++ b) args expires) =
        some ⟨some (trim (a ++ bifText mods' c!"cache" src' ++ b)), env.now sh1'.w.tick, true⟩ := by
  have hlev' : AtLevel { entered sh inh with inCache := true } k := ⟨hlev.count, hlev.block⟩
  have hin := C75_excluded env (runBlocks env n) sh1' (inside c!"cache" { entered sh inh with inCache := true }) mods' src' only c p hm hf hneg hsc
    hmax (.inr (.inl rfl)) hparts hflg rfl
  have hopen : c!"{:" <:+: a ++ bifText mods' c!"cache" src' ++ b := ⟨a, mods' ++ c!"cache" ++ c!";" ++ src' ++ c!":}" ++ b, by simp [bifText]⟩
  have ht : trim (bifText mods' c!"cache" src') = bifText mods' c!"cache" src' := by
    have e : bifText mods' c!"cache" src' = ('{' :: ':' :: (mods' ++ c!"cache" ++ c!";" ++ src' ++ c!":")) ++ ['}'] := by simp [bifText]
    rw [e]
    unfold trim
    rw [show trimStart (('{' :: ':' :: (mods' ++ c!"cache" ++ c!";" ++ src' ++ c!":")) ++ ['}']) =
      ('{' :: ':' :: (mods' ++ c!"cache" ++ c!";" ++ src' ++ c!":")) ++ ['}'] by simp [trimStart, isWs], trimEnd_last (by decide)]
  rw [finish, if_neg (by simp [hup]), ht] at hin
  have hpa := produces_text env (runBlocks env n) only (inh := inside c!"cache" { entered sh inh with inCache := true }) hex a ha
  have hpb := produces_text env (runBlocks env n) only (inh := { entered sh1' (inside c!"cache" { entered sh inh with inCache := true }) with
    lastBifOut := true, lastCoalesceOut := true }) (sh := counted sh1') hex b hb
  have hp2 : Produces env (runBlocks env n) only (bifText mods' c!"cache" src' ++ b) sh1' (inside c!"cache" { entered sh inh with inCache := true })
      true (bifText mods' c!"cache" src' ++ b) (counted sh1') _ := .evaluated hex hbif (by simp [inside]) hin hpb
  have hp := C68_append hpa rfl hex (by simp [bifText]) hp2
  rw [← List.append_assoc] at hp
  obtain ⟨sh2, h1, h2⟩ := (C68_nested env n sh1' { entered sh inh with inCache := true } c!"cache" _ only k l hwf hlev' hopen).2 _ _ _ _ hp
  have htick : sh2.w = sh1'.w := by rw [h2.rest]; rfl
  have := C38_miss env _ sh sh1 sh1' sh2 inh _ mods src only _ expires _ args h hmiss h1 (by rw [htick]; exact hdir)
    (by rw [htick]; exact hcreate) (by rw [htick]; exact hwrite)
  rw [this]
  refine ⟨_, _, by simp only [finish, ended, decide_eq_true_eq]; rfl, ?_⟩
  simp [stored, ended, htick]

set_option maxRecDepth 10000 in
/-- The premises are met: a second request gets the cached part of the first and its own excluded part; with the cache off it gets
everything anew. -/
example :
    Sample.outOf (Sample.later [(c!"x", .str c!"A")] [(c!"x", .str c!"B")]
      c!"{:cache; /100/ >> {:;x:}{:!cache; {:;x:} :} :}{:!cache; !{:;x:} :}") = some (c!"AB!B", c!"200") ∧
    Sample.outOf (Sample.later [(c!"x", .str c!"A")]
      [(c!"x", .str c!"B"), (c!"CONTEXT", .obj [(c!"POST", .obj [(c!"a", .str c!"b")])])]
      c!"{:cache; /100/ >> {:;x:}{:!cache; {:;x:} :} :}{:!cache; !{:;x:} :}") = some (c!"BB!B", c!"200") := by
  refine ⟨?_, ?_⟩ <;> decide +kernel

theorem Sample.excluded_bif : IsBif c!"{:!cache; x :}" :=
  ⟨c!"!cache; x ", by decide, bal_noBraces (by decide) (by decide) (by decide), by decide⟩

/-- A block whose premises are met. -/
example : ∃ sh3 inh3 out file time, runBif Sample.env (runBlocks Sample.env 2) (Sample.shared (Sample.schema 1000 [] Sample.inherit))
        { Inherit.new with indir := blockId 1, blockCount := 1 } (bifText [] c!"cache" c!" /100/ >> A{:!cache; x :}B ") [] = .ok out sh3 inh3 ∧
      sh3.w.fs file = some ⟨some c!"A{:!cache; x :}B", time, true⟩ := by
  obtain ⟨sh3, inh3, h1, h2⟩ :=
    C75_stored Sample.env 1 (Sample.shared (Sample.schema 1000 [] Sample.inherit)) (counted (Sample.shared (Sample.schema 1000 [] Sample.inherit)))
    (counted (Sample.shared (Sample.schema 1000 [] Sample.inherit))) { Inherit.new with indir := blockId 1, blockCount := 1 } [] c!" /100/ >> A{:!cache; x :}B " [] c!"A" c!"!" c!" x " c!"B" c!"x"
    c!"100" none [c!"", c!"100", c!""] 1
    { modifiers := by unfold Mods; decide
      nofilter := by decide
      noneg := by decide
      noscope := by decide
      budget := by decide
      selected := .inl rfl
      on := by unfold CacheOn; decide
      parts := ⟨'/', c!"100/", .both (a := c!"/100/ ") (r := c!" A{:!cache; x :}B") (noSep_plain _ _ (by decide)) (by decide), by decide, _,
        .cons rfl (.cons rfl (.cons rfl (.nil _ _)))⟩
      hasExpires := rfl }
    (.absent rfl) ⟨rfl, 1, by decide, by decide, rfl⟩ rfl (by decide) (by decide) (by decide)
    (l := [(1, 15)])
    (.chr 'A' (by decide) (by decide) (.block (p := 1) (b := c!"{:!cache; x :}") (s := c!"B") (.inl Sample.excluded_bif) (.chr 'B' (by decide) (by decide) (.nil _)))) 
    Sample.excluded_bif (by unfold Mods; decide) (by decide) (by decide) (by decide) (by decide)
    (.code (noSep_plain _ _ (by decide))) (by decide) rfl rfl rfl
  rw [show trim (c!"A" ++ bifText c!"!" c!"cache" c!" x " ++ c!"B") = c!"A{:!cache; x :}B" by decide] at h2
  exact ⟨sh3, inh3, _, _, _, h1, h2⟩

end Nts
