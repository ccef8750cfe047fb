import Verif.Spec.Cache
import Verif.Spec.Sample
import Verif.Lemmas.Eval
/-
C38: the cache.
-/
set_option autoImplicit false
namespace Nts
open Spec

theorem named_cache : Named c!"cache" := by
  refine ⟨by decide, ?_⟩
  intro c r hc
  injection hc with h1 h2
  subst h1
  decide

theorem cacheOff_eq {sh : Shared} (h : CacheOn sh) :
    cacheOff sh (given (sh.schema.index c!"data") c!"POST") (given (sh.schema.index c!"data") c!"GET")
      (given (sh.schema.index c!"data") c!"COOKIES") = false := by
  obtain ⟨h0, h1, h2, h3⟩ := h
  unfold cacheOff
  rw [h0]
  revert h1 h2 h3
  cases given (sh.schema.index c!"data") c!"POST" <;> cases given (sh.schema.index c!"data") c!"GET" <;>
    cases given (sh.schema.index c!"data") c!"COOKIES" <;> simp_all

theorem cacheId_eq (env : Env) (s : St) (was : Value) (args : List Str) (expires : Str) :
    cacheId env s (given was c!"POST") (given was c!"GET") (given was c!"COOKIES") args expires =
      identification (requestOf env s.sh was ((args[2]?).getD []) expires s.b.code) ((args[3]?).getD []) := by
  have hl : ∀ n : Str, stripPrefix? c!"local::" (c!"CONTEXT->" ++ n) = none := by intro n; rfl
  have e1 : getData env s c!"CONTEXT->HOST" = getFromKey env.f64 (s.sh.schema.index c!"data") c!"CONTEXT->HOST" := rfl
  have e2 : getData env s c!"CONTEXT->ROUTE" = getFromKey env.f64 (s.sh.schema.index c!"data") c!"CONTEXT->ROUTE" := rfl
  have ht : argTruthy (argOpt args 3) = OnlyId ((args[3]?).getD []) := by
    unfold argTruthy argOpt OnlyId
    generalize (args[3]?).getD [] = a
    by_cases h1 : a = []
    · subst h1; decide
    · by_cases h2 : a = c!"false"
      · subst h2; decide
      · by_cases h3 : a = c!"0"
        · subst h3; decide
        · simp [h1, h2, h3]
  unfold cacheId identification
  dsimp only
  rw [ht, e1, e2]
  split
  · rfl
  · rfl

theorem cacheFile_eq (env : Env) (sh : Shared) (id expires : Str) :
    cacheFile env sh id expires = entryFile env sh.cacheDir sh.cachePrefix id expires ∧
      cacheDirOf sh (env.sha256 id) = entryDir env sh.cacheDir sh.cachePrefix id := by
  unfold cacheFile entryFile cacheDirOf entryDir
  cases sh.cachePrefix <;> exact ⟨rfl, rfl⟩

/-- A cached block: its text and what evaluating its arguments gives. -/
structure Spec.CacheBlock (R : Rec) (sh : Shared) (inh : Inherit) (mods src only : Str) (code : Str) (args : List Str)
    (expires : Str) (sh1 : Shared) : Prop where
  modifiers : Mods mods
  nofilter : '&' ∉ mods
  noneg : '!' ∉ mods
  noscope : '+' ∉ mods
  budget : sh.count < sh.max
  selected : Selected inh mods c!"cache" only
  on : CacheOn sh
  parts : ∃ d r, Parts src (some (d :: r)) code ∧ ¬ c!"{:flg;" <:+: d :: r ∧
    ∃ inh1, ArgsGive R c!"cache" only (splitChar d (d :: r)) (counted sh) { entered sh inh with inCache := true } args sh1 inh1
  hasExpires : args[1]? = some expires

/-- The file of the entry of a cached block. -/
def Spec.CacheBlock.file (env : Env) (sh sh1 : Shared) (code : Str) (args : List Str) (expires : Str) : Str :=
  entryFile env sh1.cacheDir sh1.cachePrefix
    (identification (requestOf env sh1 (sh.schema.index c!"data") ((args[2]?).getD []) expires code) ((args[3]?).getD [])) expires

/-- The directory of the entry of a cached block. -/
def Spec.CacheBlock.dir (env : Env) (sh sh1 : Shared) (code : Str) (args : List Str) (expires : Str) : Str :=
  entryDir env sh1.cacheDir sh1.cachePrefix
    (identification (requestOf env sh1 (sh.schema.index c!"data") ((args[2]?).getD []) expires code) ((args[3]?).getD []))

theorem argsGive_inh {R : Rec} {name only : Str} {l l' : List Str} {sh sh' : Shared} {inh inh' : Inherit}
    (h : ArgsGive R name only l sh inh l' sh' inh') : inh' = inh := by
  induction h with
  | nil => rfl
  | cons hn _ ih => rw [ih, nested_inh hn]

/-- The lookup is reached. -/
theorem runBif_cache {env : Env} {R : Rec} {sh sh1 : Shared} {inh : Inherit} {mods src only code expires : Str}
    {args : List Str} (h : CacheBlock R sh inh mods src only code args expires sh1) :
    ∃ s : St, runBif env R sh inh (bifText mods c!"cache" src) only =
        bifResult env (run R (cacheLookup env inh.inCache (CacheBlock.dir env sh sh1 code args expires)
          (CacheBlock.file env sh sh1 code args expires) expires) s) ∧
      s.sh = sh1 ∧ s.inh = entered sh inh ∧ s.b.code = code ∧ s.b.alias = c!"cache" ∧ s.b.out = [] ∧ s.only = only ∧
      s.b.filePath = [] ∧ s.b.dir = [] ∧ s.b.modScope = false ∧ s.b.modUpline = decide ('^' ∈ mods) := by
  obtain ⟨d, r, hparts, hflg, inh1, hargs⟩ := h.parts
  have hi1 := argsGive_inh hargs
  subst hi1
  rw [runBif_text env R sh inh mods c!"cache" src only h.modifiers named_cache h.budget h.selected]
  have hbody : bifBody env c!"cache" = bifCache env := rfl
  rw [hbody]
  unfold bifCache
  simp only [run_bind, run_denyMods]
  rw [if_neg (by simp [start, h.nofilter, h.noscope])]
  simp only [andThen_ok]
  rw [run_extract_plain R false hparts _ rfl (by simp)]
  simp only [andThen_ok, run_denyFlgParams]
  rw [if_neg (by simpa using (contains_false_iff (by simp)).2 hflg)]
  simp only [andThen_ok, run_getSt, run_ite]
  rw [if_neg (by simp [start, h.noneg])]
  have hoff := cacheOff_eq (sh := counted sh) h.on
  rw [if_neg (by
    change ¬ cacheOff (counted sh) (given ((counted sh).schema.index c!"data") c!"POST")
      (given ((counted sh).schema.index c!"data") c!"GET") (given ((counted sh).schema.index c!"data") c!"COOKIES") = true
    rw [hoff]; simp)]
  simp only [run_bind, run_op_setInCache, step, toRes_ok, andThen_ok]
  rw [run_extractArgs R hargs _ (by rfl) (by rfl) (by rfl) (by rfl) (by rfl) (by rfl) (by rfl)]
  simp only [andThen_ok, run_op_setInCache, step, toRes_ok, run_argReq, h.hasExpires, run_getSt]
  refine ⟨⟨sh1, entered sh inh, { (start sh inh mods c!"cache" src only).b with params := d :: r, code := code },
    bifText mods c!"cache" src, only⟩, ?_, rfl, rfl, rfl, rfl, rfl, rfl, rfl, rfl, by simp [start, h.noscope], rfl⟩
  have hid := cacheId_eq env ⟨sh1, entered sh inh, { (start sh inh mods c!"cache" src only).b with
    params := d :: r, code := code }, bifText mods c!"cache" src, only⟩ (sh.schema.index c!"data") args expires
  unfold CacheBlock.file CacheBlock.dir
  rw [← (cacheFile_eq env sh1 _ expires).1, ← (cacheFile_eq env sh1 _ expires).2]
  dsimp only at hid
  rw [← hid]
  rfl

/-- **C38 (hit).** When the entry of the request exists, is readable and has not expired, the block gives exactly its
content, and the code is not evaluated (only the clock was read). -/
theorem C38_hit (env : Env) (R : Rec) (sh sh1 : Shared) (inh : Inherit) (mods src only code expires text : Str)
    (args : List Str) (e : FileEntry) (h : CacheBlock R sh inh mods src only code args expires sh1)
    (he : sh1.w.fs (CacheBlock.file env sh sh1 code args expires) = some e) (hc : e.content = some text)
    (hfit : e.mtime + lifetime expires < 2 ^ 64) (hfresh : env.now sh1.w.tick ≤ e.mtime + lifetime expires) :
    runBif env R sh inh (bifText mods c!"cache" src) only =
      finish (decide ('^' ∈ mods)) text (ticked sh1) (entered sh inh) := by
  obtain ⟨s, h1, rfl, hi, hcode, _, _, _, _, _, _, hu⟩ := runBif_cache (env := env) h
  rw [h1]
  unfold cacheLookup
  simp only [run_bind, run_getSt, andThen_ok]
  rw [he]
  simp only [run_bind, run_tick, andThen_ok]
  have hexp : cacheExpired env (env.now s.sh.w.tick) e.mtime ((parseU64 expires).getD 0) = some false := by
    unfold cacheExpired
    rw [if_pos (show e.mtime + (parseU64 expires).getD 0 < 2 ^ 64 from hfit)]
    congr 1
    rw [decide_eq_false_iff_not]
    have : env.now s.sh.w.tick ≤ e.mtime + (parseU64 expires).getD 0 := hfresh
    omega
  rw [hexp]
  simp only [hc, run_setOut]
  simp only [bifResult, bifFinish, finish, hu, hi]
  rfl

/-- There is no usable entry: no file, or an expired one (then the clock was read).  Where the numbers of the machine wrap, an
entry of the time `t` with the lifetime `d`, such that `t + d` is `2 ^ 64 + k`, has expired after the time `k`. -/
inductive Spec.Missing (env : Env) (sh : Shared) (file expires : Str) : Shared → Prop
  | absent : sh.w.fs file = none → Missing env sh file expires sh
  | expired (e : FileEntry) : sh.w.fs file = some e → e.mtime + lifetime expires < 2 ^ 64 →
      e.mtime + lifetime expires < env.now sh.w.tick → Missing env sh file expires (ticked sh)
  | wrapped (e : FileEntry) (k : Nat) : sh.w.fs file = some e → env.overflowChecks = false → e.mtime + lifetime expires = 2 ^ 64 + k →
      k < 2 ^ 64 → k < env.now sh.w.tick → Missing env sh file expires (ticked sh)

/-- Storing is reached. -/
theorem run_cacheLookup_missing {env : Env} {R : Rec} {sh' : Shared} {b : Bool} {dir file expires : Str} {s : St}
    (h : Missing env s.sh file expires sh') :
    run R (cacheLookup env b dir file expires) s = run R (cacheStore env b dir file) { s with sh := sh' } := by
  unfold cacheLookup
  simp only [run_bind, run_getSt, andThen_ok]
  generalize hsh : s.sh = sh at h
  cases h with
  | absent h =>
    subst hsh
    rw [h]
  | expired e h h1 h2 =>
    subst hsh
    rw [h]
    simp only [run_bind, run_tick, andThen_ok]
    have hexp : cacheExpired env (env.now s.sh.w.tick) e.mtime ((parseU64 expires).getD 0) = some true := by
      unfold cacheExpired
      rw [if_pos (show e.mtime + (parseU64 expires).getD 0 < 2 ^ 64 from h1)]
      congr 1
      rw [decide_eq_true_iff]
      exact h2
    rw [hexp]
    rfl
  | wrapped e k h ho hk hk' hn =>
    subst hsh
    rw [h]
    simp only [run_bind, run_tick, andThen_ok]
    have hexp : cacheExpired env (env.now s.sh.w.tick) e.mtime ((parseU64 expires).getD 0) = some true := by
      have hk : e.mtime + (parseU64 expires).getD 0 = 2 ^ 64 + k := hk
      unfold cacheExpired
      rw [hk, if_neg (by omega), ho]
      simp only [Bool.false_eq_true, if_false]
      congr 1
      rw [decide_eq_true_iff, Nat.add_mod_left, Nat.mod_eq_of_lt hk']
      exact hn
    rw [hexp]
    rfl

/-- The evaluation of the code. -/
theorem run_cacheParse {R : Rec} {s : St} {y : Str} {sh2 : Shared} {inh2 : Inherit} {c : Bool} (hr : c = s.inh.inCache)
    (hf : s.b.filePath = []) (hd : s.b.dir = []) (hsc : s.b.modScope = false)
    (hev : nested R false s.sh { s.inh with inCache := true } s.b.alias s.b.code s.only = .ok y sh2 inh2) :
    run R (cacheParse c setCode) s = .ok () { s with sh := sh2, b := { s.b with code := y } } := by
  subst hr
  unfold cacheParse
  simp only [run_bind, run_getSt, andThen_ok, run_ite, run_pure']
  by_cases hc : contains c!"{:" s.b.code = true
  · rw [if_pos hc]
    simp only [run_bind, run_op_setInCache, step, toRes_ok, andThen_ok]
    rw [hsc, run_child_nested R s.b.code false { s with inh := { s.inh with inCache := true } } hf hd hc]
    dsimp only
    have hi := nested_inh hev
    rw [hev, hi]
    simp only [andThen_ok, run_setCode, run_op_setInCache, step, toRes_ok, hsc]
  · rw [if_neg hc]
    unfold nested at hev
    rw [if_neg hc] at hev
    simp only [PRes.ok.injEq] at hev
    obtain ⟨rfl, rfl, _⟩ := hev
    rfl

/-- **C38 (miss).** When there is no usable entry, the block gives the evaluation of its code (as part of a cache), and
exactly this text is stored, with the current time, in the file of the entry; no other file changes by storing. -/
theorem C38_miss (env : Env) (R : Rec) (sh sh1 sh1' sh2 : Shared) (inh inh2 : Inherit) (mods src only code expires y : Str)
    (args : List Str) (h : CacheBlock R sh inh mods src only code args expires sh1)
    (hmiss : Missing env sh1 (CacheBlock.file env sh sh1 code args expires) expires sh1')
    (hev : nested R false sh1' { entered sh inh with inCache := true } c!"cache" code only = .ok y sh2 inh2)
    (hdir : env.mkdirErr sh2.w.tick (CacheBlock.dir env sh sh1 code args expires) = none)
    (hcreate : env.createErr sh2.w.tick (CacheBlock.file env sh sh1 code args expires) = none)
    (hwrite : env.writeErr sh2.w.tick (CacheBlock.file env sh sh1 code args expires) = none) :
    runBif env R sh inh (bifText mods c!"cache" src) only =
      finish (decide ('^' ∈ mods)) y
        (stored (ticked sh2) (CacheBlock.file env sh sh1 code args expires) y (env.now sh2.w.tick)) (entered sh inh) := by
  obtain ⟨s, h1, rfl, hi, hcode, hal, hout, honly, hf, hd, hsc, hu⟩ := runBif_cache (env := env) h
  rw [h1, run_cacheLookup_missing hmiss]
  unfold cacheStore
  simp only [run_bind]
  rw [run_cacheParse (s := { s with sh := sh1' }) (by simp only [hi]; rfl) hf hd hsc (by simp only [hi, hal, hcode, honly]; exact hev)]
  simp only [andThen_ok, run_outCode, run_getSt, run_tick]
  rw [hdir]
  dsimp only
  rw [hcreate]
  simp only [run_bind, run_op_writeFile, step, toRes_ok, andThen_ok]
  rw [hwrite]
  simp only [run_op_writeFile, step, toRes_ok, bifResult, bifFinish, finish, hu, hi]
  unfold stored ticked
  congr 4
  funext x
  by_cases hx : x = CacheBlock.file env sh s.sh code args expires
  · rw [if_pos hx, if_pos hx]
  · rw [if_neg hx, if_neg hx, if_neg hx]

/-- **C38 (storing fails).** When the entry cannot be created the block gives the same text; nothing is stored and the error
is reported. -/
theorem C38_store_fails (env : Env) (R : Rec) (sh sh1 sh1' sh2 : Shared) (inh inh2 : Inherit) (mods src only code expires y : Str)
    (args : List Str) (h : CacheBlock R sh inh mods src only code args expires sh1)
    (hmiss : Missing env sh1 (CacheBlock.file env sh sh1 code args expires) expires sh1')
    (hev : nested R false sh1' { entered sh inh with inCache := true } c!"cache" code only = .ok y sh2 inh2)
    (hfail : env.mkdirErr sh2.w.tick (CacheBlock.dir env sh sh1 code args expires) ≠ none ∨
      env.createErr sh2.w.tick (CacheBlock.file env sh sh1 code args expires) ≠ none)
    (hshow : (showErrors sh2).isSome = true) :
    ∃ line, runBif env R sh inh (bifText mods c!"cache" src) only =
      finish (decide ('^' ∈ mods)) y (pushError (ticked (ticked sh2)) line) (entered sh inh) := by
  obtain ⟨s, h1, rfl, hi, hcode, hal, hout, honly, hf, hd, hsc, hu⟩ := runBif_cache (env := env) h
  rw [h1, run_cacheLookup_missing hmiss]
  unfold cacheStore
  simp only [run_bind]
  rw [run_cacheParse (s := { s with sh := sh1' }) (by simp only [hi]; rfl) hf hd hsc (by simp only [hi, hal, hcode, honly]; exact hev)]
  simp only [andThen_ok, run_outCode, run_getSt, run_tick]
  have hs : showErrors (ticked sh2) = showErrors sh2 := rfl
  obtain ⟨bb, hbb⟩ := Option.isSome_iff_exists.1 hshow
  cases hm : env.mkdirErr sh2.w.tick (CacheBlock.dir env sh s.sh code args expires) with
  | some e =>
    simp only [run_bifError, bifResult]
    rw [show showErrors { sh2 with w := { sh2.w with tick := sh2.w.tick + 1 } } = some bb from hbb]
    simp only [bifFinish, finish, hu, hi]
    exact ⟨_, rfl⟩
  | none =>
    cases hc : env.createErr sh2.w.tick (CacheBlock.file env sh s.sh code args expires) with
    | none => rcases hfail with h | h <;> contradiction
    | some e =>
      simp only [run_bifError, bifResult]
      rw [show showErrors { sh2 with w := { sh2.w with tick := sh2.w.tick + 1 } } = some bb from hbb]
      simp only [bifFinish, finish, hu, hi]
      exact ⟨_, rfl⟩

/-- **C38 (round trip).** A later request with the same entry, within the lifetime and with the file untouched, gives what
was stored by the request that missed, without evaluating its own code. -/
theorem C38_roundtrip (env : Env) (R R' : Rec) (sh sh1 sh1' sh2 sh3 : Shared) (inh inh2 inh3 : Inherit)
    (mods src only code expires y out : Str) (args : List Str)
    (tsh tsh1 : Shared) (tinh : Inherit) (tmods tsrc tonly tcode texpires : Str) (targs : List Str)
    (h : CacheBlock R sh inh mods src only code args expires sh1)
    (hmiss : Missing env sh1 (CacheBlock.file env sh sh1 code args expires) expires sh1')
    (hev : nested R false sh1' { entered sh inh with inCache := true } c!"cache" code only = .ok y sh2 inh2)
    (hdir : env.mkdirErr sh2.w.tick (CacheBlock.dir env sh sh1 code args expires) = none)
    (hcreate : env.createErr sh2.w.tick (CacheBlock.file env sh sh1 code args expires) = none)
    (hwrite : env.writeErr sh2.w.tick (CacheBlock.file env sh sh1 code args expires) = none)
    (hrun : runBif env R sh inh (bifText mods c!"cache" src) only = .ok out sh3 inh3)
    (h' : CacheBlock R' tsh tinh tmods tsrc tonly tcode targs texpires tsh1)
    (hsame : CacheBlock.file env tsh tsh1 tcode targs texpires = CacheBlock.file env sh sh1 code args expires)
    (huntouched : tsh1.w.fs (CacheBlock.file env sh sh1 code args expires) = sh3.w.fs (CacheBlock.file env sh sh1 code args expires))
    (hfit : env.now sh2.w.tick + lifetime texpires < 2 ^ 64)
    (hfresh : env.now tsh1.w.tick ≤ env.now sh2.w.tick + lifetime texpires) :
    runBif env R' tsh tinh (bifText tmods c!"cache" tsrc) tonly =
      finish (decide ('^' ∈ tmods)) y (ticked tsh1) (entered tsh tinh) := by
  rw [C38_miss env R sh sh1 sh1' sh2 inh inh2 mods src only code expires y args h hmiss hev hdir hcreate hwrite] at hrun
  simp only [finish, PRes.ok.injEq] at hrun
  refine C38_hit env R' tsh tsh1 tinh tmods tsrc tonly tcode texpires y targs
    ⟨some y, env.now sh2.w.tick, true⟩ h' ?_ rfl hfit hfresh
  rw [hsame, huntouched, ← hrun.2.1]
  simp [stored]

/-! ### different requests -/

theorem append_cancel_mid {a b x y : Str} (h : a ++ x ++ b = a ++ y ++ b) : x = y := by
  rw [List.append_assoc, List.append_assoc] at h
  exact List.append_cancel_right (List.append_cancel_left h)

/-- The two requests differ in exactly one of the things a cached block depends on. -/
inductive Spec.DifferInOne (r : Request) : Request → Prop
  | id (x : Str) : x ≠ r.id → DifferInOne r { r with id := x }
  | lang (x : Str) : x ≠ r.lang → DifferInOne r { r with lang := x }
  | post (x : Str) : x ≠ r.post → DifferInOne r { r with post := x }
  | get (x : Str) : x ≠ r.get → DifferInOne r { r with get := x }
  | cookies (x : Str) : x ≠ r.cookies → DifferInOne r { r with cookies := x }
  | host (x : Str) : x ≠ r.host → DifferInOne r { r with host := x }
  | route (x : Str) : x ≠ r.route → DifferInOne r { r with route := x }
  | code (x : Str) : x ≠ r.code → DifferInOne r { r with code := x }

theorem differ_text {r r' : Request} (h : DifferInOne r r') : r'.text ≠ r.text := by
  cases h with
  | _ x hx =>
    intro he
    unfold Request.text at he
    dsimp only at he
    refine hx ?_
    simp only [List.append_assoc, List.append_cancel_left_eq, List.append_cancel_right_eq] at he
    first
      | exact he
      | exact List.append_cancel_right he

theorem entryFile_inj {env : Env} {dir pre t t' e e' : Str} (hlen : (env.sha256 t).length = (env.sha256 t').length)
    (h : entryFile env dir pre t e = entryFile env dir pre t' e') : env.sha256 t = env.sha256 t' ∧ e = e' := by
  unfold entryFile entryDir at h
  simp only [List.append_assoc, List.append_cancel_left_eq] at h
  obtain ⟨_, h⟩ := List.append_inj h (by simp [hlen])
  simp only [List.cons_append, List.nil_append, List.cons.injEq, true_and] at h
  obtain ⟨h1, h⟩ := List.append_inj h hlen
  simp only [List.cons.injEq, true_and] at h
  exact ⟨h1, h⟩

/-- **C38 (separation, partial).** Two requests (with automatic identification) that differ in exactly one of id, language,
POST, GET, cookies, host, route or code, or that have different lifetimes, never have the same entry, unless the hash
collides.  Missing: requests that differ in several components can share an entry, see `C38_refuted`. -/
theorem C38_separate_partial (env : Env) (dir pre : Str) (r r' : Request)
    (hlen : (env.sha256 r.text).length = (env.sha256 r'.text).length)
    (hcoll : env.sha256 r.text = env.sha256 r'.text → r.text = r'.text)
    (h : DifferInOne r r' ∨ r.expires ≠ r'.expires) :
    entryFile env dir pre r.text r.expires ≠ entryFile env dir pre r'.text r'.expires := by
  intro he
  obtain ⟨h1, h2⟩ := entryFile_inj hlen he
  rcases h with h | h
  · exact differ_text h (hcoll h1).symm
  · exact h h2

/-- **C38 (separation, exactly).** Unless the hash collides, two requests share an entry exactly when they have the same
lifetime and the nine components, written one after the other without separators, give the same text. -/
theorem C38_exact (env : Env) (dir pre : Str) (r r' : Request)
    (hlen : (env.sha256 r.text).length = (env.sha256 r'.text).length)
    (hcoll : env.sha256 r.text = env.sha256 r'.text → r.text = r'.text) :
    entryFile env dir pre r.text r.expires = entryFile env dir pre r'.text r'.expires ↔
      r.expires = r'.expires ∧
      r.id ++ r.lang ++ r.expires ++ r.post ++ r.get ++ r.cookies ++ r.host ++ r.route ++ r.code =
        r'.id ++ r'.lang ++ r'.expires ++ r'.post ++ r'.get ++ r'.cookies ++ r'.host ++ r'.route ++ r'.code := by
  constructor
  · intro he
    obtain ⟨h1, h2⟩ := entryFile_inj hlen he
    exact ⟨h2, hcoll h1⟩
  · rintro ⟨h1, h2⟩
    have : r.text = r'.text := h2
    rw [this, h1]

/-- **C38 (the longest lifetime).** Where the numbers of the machine wrap, the lifetime 18446744073709551615 is none: an entry of any
earlier time is not used, the code is evaluated and stored again at every request. -/
theorem C38_longest (env : Env) (R : Rec) (sh sh1 sh2 : Shared) (inh inh2 : Inherit) (mods src only code expires y : Str)
    (args : List Str) (e : FileEntry) (h : CacheBlock R sh inh mods src only code args expires sh1) (hwrap : env.overflowChecks = false)
    (hlong : lifetime expires = 18446744073709551615) (he : sh1.w.fs (CacheBlock.file env sh sh1 code args expires) = some e)
    (hold : 0 < e.mtime ∧ e.mtime ≤ env.now sh1.w.tick ∧ e.mtime < 2 ^ 64)
    (hev : nested R false (ticked sh1) { entered sh inh with inCache := true } c!"cache" code only = .ok y sh2 inh2)
    (hdir : env.mkdirErr sh2.w.tick (CacheBlock.dir env sh sh1 code args expires) = none)
    (hcreate : env.createErr sh2.w.tick (CacheBlock.file env sh sh1 code args expires) = none)
    (hwrite : env.writeErr sh2.w.tick (CacheBlock.file env sh sh1 code args expires) = none) :
    runBif env R sh inh (bifText mods c!"cache" src) only =
      finish (decide ('^' ∈ mods)) y
        (stored (ticked sh2) (CacheBlock.file env sh sh1 code args expires) y (env.now sh2.w.tick)) (entered sh inh) :=
  C38_miss env R sh sh1 _ sh2 inh inh2 mods src only code expires y args h
    (.wrapped e (e.mtime - 1) he hwrap (by rw [hlong]; omega) (by omega) (by omega)) hev hdir hcreate hwrite

/-! ### refutation and examples -/

/-- Render a source in the world left by an earlier render, with other data. -/
def Sample.later (first : Obj) (second : Obj) (src : Str) : RRes :=
  match Sample.go first src with
  | .ok t => (Sample.tpl (Sample.schema 1000 second Sample.inherit) src).render Sample.env 10 t.shared.w
  | r => r

/-- Request data with a host and a route. -/
def Sample.site (host route : Str) : Obj := [(c!"CONTEXT", .obj [(c!"HOST", .str host), (c!"ROUTE", .str route)])]

/-- **C38 (refuted).** Two requests that differ in host and route share an entry: the second gets the page made for the
host of the first.  (The texts that are hashed are equal, so this does not depend on the hash.) -/
theorem C38_refuted :
    Sample.outOf (Sample.go (Sample.site c!"ab" c!"c") c!"{:cache; /100/ >> Host {:;CONTEXT->HOST:} :}") =
      some (c!"Host ab", c!"200") ∧
    Sample.outOf (Sample.go (Sample.site c!"a" c!"bc") c!"{:cache; /100/ >> Host {:;CONTEXT->HOST:} :}") =
      some (c!"Host a", c!"200") ∧
    Sample.outOf (Sample.later (Sample.site c!"ab" c!"c") (Sample.site c!"a" c!"bc")
      c!"{:cache; /100/ >> Host {:;CONTEXT->HOST:} :}") = some (c!"Host ab", c!"200") := by
  refine ⟨?_, ?_, ?_⟩ <;> decide +kernel

/-- Any two requests that agree on everything else and whose host and route concatenate to the same text share an entry. -/
theorem C38_shared (env : Env) (dir pre : Str) (r r' : Request) (h : r' = { r with host := r'.host, route := r'.route })
    (hc : r'.host ++ r'.route = r.host ++ r.route) :
    entryFile env dir pre r'.text r'.expires = entryFile env dir pre r.text r.expires := by
  have he : r'.expires = r.expires := by rw [h]
  have ht : r'.text = r.text := by
    rw [h]
    unfold Request.text
    dsimp only
    rw [List.append_assoc _ r'.host, hc]
    simp [List.append_assoc]
  rw [he, ht]

set_option maxRecDepth 10000 in
/-- A later request with the same host and route gets the stored text although other data changed; one with another host
gets its own text; after the lifetime the text is made again. -/
example :
    Sample.outOf (Sample.later ((c!"x", .str c!"1") :: Sample.site c!"a" c!"r") ((c!"x", .str c!"2") :: Sample.site c!"a" c!"r")
      c!"{:cache; /100/ >> {:;x:} :}") = some (c!"1", c!"200") ∧
    Sample.outOf (Sample.later ((c!"x", .str c!"1") :: Sample.site c!"a" c!"r") ((c!"x", .str c!"2") :: Sample.site c!"b" c!"r")
      c!"{:cache; /100/ >> {:;x:} :}") = some (c!"2", c!"200") ∧
    Sample.outOf (Sample.later ((c!"x", .str c!"1") :: Sample.site c!"a" c!"r") ((c!"x", .str c!"2") :: Sample.site c!"a" c!"r")
      c!"{:cache; /0/ >> {:;x:} :}") = some (c!"2", c!"200") := by
  refine ⟨?_, ?_, ?_⟩ <;> decide +kernel

set_option maxRecDepth 10000 in
/-- Where overflow is checked, the second request panics. -/
example : Sample.panicOf (Sample.later ((c!"x", .str c!"1") :: Sample.site c!"a" c!"r") ((c!"x", .str c!"2") :: Sample.site c!"a" c!"r")
      c!"{:cache; /18446744073709551615/ >> {:;x:} :}") = some .overflow ∧ lifetime c!"18446744073709551615" = 18446744073709551615 := by
  decide +kernel

/-- A cached block whose premises are met, in any inherited state. -/
example (R : Rec) (inh : Inherit) : CacheBlock R (Sample.shared (Sample.schema 1000 [] Sample.inherit))
    inh [] c!" /100/ >> x " [] c!"x" [c!"", c!"100", c!""]
    c!"100" (counted (Sample.shared (Sample.schema 1000 [] Sample.inherit))) where
  modifiers := by unfold Mods; decide
  nofilter := by decide
  noneg := by decide
  noscope := by decide
  budget := by decide
  selected := .inl rfl
  on := by unfold CacheOn; decide
  parts := ⟨'/', c!"100/", .both (a := c!"/100/ ") (r := c!" x") (noSep_plain _ _ (by decide)) (by decide), by decide, _,
    .cons rfl (.cons rfl (.cons rfl (.nil _ _)))⟩
  hasExpires := rfl

end Nts
