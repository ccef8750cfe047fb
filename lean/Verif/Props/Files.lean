import Verif.Lemmas.Guard
import Verif.Lemmas.Ops
import Verif.Props.Invariants
import Verif.Props.Render
import Verif.Spec.Sample
/-
C61: which files a render can change.
-/
set_option autoImplicit false
namespace Nts
open Spec

/-- The name of a cache file below the directory `dir`, with the configured prefix: the directory, the prefix if there
is one, a directory named by the first three characters of a hash, and a file whose name begins with that hash and a
hyphen. -/
def Spec.CachePath (env : Env) (dir pre path : Str) : Prop :=
  ∃ id rest, path = dir ++ (if pre = [] then [] else c!"/" ++ pre) ++ c!"/" ++ (env.sha256 id).take 3 ++ c!"/" ++
    env.sha256 id ++ c!"-" ++ rest

/-- The configured cache directory of a schema: the system's temporary directory when none is given. -/
def Spec.cacheDirIn (env : Env) (sc : Value) : Str :=
  if getFromKey env.f64 (sc.index c!"config") c!"cache_dir" = [] then env.tempDir
  else getFromKey env.f64 (sc.index c!"config") c!"cache_dir"

/-- `path` is the bridge script that PHP objects need beside their own script, and it holds the script of the library (or
nothing, when writing it failed). -/
def Spec.BridgeFile (env : Env) (path : Str) (e : Option FileEntry) : Prop :=
  ∃ script c m, env.bridgePath script = .ok path ∧ e = some ⟨some c, m, true⟩ ∧ (c = [] ∨ c = env.bridgeScript)

/-- No file changes except cache files, none of these when the cache is disabled, and bridge scripts of PHP objects, and
no file disappears. -/
structure Spec.OnlyCacheFiles (env : Env) (off : Bool) (dir pre : Str) (a b : Str → Option FileEntry) : Prop where
  changed : ∀ path, b path ≠ a path → (off = false ∧ CachePath env dir pre path) ∨ BridgeFile env path (b path)
  kept : ∀ path, (a path).isSome = true → (b path).isSome = true

section
variable {env : Env} {off : Bool} {dir pre : Str}

/-- The cache settings of a state. -/
def CacheSet (off : Bool) (dir pre : Str) (sh : Shared) : Prop :=
  sh.cacheDisable = off ∧ sh.cacheDir = dir ∧ sh.cachePrefix = pre

/-- Only cache files and bridge scripts are written. -/
def WritesCache (env : Env) (off : Bool) (dir pre : Str) : Op → Prop
  | .writeFile path content m => (off = false ∧ CachePath env dir pre path) ∨
      BridgeFile env path (some ⟨some content, m, true⟩)
  | _ => True

/-- The relation between two states. -/
def FilesRel (env : Env) (off : Bool) (dir pre : Str) (a b : Shared) : Prop :=
  (b.cacheDisable = a.cacheDisable ∧ b.cacheDir = a.cacheDir ∧ b.cachePrefix = a.cachePrefix) ∧
    OnlyCacheFiles env off dir pre a.w.fs b.w.fs

theorem onlyCache_refl (f : Str → Option FileEntry) : OnlyCacheFiles env off dir pre f f :=
  ⟨fun _ h => absurd rfl h, fun _ h => h⟩

theorem onlyCache_trans {f g h : Str → Option FileEntry} (h1 : OnlyCacheFiles env off dir pre f g)
    (h2 : OnlyCacheFiles env off dir pre g h) : OnlyCacheFiles env off dir pre f h := by
  refine ⟨fun p hp => ?_, fun p hp => h2.kept p (h1.kept p hp)⟩
  by_cases h' : h p = g p
  · rw [h']; exact h1.changed p (by rw [← h']; exact hp)
  · exact h2.changed p h'

theorem filesRel_steps : GSteps (CacheSet off dir pre) (WritesCache env off dir pre) (FilesRel env off dir pre) where
  refl _ := ⟨⟨rfl, rfl, rfl⟩, onlyCache_refl _⟩
  trans a b c h1 h2 := ⟨⟨h2.1.1.trans h1.1.1, h2.1.2.1.trans h1.1.2.1, h2.1.2.2.trans h1.1.2.2⟩, onlyCache_trans h1.2 h2.2⟩
  keep a b hI h := ⟨h.1.1.trans hI.1, h.1.2.1.trans hI.2.1, h.1.2.2.trans hI.2.2⟩
  indir _ _ := ⟨⟨rfl, rfl, rfl⟩, onlyCache_refl _⟩
  unmatched _ _ := ⟨⟨rfl, rfl, rfl⟩, onlyCache_refl _⟩
  err _ _ := ⟨⟨rfl, rfl, rfl⟩, onlyCache_refl _⟩
  tick _ _ := ⟨⟨rfl, rfl, rfl⟩, onlyCache_refl _⟩
  flags _ _ := ⟨⟨rfl, rfl, rfl⟩, onlyCache_refl _⟩
  status _ _ _ _ _ := ⟨⟨rfl, rfl, rfl⟩, onlyCache_refl _⟩
  exit _ _ _ _ := ⟨⟨rfl, rfl, rfl⟩, onlyCache_refl _⟩
  redirectJs _ _ _ _ := ⟨⟨rfl, rfl, rfl⟩, onlyCache_refl _⟩
  alreadyJs _ := ⟨⟨rfl, rfl, rfl⟩, onlyCache_refl _⟩
  data _ _ _ _ _ _ _ := ⟨⟨rfl, rfl, rfl⟩, onlyCache_refl _⟩
  moveto _ _ _ _ _ _ _ := ⟨⟨rfl, rfl, rfl⟩, onlyCache_refl _⟩
  count _ _ := ⟨⟨rfl, rfl, rfl⟩, onlyCache_refl _⟩
  write sh path content mtime _ hP := by
    refine ⟨⟨rfl, rfl, rfl⟩, fun p hp => ?_, fun p hp => ?_⟩
    · dsimp only at hp
      split at hp
      · next h => subst h; simp only [if_true]; exact hP
      · exact absurd rfl hp
    · dsimp only
      split
      · rfl
      · exact hp

variable {I : Shared → Prop} {P : Op → Prop}

/-- What an evaluation must be allowed to do, in the states `I`, by the condition `P` on its operations. -/
structure Allows (env : Env) (off : Bool) (dir pre : Str) (I : Shared → Prop) (P : Op → Prop) : Prop where
  set : ∀ sh, I sh → CacheSet off dir pre sh
  other : ∀ o, (∀ p c m, o ≠ .writeFile p c m) → P o
  cache : ∀ path c m, off = false ∧ CachePath env dir pre path → P (.writeFile path c m)
  bridge : ∀ file, OpsG I P (ensureBridge env file)

theorem allows_effects {n : Str} (hA : Allows env off dir pre I P) (hn : n ≠ c!"cache") (hn2 : n ≠ c!"obj") (o : Op) (h : Effects n o) :
    P o := by
  refine hA.other o ?_
  rintro p c m rfl
  exact absurd h (not_or.2 ⟨hn, hn2⟩)

theorem g_of (hA : Allows env off dir pre I P) {α : Type} {p : Prog α} (h : OpsIn (Effects []) p) :
    OpsG I P p :=
  OpsG_of (OpsIn_mono (allows_effects hA (by decide) (by decide)) h)

theorem g_bind (hA : Allows env off dir pre I P) {α β : Type} {p : Prog α} {f : α → Prog β} (hp : OpsIn (Effects []) p)
    (hf : ∀ a, OpsG I P (f a)) :
    OpsG I P (p >>= f) := OpsG_bind (g_of hA hp) hf

theorem g_perform (hA : Allows env off dir pre I P) {o : Op} (h : ∀ p c m, o ≠ .writeFile p c m) :
    OpsG I P (perform o) := OpsG_perform (hA.other o h)

theorem g_cacheParse (hA : Allows env off dir pre I P) (b : Bool) (f : Str → Prog Unit) (h : ∀ x, OpsIn (Effects []) (f x)) :
    OpsG I P (cacheParse b f) := by
  unfold cacheParse
  refine g_bind hA eff_get (fun s => ?_)
  split
  · refine OpsG_bind (g_perform hA (by intros; simp)) (fun _ => ?_)
    refine g_bind hA (eff_child _ _) (fun x => ?_)
    refine g_bind hA (h x) (fun _ => ?_)
    exact g_perform hA (by intros; simp)
  · trivial

theorem g_cacheStore (hA : Allows env off dir pre I P) (b : Bool) (d file : Str) (hf : off = false ∧ CachePath env dir pre file) :
    OpsG I P (cacheStore env b d file) := by
  unfold cacheStore
  refine OpsG_bind (g_cacheParse hA _ _ (fun _ => eff_setCode _)) (fun _ => ?_)
  refine g_bind hA eff_outCode (fun _ => ?_)
  refine g_bind hA eff_get (fun s => ?_)
  refine g_bind hA eff_tick (fun t => ?_)
  split
  · exact g_of hA (eff_error _)
  · split
    · exact g_of hA (eff_error _)
    · refine OpsG_bind (OpsG_perform (hA.cache _ _ _ hf)) (fun _ => ?_)
      split
      · exact g_of hA (eff_error _)
      · exact OpsG_perform (hA.cache _ _ _ hf)

theorem g_cacheLookup (hA : Allows env off dir pre I P) (b : Bool) (d file e : Str) (hf : off = false ∧ CachePath env dir pre file) :
    OpsG I P (cacheLookup env b d file e) := by
  unfold cacheLookup
  refine g_bind hA eff_get (fun s => ?_)
  split
  · exact g_cacheStore hA _ _ _ hf
  · refine g_bind hA eff_tick (fun t => ?_)
    split
    · trivial
    · exact g_cacheStore hA _ _ _ hf
    · split
      · exact g_of hA (eff_setOut _)
      · refine OpsG_bind (g_cacheParse hA _ _ (fun _ => eff_setOut _)) (fun _ => ?_)
        exact g_of hA (eff_error _)

theorem cacheFile_path (sh : Shared) (id e : Str) : CachePath env sh.cacheDir sh.cachePrefix (cacheFile env sh id e) := by
  refine ⟨id, e, ?_⟩
  unfold cacheFile cacheDirOf
  cases sh.cachePrefix <;> simp

theorem g_cache (hA : Allows env off dir pre I P) : OpsG I P (bifCache env) := by
  unfold bifCache
  refine g_bind hA (eff_denyMods _) (fun _ => ?_)
  refine g_bind hA (eff_extract _) (fun _ => ?_)
  refine g_bind hA eff_denyFlgParams (fun _ => ?_)
  refine OpsG_get (hA.other _ (by intros; simp)) (fun s hs' => ?_)
  split
  · split
    · exact g_of hA (eff_setOut _)
    · refine g_bind hA (eff_child _ _) (fun _ => ?_)
      exact g_of hA (eff_setOut _)
  · dsimp only
    split
    · refine g_bind hA (eff_parseCode _) (fun _ => ?_)
      exact g_of hA eff_outCode
    · next hoff =>
      have h0 : off = false := by
        unfold cacheOff at hoff
        rw [← (hA.set _ hs').1]
        cases h : s.sh.cacheDisable with
        | false => rfl
        | true => rw [h] at hoff; simp at hoff
      refine OpsG_bind (g_perform hA (by intros; simp)) (fun _ => ?_)
      refine g_bind hA eff_extractArgs (fun args => ?_)
      refine OpsG_bind (g_perform hA (by intros; simp)) (fun _ => ?_)
      refine g_bind hA (eff_argReq _ _ _) (fun e => ?_)
      refine OpsG_get (hA.other _ (by intros; simp)) (fun s2 hs2' => ?_)
      refine g_cacheLookup hA _ _ _ _ ⟨h0, ?_⟩
      rw [← (hA.set _ hs2').2.1, ← (hA.set _ hs2').2.2]
      exact cacheFile_path _ _ _

theorem g_objCall (hA : Allows env off dir pre I P) (o : Value) (p : Bool) (file : Str) :
    OpsG I P (objCall env o p file) := by
  unfold objCall
  refine g_bind hA eff_get (fun s => ?_)
  refine g_bind hA (eff_objVenv _ _) (fun v => ?_)
  dsimp only
  refine OpsG_bind (by split; trivial; exact hA.bridge _) (fun _ => ?_)
  refine g_bind hA eff_tick (fun t => ?_)
  split
  · trivial
  · exact g_of hA (eff_error _)

theorem g_obj (hA : Allows env off dir pre I P) : OpsG I P (bifObj env) := by
  unfold bifObj
  refine g_bind hA (eff_denyMods _) (fun _ => ?_)
  refine g_bind hA eff_get (fun s => ?_)
  refine OpsG_bind (g_of hA (by repeat' ops_mid)) (fun _ => ?_)
  refine g_bind hA eff_denyFlags (fun _ => ?_)
  refine g_bind hA (eff_objSource _) (fun raw => ?_)
  split
  · exact g_of hA (eff_error _)
  · dsimp only
    split
    · exact g_of hA (eff_error _)
    · refine g_bind hA (eff_parseObj _) (fun obj => ?_)
      refine g_bind hA eff_get (fun s => ?_)
      split
      · exact g_of hA (eff_error _)
      · split
        · exact g_of hA (eff_error _)
        · refine OpsG_bind (g_objCall hA _ _ _) (fun r => ?_)
          exact g_of hA (by repeat' ops_mid)

theorem g_body (hA : Allows env off dir pre I P) (name : Str) : OpsG I P (bifBody env name) := by
  by_cases h : name = c!"cache"
  · subst h
    exact g_cache hA
  by_cases h2 : name = c!"obj"
  · subst h2
    exact g_obj hA
  · exact OpsG_of (OpsIn_mono (allows_effects hA h h2) (effects env name))

/-- The operations of `OnlyCacheFiles`. -/
theorem allows_files : Allows env off dir pre (CacheSet off dir pre) (WritesCache env off dir pre) where
  set _ h := h
  other o h := by
    cases o with
    | writeFile p c m => exact absurd rfl (h p c m)
    | _ => trivial
  cache _ _ _ h := .inl h
  bridge file := by
    have of : ∀ {α : Type} {p : Prog α}, OpsIn (Effects []) p → OpsG (CacheSet off dir pre) (WritesCache env off dir pre) p := fun h =>
      OpsG_of (OpsIn_mono (fun o ho => by
        cases o with
        | writeFile _ _ _ => exact absurd ho (by simp [Effects])
        | _ => trivial) h)
    unfold ensureBridge
    split
    · exact of (eff_error _)
    · next bridge hb =>
      refine OpsG_bind (of eff_get) (fun s => ?_)
      split
      · trivial
      · refine OpsG_bind (of eff_tick) (fun t => ?_)
        split
        · exact of (eff_error _)
        · refine OpsG_bind (OpsG_perform (.inr ⟨file, _, _, hb, rfl, .inl rfl⟩)) (fun _ => ?_)
          split
          · exact of (eff_error _)
          · exact OpsG_perform (.inr ⟨file, _, _, hb, rfl, .inr rfl⟩)

/-! A file that is there and is not a cache file. -/

/-- It is there. -/
def There (path : Str) (off : Bool) (dir pre : Str) (sh : Shared) : Prop := CacheSet off dir pre sh ∧ (sh.w.fs path).isSome = true

/-- It is not written. -/
def NotTo (path : Str) : Op → Prop
  | .writeFile p _ _ => p ≠ path
  | _ => True

/-- It is as it was. -/
def Untouched (path : Str) (a b : Shared) : Prop :=
  (b.cacheDisable = a.cacheDisable ∧ b.cacheDir = a.cacheDir ∧ b.cachePrefix = a.cachePrefix) ∧ b.w.fs path = a.w.fs path

theorem untouched_steps (path : Str) : GSteps (There path off dir pre) (NotTo path) (Untouched path) where
  refl _ := ⟨⟨rfl, rfl, rfl⟩, rfl⟩
  trans a b c h1 h2 := ⟨⟨h2.1.1.trans h1.1.1, h2.1.2.1.trans h1.1.2.1, h2.1.2.2.trans h1.1.2.2⟩, h2.2.trans h1.2⟩
  keep a b hI h := ⟨⟨h.1.1.trans hI.1.1, h.1.2.1.trans hI.1.2.1, h.1.2.2.trans hI.1.2.2⟩, by rw [h.2]; exact hI.2⟩
  indir _ _ := ⟨⟨rfl, rfl, rfl⟩, rfl⟩
  unmatched _ _ := ⟨⟨rfl, rfl, rfl⟩, rfl⟩
  err _ _ := ⟨⟨rfl, rfl, rfl⟩, rfl⟩
  tick _ _ := ⟨⟨rfl, rfl, rfl⟩, rfl⟩
  flags _ _ := ⟨⟨rfl, rfl, rfl⟩, rfl⟩
  status _ _ _ _ _ := ⟨⟨rfl, rfl, rfl⟩, rfl⟩
  exit _ _ _ _ := ⟨⟨rfl, rfl, rfl⟩, rfl⟩
  redirectJs _ _ _ _ := ⟨⟨rfl, rfl, rfl⟩, rfl⟩
  alreadyJs _ := ⟨⟨rfl, rfl, rfl⟩, rfl⟩
  data _ _ _ _ _ _ _ := ⟨⟨rfl, rfl, rfl⟩, rfl⟩
  moveto _ _ _ _ _ _ _ := ⟨⟨rfl, rfl, rfl⟩, rfl⟩
  count _ _ := ⟨⟨rfl, rfl, rfl⟩, rfl⟩
  write sh p content mtime _ hP := ⟨⟨rfl, rfl, rfl⟩, by
    dsimp only
    rw [if_neg (fun h => hP h.symm)]⟩

theorem allows_there {path : Str} (hno : ¬ (off = false ∧ CachePath env dir pre path)) :
    Allows env off dir pre (There path off dir pre) (NotTo path) where
  set _ h := h.1
  other o h := by
    cases o with
    | writeFile p c m => exact absurd rfl (h p c m)
    | _ => trivial
  cache p _ _ h := by
    rintro rfl
    exact hno h
  bridge file := by
    have of : ∀ {α : Type} {p : Prog α}, OpsIn (Effects []) p → OpsG (There path off dir pre) (NotTo path) p := fun h =>
      OpsG_of (OpsIn_mono (fun o ho => by
        cases o with
        | writeFile _ _ _ => exact absurd ho (by simp [Effects])
        | _ => trivial) h)
    unfold ensureBridge
    split
    · exact of (eff_error _)
    · next bridge hb =>
      refine OpsG_get trivial (fun s hs => ?_)
      split
      · trivial
      · next hex =>
        have hne : bridge ≠ path := by
          rintro rfl
          exact hex hs.2
        refine OpsG_bind (of eff_tick) (fun t => ?_)
        split
        · exact of (eff_error _)
        · refine OpsG_bind (OpsG_perform hne) (fun _ => ?_)
          split
          · exact of (eff_error _)
          · exact OpsG_perform hne

end

/-- **C61 (any evaluation).** Evaluating any source text, at any depth, in any state, changes no file other than files
of the cache directory the state is configured with, none when its cache is disabled, and removes no file. -/
theorem C61_blocks (env : Env) (n : Nat) (sh sh' : Shared) (inh inh' : Inherit) (src only out : Str)
    (blocks : List (Nat × Nat)) (h : runBlocks env n sh inh src blocks only = .ok out sh' inh') :
    OnlyCacheFiles env sh.cacheDisable sh.cacheDir sh.cachePrefix sh.w.fs sh'.w.fs := by
  have := runBlocks_g (I := CacheSet sh.cacheDisable sh.cacheDir sh.cachePrefix) filesRel_steps env (g_body allows_files) n sh inh src
    blocks only ⟨rfl, rfl, rfl⟩
  rw [h] at this
  exact this.2

theorem renderWith_files {env : Env} {n : Nat} {w : World} {t t' : Tpl} {sc : Value}
    (h : renderWith env n t sc (Shared.new env w t.schema) = .ok t') :
    OnlyCacheFiles env (isBoolKey env.f64 (t.schema.index c!"config") c!"cache_disable") (cacheDirIn env t.schema)
      (getFromKey env.f64 (t.schema.index c!"config") c!"cache_prefix") w.fs t'.shared.w.fs := by
  have hset : ∀ sh, Shared.new env w t.schema = some sh →
      CacheSet (isBoolKey env.f64 (t.schema.index c!"config") c!"cache_disable") (cacheDirIn env t.schema)
        (getFromKey env.f64 (t.schema.index c!"config") c!"cache_prefix") sh ∧ sh.w = w := by
    intro sh h0
    unfold Shared.new at h0
    dsimp only at h0
    split at h0
    · simp only [Option.some.injEq] at h0
      subst h0
      refine ⟨⟨rfl, ?_, rfl⟩, rfl⟩
      unfold cacheDirIn
      cases hc : getFromKey env.f64 (t.schema.index c!"config") c!"cache_dir" <;> simp
    · simp at h0
  obtain ⟨sh, raw, sh1, inh, h0, h1, h2⟩ := renderWith_g filesRel_steps env (g_body allows_files) h (by
    intro sh raw sh1 inh h0 h1
    obtain ⟨sc1, f, hf⟩ := initShared_frame h1
    rw [hf]
    exact (hset sh h0).1)
  obtain ⟨sc1, f, hf⟩ := initShared_frame h1
  have h3 := h2.2
  rw [hf] at h3
  rw [← (hset sh h0).2]
  exact h3

/-- **C61.** Whatever the template and its data say, `render` changes no file outside the cache directory given by
the schema's configuration: every file that differs afterwards is named by a hash below that directory (and the
configured prefix), nothing differs when `cache_disable` is set, and no file disappears. -/
theorem C61_render (env : Env) (n : Nat) (w : World) (t t' : Tpl) (hb : contains bifOpen t.raw = true)
    (h : t.render env n w = .ok t') :
    OnlyCacheFiles env (isBoolKey env.f64 (t.schema.index c!"config") c!"cache_disable") (cacheDirIn env t.schema)
      (getFromKey env.f64 (t.schema.index c!"config") c!"cache_prefix") w.fs t'.shared.w.fs := by
  unfold Tpl.render at h
  simp only [hb, Bool.not_true, Bool.false_eq_true, if_false] at h
  exact renderWith_files h

/-- **C61**, for `render_once`. -/
theorem C61_render_once (env : Env) (n : Nat) (w : World) (t t' : Tpl) (hb : contains bifOpen t.raw = true)
    (h : t.renderOnce env n w = .ok t') :
    OnlyCacheFiles env (isBoolKey env.f64 (t.schema.index c!"config") c!"cache_disable") (cacheDirIn env t.schema)
      (getFromKey env.f64 (t.schema.index c!"config") c!"cache_prefix") w.fs t'.shared.w.fs := by
  unfold Tpl.renderOnce at h
  rw [renderOnceWith_eq] at h
  simp only [hb, Bool.not_true, Bool.false_eq_true, if_false] at h
  exact renderWith_files h

theorem renderWith_kept {env : Env} {n : Nat} {w : World} {t t' : Tpl} {sc : Value} {path : Str}
    (h : renderWith env n t sc (Shared.new env w t.schema) = .ok t') (hthere : (w.fs path).isSome = true)
    (hno : ¬ (isBoolKey env.f64 (t.schema.index c!"config") c!"cache_disable" = false ∧ CachePath env (cacheDirIn env t.schema)
      (getFromKey env.f64 (t.schema.index c!"config") c!"cache_prefix") path)) : t'.shared.w.fs path = w.fs path := by
  have hset : ∀ sh, Shared.new env w t.schema = some sh →
      CacheSet (isBoolKey env.f64 (t.schema.index c!"config") c!"cache_disable") (cacheDirIn env t.schema)
        (getFromKey env.f64 (t.schema.index c!"config") c!"cache_prefix") sh ∧ sh.w = w := by
    intro sh h0
    unfold Shared.new at h0
    dsimp only at h0
    split at h0
    · simp only [Option.some.injEq] at h0
      subst h0
      refine ⟨⟨rfl, ?_, rfl⟩, rfl⟩
      unfold cacheDirIn
      cases hc : getFromKey env.f64 (t.schema.index c!"config") c!"cache_dir" <;> simp
    · simp at h0
  obtain ⟨sh, raw, sh1, inh, h0, h1, h2⟩ := renderWith_g (untouched_steps path) env (g_body (allows_there hno)) h (by
    intro sh raw sh1 inh h0 h1
    obtain ⟨sc1, f, hf⟩ := initShared_frame h1
    refine ⟨?_, ?_⟩
    · rw [hf]; exact (hset sh h0).1
    · rw [hf]; show (sh.w.fs path).isSome = true; rw [(hset sh h0).2]; exact hthere)
  obtain ⟨sc1, f, hf⟩ := initShared_frame h1
  have h3 := h2.2
  rw [hf] at h3
  rw [← (hset sh h0).2]
  exact h3

/-- **C61 (existing files).** Whatever the template and its data say, a file that exists before a render and is not one of the cache
(or the cache is disabled) is, after it, exactly as it was — also a bridge script, which is created but never replaced. -/
theorem C61_kept (env : Env) (n : Nat) (w : World) (t t' : Tpl) (h : t.render env n w = .ok t') (path : Str) (e : FileEntry)
    (hb : contains bifOpen t.raw = true) (hthere : w.fs path = some e)
    (hno : ¬ (isBoolKey env.f64 (t.schema.index c!"config") c!"cache_disable" = false ∧ CachePath env (cacheDirIn env t.schema)
      (getFromKey env.f64 (t.schema.index c!"config") c!"cache_prefix") path)) : t'.shared.w.fs path = some e := by
  unfold Tpl.render at h
  simp only [hb, Bool.not_true, Bool.false_eq_true, if_false] at h
  rw [renderWith_kept h (by rw [hthere]; rfl) hno, hthere]

/-- The content of a file after a render, if it is there. -/
def Sample.fileAfter (path : Str) : RRes → Option (Option Str)
  | .ok t => (t.shared.w.fs path).map (·.content)
  | _ => none

set_option maxRecDepth 10000 in
/-- A render that writes a cache file (the sample's hash is the identity, its cache directory `/c`, its prefix `p`). -/
example : Sample.fileAfter c!"/c/p/en1/en10{:;x:}-10" (Sample.go [(c!"x", .str c!"X")] c!"{:cache; /10/ >> {:;x:} :}") =
    some (some c!"X") := by decide +kernel

/-- That path is a cache path of the sample configuration. -/
example : CachePath Sample.env c!"/c" c!"p" c!"/c/p/en1/en10{:;x:}-10" := ⟨c!"en10{:;x:}", c!"10", by decide⟩

end Nts
