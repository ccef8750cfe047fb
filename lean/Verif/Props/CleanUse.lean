import Verif.Props.Clean
import Verif.Props.Page
/-
C96: the script and the engine agree on what is over, so that cleaning does not change what is rendered.
-/
set_option autoImplicit false
namespace Nts
open Spec
open Clean (Item)
open Clean.Spec (Hexes Decs DirName EntryName worth Wraps Reads Over Between)

/-! ### Lifetimes -/

theorem digitVal_dec {c : Char} (h : c ∈ c!"0123456789") : digitVal? c = some (c.toNat - 48) :=
  (by decide : ∀ c ∈ c!"0123456789", digitVal? c = some (c.toNat - 48)) c h

theorem parseDigits_worth : ∀ (d : Str) (acc : Nat), Decs d → parseDigits acc d = some (acc * 10 ^ d.length + worth 10 d) := by
  intro d
  induction d with
  | nil => intro acc _; simp [parseDigits, worth]
  | cons c r ih =>
    intro acc h
    rw [parseDigits, digitVal_dec (h c (by simp))]
    dsimp only
    rw [ih _ (fun x hx => h x (List.mem_cons_of_mem _ hx))]
    simp only [worth, List.length_cons, Nat.pow_succ]
    have : '0'.toNat = 48 := rfl
    rw [this, Nat.add_mul, Nat.mul_assoc, Nat.mul_comm 10, Nat.add_assoc]

theorem worth_showNat (k : Nat) : worth 10 (showNat k) = k := by
  have h := parseDigits_worth (showNat k) 0 (showNat_digits k)
  rw [parseDigits_showNat] at h
  simpa using h.symm

theorem showNat_head (k : Nat) (h : 0 < k) : (showNat k).head? ≠ some '0' := by
  induction k using Nat.strongRecOn with
  | _ k ih =>
    by_cases h10 : k < 10
    · exact (by decide : ∀ k < 10, 0 < k → (showNat k).head? ≠ some '0') k h10 h
    · have e : k = k / 10 * 10 + k % 10 := by omega
      rw [e, showNat_step _ _ (by omega) (by omega), List.head?_append]
      have := ih (k / 10) (by omega) (by omega)
      cases hs : (showNat (k / 10)).head? with
      | none => rw [List.head?_eq_none_iff] at hs; exact absurd hs (showNat_ne_nil _)
      | some c => rw [hs] at this; simpa using this

theorem wraps_small {n : Nat} (h : n < 2 ^ 63) (i : Int) : Wraps n i ↔ i = n := by
  unfold Wraps
  constructor
  · rintro ⟨h1, h2, k, hk⟩
    have : k = 0 := by omega
    subst this
    omega
  · rintro rfl
    exact ⟨by omega, by omega, 0, by omega⟩

/-- The shell reads a number without leading zeros as the engine does. -/
theorem reads_showNat (k : Nat) (h : k < 2 ^ 63) (i : Int) : Reads (showNat k) i ↔ i = k := by
  unfold Reads
  by_cases hk : 0 < k
  · rw [if_neg (showNat_head k hk), worth_showNat]
    exact wraps_small h i
  · have : k = 0 := by omega
    subst this
    rw [if_pos (by decide), show worth 8 (showNat 0) = 0 from by decide, wraps_small (by decide)]
    exact ⟨fun h => h.2, fun h => ⟨by decide, h⟩⟩

theorem lifetime_showNat (k : Nat) (h : k < 2 ^ 64) : lifetime (showNat k) = k := by
  unfold lifetime
  rw [parseU64_showNat k h]
  rfl

theorem entryName_unique {n h d d' : Str} (hn : n = h ++ c!"-" ++ d) (hh : Hexes h) (h' : EntryName n d') : d' = d := by
  obtain ⟨x, e, _, hx, _⟩ := h'
  have no : ∀ {s : Str}, Hexes s → '-' ∉ s := fun hs hm => absurd (hs _ hm) (by decide)
  rw [hn] at e
  simp only [List.append_assoc] at e
  rcases List.append_eq_append_iff.1 e with ⟨v, e1, e2⟩ | ⟨v, e1, e2⟩
  · cases v with
    | nil => simpa using e2.symm
    | cons c r =>
      simp only [List.cons_append, List.nil_append, List.cons.injEq] at e2
      exact absurd (by rw [e1, ← e2.1]; simp) (no hx)
  · cases v with
    | nil => simpa using e2
    | cons c r =>
      simp only [List.cons_append, List.nil_append, List.cons.injEq] at e2
      exact absurd (by rw [e1, ← e2.1]; simp) (no hh)

/-! ### The files of the engine -/

/-- The hash is written in hexadecimal digits (`format!("{:x}")`). -/
def Spec.HexHash (env : Env) : Prop := ∀ t, 3 ≤ (env.sha256 t).length ∧ Hexes (env.sha256 t)

/-- The directory to give to the script. -/
def Spec.cacheBase (dir pre : Str) : Str := dir ++ (if pre = [] then [] else c!"/" ++ pre)

/-- **C96, names and times.** The engine keeps the entry of a text with a lifetime of `k` seconds in a directory and under a name
of the kind the script looks at, and the script takes it for over from `k` seconds after it was written, when the engine stops
using it a second later. -/
theorem C96_agrees (env : Env) (hH : HexHash env) (dir pre text content : Str) (k mtime : Nat) (hk : k < 2 ^ 63) :
    ∃ n m, entryFile env dir pre text (showNat k) = cacheBase dir pre ++ c!"/" ++ n ++ c!"/" ++ m ∧ DirName n ∧ EntryName m (showNat k) ∧
      (∀ T : Nat, Over T m (.file content mtime) ↔ mtime + k ≤ T) ∧
      (∀ now : Nat, mtime + k < 2 ^ 64 → cacheExpired env now mtime (lifetime (showNat k)) = some (decide (mtime + k < now))) := by
  have hname : EntryName (env.sha256 text ++ c!"-" ++ showNat k) (showNat k) :=
    ⟨_, rfl, fun e => absurd (hH text).1 (by rw [e]; decide), (hH text).2, showNat_ne_nil k, showNat_digits k⟩
  refine ⟨(env.sha256 text).take 3, env.sha256 text ++ c!"-" ++ showNat k, ?_, ⟨?_, ?_⟩, hname, fun T => ?_, fun now hb => ?_⟩
  · simp only [entryFile, entryDir, cacheBase, List.append_assoc]
  · rw [List.length_take]; have := (hH text).1; omega
  · exact fun c hc => (hH text).2 c (List.mem_of_mem_take hc)
  · constructor
    · rintro ⟨c, t, d, v, e, h1, h2, h3⟩
      cases e
      have hd := entryName_unique rfl (hH text).2 h1
      subst hd
      rw [reads_showNat k hk] at h2
      omega
    · intro h
      exact ⟨content, mtime, showNat k, k, rfl, hname, (reads_showNat k hk _).2 rfl, by omega⟩
  · rw [lifetime_showNat k (by omega)]
    unfold cacheExpired
    rw [if_pos hb]

/-- **C96, other lifetimes**: the engine uses an entry of `0300` seconds for 300 seconds, the script removes it after 192 (octal);
it removes one of `9223372036854775808` seconds at once; and one of `+300` seconds, or of a word, never. -/
theorem C96_lifetimes_refuted :
    (lifetime c!"0300" = 300 ∧ ∀ (content : Str) (mtime : Int), Over (mtime + 192) c!"abcd-0300" (.file content mtime)) ∧
    (lifetime c!"9223372036854775808" = 9223372036854775808 ∧
      ∀ (content : Str) (mtime : Int), Over mtime c!"abcd-9223372036854775808" (.file content mtime)) ∧
    (lifetime c!"+300" = 300 ∧ ∀ (T : Int) (i : Item), ¬ Over T c!"abcd-+300" i) ∧
    (lifetime c!"never" = 0 ∧ ∀ (T : Int) (i : Item), ¬ Over T c!"abcd-never" i) := by
  refine ⟨⟨by decide, fun c m => (Clean.isExpired_iff _ _ c _).1 ?_⟩, ⟨by decide, fun c m => (Clean.isExpired_iff _ _ c _).1 ?_⟩,
    ⟨by decide, ?_⟩, by decide, ?_⟩
  · unfold Clean.isExpired
    rw [show Clean.lifeOf c!"abcd-0300" = some c!"0300" from by decide]
    dsimp only
    rw [show Clean.bashNum c!"0300" = some 192 from by decide]
    exact decide_eq_true (by omega)
  · unfold Clean.isExpired
    rw [show Clean.lifeOf c!"abcd-9223372036854775808" = some c!"9223372036854775808" from by decide]
    dsimp only
    rw [show Clean.bashNum c!"9223372036854775808" = some (-9223372036854775808) from by decide]
    exact decide_eq_true (by omega)
  · rintro T i ⟨c, m, d, v, rfl, h1, _⟩
    have := (Clean.lifeOf_iff _ _).2 h1
    exact absurd this (by rw [show Clean.lifeOf c!"abcd-+300" = none from by decide]; simp)
  · rintro T i ⟨c, m, d, v, rfl, h1, _⟩
    have := (Clean.lifeOf_iff _ _).2 h1
    exact absurd this (by rw [show Clean.lifeOf c!"abcd-never" = none from by decide]; simp)

/-! ### Cleaning between requests -/

/-- `Cleaned K arg items w w'`: `items` is what is in the directory `arg` in the files of `w`, and `w'` is what is left after a run
of the script: what it removed is not there, everything else is as before. -/
structure Spec.Cleaned (K : Clean.Sys) (arg : Str) (items : List (Str × Item)) (w w' : World) : Prop where
  shows : ∀ n sub m c t e, (n, .dir sub) ∈ items → (m, .file c t) ∈ sub →
    w.fs (Clean.noSlash arg ++ c!"/" ++ n ++ c!"/" ++ m) = some e → t = (e.mtime : Int)
  rest : ∀ p, w'.fs p = w.fs p ∨ w'.fs p = none ∧ ∃ n sub x, p = Clean.noSlash arg ++ c!"/" ++ n ++ c!"/" ++ x.1 ∧ (n, .dir sub) ∈ items ∧
    x ∈ sub ∧ ∀ sub', (n, .dir sub') ∈ (Clean.run K arg items).left → x ∉ sub'
  clock : w'.tick = w.tick

/-- Only entries that are over at the time `T` are missing. -/
def Fewer (env : Env) (C : Caching) (T : Nat) (lives : List Str) (w w' : World) : Prop :=
  ∀ p, w'.fs p = w.fs p ∨ w'.fs p = none ∧ ∃ e, w.fs p = some e ∧
    ∀ x ∈ lives, ∀ text, p = entryFile env C.dir C.pre text x → e.mtime + lifetime x < T

theorem last_part {a b m m' : Str} (hm : '/' ∉ m) (hm' : '/' ∉ m') (h : a ++ c!"/" ++ m = b ++ c!"/" ++ m') : m = m' := by
  have h' := congrArg List.reverse h
  simp only [List.reverse_append, List.reverse_cons, List.reverse_nil, List.nil_append] at h'
  have : ∀ {x y u v : Str}, '/' ∉ x → '/' ∉ y → x ++ ('/' :: u) = y ++ ('/' :: v) → x = y := by
    intro x
    induction x with
    | nil =>
      intro y u v _ hy e
      cases y with
      | nil => rfl
      | cons c r => simp only [List.nil_append, List.cons_append, List.cons.injEq] at e; exact absurd (by rw [e.1]; simp) hy
    | cons c r ih =>
      intro y u v hx hy e
      cases y with
      | nil => simp only [List.nil_append, List.cons_append, List.cons.injEq] at e; exact absurd (by rw [e.1]; simp) hx
      | cons c' r' =>
        simp only [List.cons_append, List.cons.injEq] at e
        rw [e.1, ih (fun hc => hx (List.mem_cons_of_mem _ hc)) (fun hc => hy (List.mem_cons_of_mem _ hc)) e.2]
  have := this (x := m.reverse) (y := m'.reverse) (by simpa using hm) (by simpa using hm') (by simpa using h')
  exact List.reverse_inj.1 this

theorem cleaned_fewer {env : Env} {C : Caching} {K : Clean.Sys} {arg : Str} {items : List (Str × Item)} {w w' : World} {lives : List Str}
    {start : Int} {stop T : Nat} (hH : HexHash env) (h : Cleaned K arg items w w') (hT : Between K start stop) (hlt : stop < T)
    (hl : ∀ x ∈ lives, ∃ k < 2 ^ 63, x = showNat k) : Fewer env C T lives w w' := by
  intro p
  rcases h.rest p with e | ⟨hn, n, sub, x, hp, h1, h2, h3⟩
  · exact .inl e
  · have ho : Over stop x.1 x.2 := by
      apply Classical.byContradiction
      intro hc
      obtain ⟨sub', a, b⟩ := (Clean.C95_only K arg items start stop hT).2.1 n sub x h1 h2 hc
      exact h3 sub' a b
    cases hw : w.fs p with
    | none => exact .inl hn
    | some e =>
      right
      refine ⟨hn, e, rfl, fun y hy text hpe => ?_⟩
      obtain ⟨m, i⟩ := x
      obtain ⟨c, t, d, v, hi, hname, hr, hv⟩ := ho
      dsimp only at hi hname hp
      subst hi
      have ht : t = e.mtime := h.shows n sub m c t e h1 h2 (by rw [← hp]; exact hw)
      obtain ⟨k, hk, rfl⟩ := hl y hy
      have hm : m = env.sha256 text ++ c!"-" ++ showNat k := by
        rw [hpe] at hp
        refine (last_part ?_ ?_ (a := entryDir env C.dir C.pre text) (b := Clean.noSlash arg ++ c!"/" ++ n) ?_).symm
        · intro hc
          simp only [List.mem_append] at hc
          rcases hc with (hc | hc) | hc
          · exact absurd ((hH text).2 _ hc) (by decide)
          · exact absurd hc (by decide)
          · exact absurd (showNat_digits k _ hc) (by decide)
        · obtain ⟨x, e', _, hx, _, hd⟩ := hname
          rw [e']
          intro hc
          simp only [List.mem_append] at hc
          rcases hc with (hc | hc) | hc
          · exact absurd (hx _ hc) (by decide)
          · exact absurd hc (by decide)
          · exact absurd (hd _ hc) (by decide)
        · rw [← hp]
          simp only [entryFile, List.append_assoc]
      have hd := entryName_unique hm (hH text).2 hname
      subst hd
      rw [reads_showNat k hk] at hr
      rw [lifetime_showNat k (by omega)]
      omega

theorem storedIn_same {env : Env} {T : Nat} (hnow : ∀ t, env.now t = T) {C : Caching} {lives : List Str} {w w' : World} {file text : Str}
    (h : Fewer env C T lives w w') : Fewer env C T lives (storedIn env w file text) (storedIn env w' file text) := by
  intro p
  simp only [storedIn, hnow]
  by_cases hp : p = file
  · rw [if_pos hp, if_pos hp]; exact .inl rfl
  · rw [if_neg hp, if_neg hp]; exact h p

/-- The parts of a page mean the same. -/
theorem page_fewer {env : Env} {T : Nat} (hnow : ∀ t, env.now t = T) {S : Site} {C : Caching} : ∀ (l : List Part) (lives : List Str)
    (m : Mem) (w w' : World), (∀ x ∈ lifetimes l, x ∈ lives) → Fewer env C T lives w w' →
    (pageMeans env S C l m w).1 = (pageMeans env S C l m w').1 ∧ (pageMeans env S C l m w).2.1 = (pageMeans env S C l m w').2.1 := by
  intro l
  induction l with
  | nil => intro lives m w w' _ _; exact ⟨rfl, rfl⟩
  | cons x l ih =>
    intro lives m w w' hl h
    have key : (x.means env S C m w).1 = (x.means env S C m w').1 ∧ (x.means env S C m w).2.1 = (x.means env S C m w').2.1 ∧
        Fewer env C T lives (x.means env S C m w).2.2 (x.means env S C m w').2.2 := by
      cases x with
      | plain b => exact ⟨rfl, rfl, h⟩
      | cached expires id only b =>
        have hx : expires ∈ lives := hl _ (by simp [lifetimes])
        simp only [Part.means, cachedOf]
        by_cases hon : C.on m.data
        · rw [if_pos hon, if_pos hon]
          generalize hf : fileOf env S C m.data expires id only b = file
          rcases h file with e | ⟨hn, e, he, ho⟩
          · rw [e]
            cases hw : w.fs file with
            | none => exact ⟨rfl, rfl, storedIn_same hnow h⟩
            | some e' =>
              dsimp only
              rw [hnow, hnow]
              split
              · exact ⟨rfl, rfl, storedIn_same hnow h⟩
              · exact ⟨rfl, rfl, h⟩
          · rw [hn, he]
            dsimp only
            rw [hnow, if_pos (ho expires hx _ hf.symm)]
            exact ⟨rfl, rfl, storedIn_same hnow h⟩
        · rw [if_neg hon, if_neg hon]
          exact ⟨rfl, rfl, h⟩
    obtain ⟨k1, k2, k3⟩ := key
    obtain ⟨i1, i2⟩ := ih lives (x.means env S C m w').2.1 (x.means env S C m w).2.2 (x.means env S C m w').2.2 (fun y hy => hl y (by
      cases x with
      | plain b => exact hy
      | cached expires id only b => exact List.mem_cons_of_mem _ hy)) k3
    simp only [pageMeans]
    rw [k1, k2, i1, i2]
    exact ⟨rfl, rfl⟩

/-- **C96.** A run of the script between two requests is not noticed: a page rendered a second or more after it gives the same
output, status and data as without it (whatever the directory given to the script and whatever is in it). -/
theorem C96_render_partial (env : Env) (n : Nat) (w w' : World) (t : Tpl) (S : Site) (C : Caching) (l : List Part) (sh : Shared) (s d defs : Obj)
    (K : Clean.Sys) (arg : Str) (items : List (Str × Item)) (start : Int) (stop T : Nat)
    (hclean : Cleaned K arg items w w') (hK : Between K start stop) (hlater : stop < T) (hnow : ∀ t, env.now t = T)
    (hlives : ∀ x ∈ lifetimes l, ∃ k < 2 ^ 63, x = showNat k) (hH : HexHash env)
    (hfiles : ∀ p x, S.file p = some x → w'.fs p = w.fs p)
    (hnew : Shared.new env w t.schema = some sh) (hS : SiteOf env sh S) (hC : CachingOf sh C) (hW : Writable env)
    (hap : NotEntries env S C) (hsane : Sane env (lifetimes l) w)
    (hok : ∀ x ∈ l, x.Ok S) (hraw : t.raw = printPage l) (hb : c!"{:" <:+: printPage l)
    (hs : t.schema = .obj s) (hd : Obj.get? c!"data" s = some (.obj d))
    (hinh : Obj.get? c!"inherit" s = some (.obj defs)) (hdefs : Defs S defs)
    (hmax : (pageMeans env S C l (startMem d defs) w).2.1.bifs ≤ sh.max)
    (hcache : ¬ c!"{:!cache;" <:+: trim (pageMeans env S C l (startMem d defs) w).1) :
    ∃ t1 t2, t.render env n w = .ok t1 ∧ t.render env n w' = .ok t2 ∧ t1.out = t2.out ∧ t1.statusCode = t2.statusCode ∧
      t1.statusText = t2.statusText ∧ t1.statusParam = t2.statusParam ∧ t1.hasError = t2.hasError ∧ t1.shared.count = t2.shared.count ∧
      t1.shared.schema.index c!"data" = t2.shared.schema.index c!"data" := by
  have hfew : Fewer env C T (lifetimes l) w w' := cleaned_fewer hH hclean hK hlater hlives
  obtain ⟨p1, p2⟩ := page_fewer hnow (S := S) l (lifetimes l) (startMem d defs) w w' (fun _ h => h) hfew
  have hnew' : Shared.new env w' t.schema = some { sh with w := w' } ∧ sh.w = w := by
    unfold Shared.new at hnew ⊢
    dsimp only at hnew ⊢
    split at hnew
    · injection hnew with e
      subst e
      exact ⟨rfl, rfl⟩
    · cases hnew
  obtain ⟨hnew', hw⟩ := hnew'
  have old : ∀ f e, w'.fs f = some e → w.fs f = some e := by
    intro f e he
    rcases hfew f with h | ⟨h, _⟩
    · rw [← h]; exact he
    · rw [h] at he; cases he
  have hS' : SiteOf env { sh with w := w' } S := ⟨hS.F, hS.filterAll, hS.sanitize, hS.lang, hS.json, hS.md5, fun p x hx => by
    obtain ⟨e, c, h1, h2, h3⟩ := hS.file p x hx
    refine ⟨e, c, ?_, h2, h3⟩
    show w'.fs p = some e
    rw [hfiles p x hx, ← hw]
    exact h1⟩
  have hsane' : Sane env (lifetimes l) w' :=
    ⟨fun f e h => hsane.readable f e (old f e h), fun f e x h hx => hsane.files f e x (old f e h) hx, hsane.clock⟩
  obtain ⟨r1, t1, rfl, g1, g2, g3, _⟩ := C85_render env n w t S C l sh s d defs hnew hS hC hW hap hsane hok hraw hb hs hd hinh hdefs hmax hcache
  obtain ⟨r2, t2, rfl, k1, k2, k3, _⟩ := C85_render env n w' t S C l { sh with w := w' } s d defs hnew' hS'
    ⟨hC.dir, hC.pre, hC.disabled, hC.post, hC.get, hC.cookies⟩ hW hap hsane' hok hraw hb hs hd hinh hdefs
    (by rw [← p2]; exact hmax) (by rw [← p1]; exact hcache)
  rw [← p1, ← p2] at k2
  rw [← p2] at k3
  refine ⟨t1, t2, g1, k1, ?_, ?_, ?_, ?_, ?_, ?_, ?_⟩
  · rw [g2.out, k2.out]
  · rw [g2.code, k2.code]
  · rw [g2.text, k2.text]
  · rw [g2.param, k2.param]
  · rw [g2.noError.1, k2.noError.1]
  · rw [g2.ran, k2.ran]
  · rw [g3, k3]

/-! ### The premises are met -/

/-- The time is 2000; hashes are hexadecimal. -/
def Sample.envN : Env := { Sample.env with now := fun _ => 2000, sha256 := fun s => c!"abc" ++ s.map (fun c => if Clean.hex c then c else '0') }

/-- A schema with a cache the script accepts. -/
def Sample.cleanSchema (x : Str) : Value :=
  .obj [
    (c!"config", .obj [
      (c!"infinite_loop_max_bifs", .num (.int 100)), (c!"comments", .str c!"remove"),
      (c!"error", .obj [(c!"show", .bool true)]), (c!"cache_prefix", .str c!"neutral-cache"), (c!"cache_dir", .str c!"/c"),
      (c!"cache_on_post", .bool false), (c!"cache_on_get", .bool true), (c!"cache_on_cookies", .bool true),
      (c!"cache_disable", .bool false), (c!"filter_all", .bool false), (c!"disable_js", .bool false),
      (c!"debug_expire", .num (.int 3600)), (c!"debug_file", .str [])]),
    (c!"data", .obj [(c!"x", .str x)]),
    (c!"inherit", .obj Sample.pageDefs),
    (c!"__moveto", .obj []),
    (c!"__error", .arr [])]

/-- Its settings. -/
def Sample.cleanCaching : Caching := ⟨c!"/c", c!"neutral-cache", false, false, true, true⟩

/-- Its files: none. -/
def Sample.cleanSite : Site := { Sample.pageSite with file := fun _ => none, md5 := Sample.envN.md5 }

/-- A page with two cached parts. -/
def Sample.cleanPage : List Part := [
  .plain [.text c!"now "],
  .cached c!"60" c!"a" c!"true" [.text c!"a ", .var true c!"x"],
  .cached c!"900" c!"b" c!"true" [.text c!"b ", .var true c!"x"]]

/-- What is in its cache: an entry of 60 seconds of the time `t`, and one of 900 seconds of the time 1500. -/
def Sample.cleanItems (t : Nat) : List (Str × Item) :=
  [(c!"abc", .dir [(c!"abca-60", .file c!"old" t), (c!"abcb-900", .file c!"kept" 1500)])]

/-- The files, with the first entry or without it. -/
def Sample.cleanWorld (t : Nat) (first : Bool) : World :=
  ⟨fun p => if p = c!"/c/neutral-cache/abc/abca-60" then (if first then some ⟨some c!"old", t, true⟩ else none)
    else if p = c!"/c/neutral-cache/abc/abcb-900" then some ⟨some c!"kept", 1500, true⟩ else none, 0⟩

/-- The request. -/
def Sample.askClean (w : World) : RRes := (Sample.tpl (Sample.cleanSchema c!"X") (printPage Sample.cleanPage)).render Sample.envN 10 w

/-- The script at a time. -/
def Sample.sysAt (T : Nat) : Clean.Sys := ⟨fun _ => T, fun _ => true, fun _ => true⟩

/-- The script removes the first entry. -/
theorem Sample.cleaned (t T : Nat) (h : t + 60 ≤ T) (hT : T < 2400) :
    Cleaned (Sample.sysAt T) c!"/c/neutral-cache" (Sample.cleanItems t) (Sample.cleanWorld t true) (Sample.cleanWorld t false) := by
  have hleft : (Clean.run (Sample.sysAt T) c!"/c/neutral-cache" (Sample.cleanItems t)).left =
      [(c!"abc", .dir [(c!"abcb-900", .file c!"kept" 1500)])] := by
    rw [(Clean.run_eq (arg := c!"/c/neutral-cache") ⟨c!"/c/", [], rfl⟩).1]
    have h1 : Clean.isExpired (T : Int) c!"abca-60" t = true :=
      (Clean.isExpired_iff _ _ [] _).2 ⟨[], t, c!"60", 60, rfl, (Clean.lifeOf_iff _ _).1 rfl, (reads_showNat 60 (by decide) 60).2 rfl, by omega⟩
    have h2 : Clean.isExpired (T : Int) c!"abcb-900" 1500 = false := by
      cases hc : Clean.isExpired (T : Int) c!"abcb-900" 1500 with
      | false => rfl
      | true =>
        obtain ⟨_, _, d, v, e, a, b, c⟩ := (Clean.isExpired_iff _ _ [] _).1 hc
        cases e
        have hd := entryName_unique (n := c!"abcb-900") (h := c!"abcb") (d := c!"900") rfl (by unfold Hexes; decide) a
        subst hd
        have := (reads_showNat 900 (by decide) v).1 b
        omega
    have v1 : Clean.visible c!"abca-60" = true := rfl
    have v2 : Clean.visible c!"abcb-900" = true := rfl
    have v3 : (Clean.visible c!"abc" && Clean.isHex3 c!"abc") = true := rfl
    simp only [Clean.outer, Clean.sweep, Sample.cleanItems, Sample.sysAt, h1, h2, v1, v2, v3, if_true, Bool.false_eq_true, if_false,
      List.isEmpty_cons]
  refine ⟨?_, fun p => ?_, rfl⟩
  · intro n sub m c t' e h1 h2 h3
    simp only [Sample.cleanItems, List.mem_singleton, Prod.mk.injEq, Item.dir.injEq] at h1
    obtain ⟨rfl, rfl⟩ := h1
    simp only [List.mem_cons, Prod.mk.injEq, Item.file.injEq, List.not_mem_nil, or_false] at h2
    rcases h2 with ⟨rfl, rfl, rfl⟩ | ⟨rfl, rfl, rfl⟩
    · have : (Sample.cleanWorld t true).fs c!"/c/neutral-cache/abc/abca-60" = some e := h3
      rw [show (Sample.cleanWorld t true).fs c!"/c/neutral-cache/abc/abca-60" = some ⟨some c!"old", t, true⟩ from rfl] at this
      injection this with this
      rw [← this]
    · have : (Sample.cleanWorld t true).fs c!"/c/neutral-cache/abc/abcb-900" = some e := h3
      rw [show (Sample.cleanWorld t true).fs c!"/c/neutral-cache/abc/abcb-900" = some ⟨some c!"kept", 1500, true⟩ from rfl] at this
      injection this with this
      rw [← this]
      rfl
  · by_cases hp : p = c!"/c/neutral-cache/abc/abca-60"
    · right
      subst hp
      refine ⟨rfl, c!"abc", _, (c!"abca-60", .file c!"old" t), rfl, List.mem_singleton.2 rfl, List.mem_cons_self .., ?_⟩
      intro sub' hs
      rw [hleft] at hs
      simp only [List.mem_singleton, Prod.mk.injEq, Item.dir.injEq, true_and] at hs
      subst hs
      simp
    · left
      simp only [Sample.cleanWorld, if_neg hp]

theorem Sample.cleanPage_ok : ∀ x ∈ Sample.cleanPage, x.Ok Sample.cleanSite := by
  simp only [Sample.cleanPage, List.mem_cons, List.not_mem_nil, or_false, forall_eq_or_imp, forall_eq, Part.Ok, AllOk, Node.Ok, and_true]
  exact ⟨textOk_of (by decide),
    ⟨by unfold ArgOk; decide, by unfold ArgOk; decide, by unfold ArgOk; decide, textOk_of (by decide), nameOk_of (by decide)⟩,
    by unfold ArgOk; decide, by unfold ArgOk; decide, by unfold ArgOk; decide, textOk_of (by decide), nameOk_of (by decide)⟩

theorem Sample.clean_sane : Sane Sample.envN (lifetimes Sample.cleanPage) (Sample.cleanWorld 1000 true) := by
  have h60 : lifetime c!"60" = 60 := by decide +kernel
  have h900 : lifetime c!"900" = 900 := by decide +kernel
  refine ⟨?_, ?_, ?_⟩
  · intro file e h
    simp only [Sample.cleanWorld, if_true] at h
    split at h
    · simp only [Option.some.injEq] at h; exact ⟨_, by rw [← h]⟩
    · split at h
      · simp only [Option.some.injEq] at h; exact ⟨_, by rw [← h]⟩
      · cases h
  · intro file e x h hx
    have hx : x = c!"60" ∨ x = c!"900" := by simpa [Sample.cleanPage, lifetimes] using hx
    have he : e.mtime ≤ 1500 := by
      simp only [Sample.cleanWorld, if_true] at h
      split at h
      · simp only [Option.some.injEq] at h; rw [← h]; decide
      · split at h
        · simp only [Option.some.injEq] at h; rw [← h]; decide
        · cases h
    rcases hx with rfl | rfl
    · rw [h60]; omega
    · rw [h900]; omega
  · intro t x hx
    have hx : x = c!"60" ∨ x = c!"900" := by simpa [Sample.cleanPage, lifetimes] using hx
    have : Sample.envN.now t = 2000 := rfl
    rcases hx with rfl | rfl
    · rw [h60]; omega
    · rw [h900]; omega

theorem Sample.hexHash : HexHash Sample.envN := by
  intro t
  refine ⟨by simp [Sample.envN], fun c hc => (Clean.hex_iff c).1 ?_⟩
  simp only [Sample.envN, List.mem_append, List.mem_map] at hc
  rcases hc with hc | ⟨x, _, rfl⟩
  · exact (by decide : ∀ c ∈ c!"abc", Clean.hex c = true) c hc
  · split
    · next h => exact h
    · decide

set_option maxRecDepth 10000 in
/-- The premises are met: cleaned at 1999, rendered at 2000. -/
example : ∃ t1 t2, Sample.askClean (Sample.cleanWorld 1000 true) = .ok t1 ∧ Sample.askClean (Sample.cleanWorld 1000 false) = .ok t2 ∧
    t1.out = t2.out := by
  obtain ⟨t1, t2, h1, h2, h3, _⟩ := C96_render_partial Sample.envN 10 (Sample.cleanWorld 1000 true) (Sample.cleanWorld 1000 false)
    (Sample.tpl (Sample.cleanSchema c!"X") (printPage Sample.cleanPage)) Sample.cleanSite Sample.cleanCaching Sample.cleanPage _ _
    [(c!"x", .str c!"X")] Sample.pageDefs (Sample.sysAt 1999) c!"/c/neutral-cache" (Sample.cleanItems 1000) 1999 1999 2000
    (Sample.cleaned 1000 1999 (by decide) (by decide)) (fun _ => ⟨Int.le_refl _, Int.le_refl _⟩) (by decide) (fun _ => rfl)
    (by
      intro x hx
      have hx : x = c!"60" ∨ x = c!"900" := by simpa [Sample.cleanPage, lifetimes] using hx
      rcases hx with rfl | rfl
      · exact ⟨60, by decide, by decide +kernel⟩
      · exact ⟨900, by decide, by decide +kernel⟩)
    Sample.hexHash (fun p x h => by simp [Sample.cleanSite] at h) rfl
    ⟨rfl, rfl, rfl, rfl, rfl, rfl, fun p x h => by simp [Sample.cleanSite] at h⟩ ⟨rfl, rfl, rfl, rfl, rfl, rfl⟩
    ⟨fun _ _ => rfl, fun _ _ => rfl, fun _ _ => rfl⟩ (fun _ _ => rfl) Sample.clean_sane Sample.cleanPage_ok rfl (by decide +kernel) rfl rfl rfl
    ⟨.inr ⟨_, rfl⟩, rfl, rfl⟩ (by decide +kernel) (by decide +kernel)
  exact ⟨t1, t2, h1, h2, h3⟩

set_option maxRecDepth 10000 in
/-- **C96, in the same second**: an entry in its last second is used by the engine and removed by the script, so that a request right
after a run of the script prints something else than it would have. -/
theorem C96_second_refuted :
    Cleaned (Sample.sysAt 2000) c!"/c/neutral-cache" (Sample.cleanItems 1940) (Sample.cleanWorld 1940 true) (Sample.cleanWorld 1940 false) ∧
    (Sample.outOf (Sample.askClean (Sample.cleanWorld 1940 true))).map (·.1) = some c!"now oldkept" ∧
    (Sample.outOf (Sample.askClean (Sample.cleanWorld 1940 false))).map (·.1) = some c!"now a Xkept" :=
  ⟨Sample.cleaned 1940 2000 (by decide) (by decide), by decide +kernel, by decide +kernel⟩

end Nts
