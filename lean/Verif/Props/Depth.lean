import Verif.Props.Lang
/-
C104: how deep evaluations nest.
-/
set_option autoImplicit false
namespace Nts
open Spec

/-- Evaluating `src` in this state needs `d` evaluations inside each other, no more and no less. -/
def Spec.NestsTo (env : Env) (sh : Shared) (inh : Inherit) (src only : Str) (d : Nat) : Prop :=
  parseSrc (runBlocks env d) sh inh src only ≠ .oof ∧ ∀ m, m < d → parseSrc (runBlocks env m) sh inh src only = .oof

theorem least (P : Nat → Prop) : ∀ n, P n → ∃ d, d ≤ n ∧ P d ∧ ∀ m, m < d → ¬ P m := by
  intro n
  induction n using Nat.strongRecOn with
  | _ n ih =>
    intro h
    by_cases hx : ∃ m, m < n ∧ P m
    · obtain ⟨m, hm, hp⟩ := hx
      obtain ⟨d, h1, h2, h3⟩ := ih m hm hp
      exact ⟨d, by omega, h2, h3⟩
    · exact ⟨n, Nat.le_refl _, h, fun m hm hp => hx ⟨m, hm, hp⟩⟩

/-- **C104 (limit).** Whatever is evaluated, evaluations nest at most one deeper than the number of BIFs that are left. -/
theorem C104_limit (env : Env) (sh : Shared) (inh : Inherit) (src only : Str) (hc : sh.count ≤ sh.max) :
    ∃ d, d ≤ sh.max - sh.count + 1 ∧ NestsTo env sh inh src only d := by
  have hbound : parseSrc (runBlocks env (sh.max - sh.count + 1)) sh inh src only ≠ .oof := by
    unfold parseSrc
    split
    · simp
    · next bl _ =>
      rcases C19_terminates env (sh.max - sh.count + 1) sh inh src only bl hc (by omega) with ⟨o, s, i, h⟩ | ⟨p, h⟩ <;> (rw [h]; simp)
  obtain ⟨d, h1, h2, h3⟩ := least (fun d => parseSrc (runBlocks env d) sh inh src only ≠ .oof) _ hbound
  exact ⟨d, h1, h2, fun m hm => Classical.byContradiction (h3 m hm)⟩

/-- **C104 (written).** A template of the language of C77 is evaluated within evaluations nested as deep as it is written, with its
files and snippets put in place (`depthAll`), whatever the data, the loops and the limit of BIFs are. -/
theorem C104_written (env : Env) (n : Nat) (sh : Shared) (inh : Inherit) (S : Site) (l : List Node) (sc d defs : Obj) (b : Nat)
    (hS : SiteOf env sh S) (hok : AllOk S inh.alias l) (hexit : sh.exit = false) (hs : sh.schema = .obj sc)
    (hd : Obj.get? c!"data" sc = some (.obj d)) (hb : AtLevel inh b) (hsees : sh.indir inh.indir = some (.obj defs))
    (hdefs : Defs S defs) (hn : depthAll l < n)
    (hmax : (meansAll S inh.alias l ⟨d, defs, inh.lastBifOut, inh.lastCoalesceOut, sh.count⟩).2.bifs ≤ sh.max) :
    ∃ sh' inh', parseSrc (runBlocks env n) sh inh (printAll l) [] =
      .ok (trim (meansAll S inh.alias l ⟨d, defs, inh.lastBifOut, inh.lastCoalesceOut, sh.count⟩).1) sh' inh' := by
  generalize hm : (⟨d, defs, inh.lastBifOut, inh.lastCoalesceOut, sh.count⟩ : Mem) = m at hmax ⊢
  have hsame := Obj.insert_same hd
  have hh : Holding sh sc m sh := by
    subst hm
    show sh = { sh with schema := .obj (Obj.insert c!"data" (.obj d) sc), indir := sh.indir, count := sh.count }
    rw [hsame, ← hs]
  obtain ⟨k, rfl⟩ : ∃ k, n = k + 1 := ⟨n - 1, by omega⟩
  obtain ⟨sh', inh', h1, _, _⟩ := sound_all (env := env) (sc := sc) hexit hS l hok k m sh inh b (by omega)
    ⟨hh, by rw [← hm], by rw [← hm], rfl, hb, by rw [← hm]; exact hsees, by rw [← hm]; exact hdefs.params,
      by rw [← hm]; exact hdefs.snippets, by rw [← hm]; exact hdefs.declared⟩ hmax
  obtain ⟨bl, hwf⟩ := good_wf (good_all l hok [] cont_nil) rfl 0
  exact ⟨sh', inh', (C68_blocks env _ sh sh' inh inh' (printAll l) [] _ bl hwf).2 ⟨true, _, h1, rfl⟩⟩

/-- An `include` whose file panics, or nests too deep, does so too. -/
theorem include_fails (env : Env) (R : Rec) (sh sh1 sh2 : Shared) (inh inh1 : Inherit) (mods src only c x path canon t : Str)
    (p : Option Str) (e : FileEntry) (r : PRes) (hr : r = .oof ∨ ∃ q, r = .panic q)
    (hm : Mods mods) (hf : '&' ∉ mods) (hsc : '+' ∉ mods) (hmax : sh.count < sh.max)
    (hsel : Selected inh mods c!"include" only) (hparts : Parts src p c)
    (hx : evalParams R (counted sh) (entered sh inh) c!"include" (p.getD []) only = .ok x sh1 inh1)
    (hflags : FlagsIn (flagsOf sh1 (p.getD [])) includeFlags)
    (hsafe : ¬ Flag (flagsOf sh1 (p.getD [])) c!"safe") (hnop : ¬ Flag (flagsOf sh1 (p.getD [])) c!"noparse")
    (hfile : FileName R sh1 inh1 c!"include" c only path sh2)
    (he : sh2.w.fs path = some e) (hcan : env.canon path = .ok canon)
    (honce : '!' ∈ mods → canon ∉ inh1.includeFiles) (htext : FileText sh2 e t)
    (hy : evaluated R true sh2 (placedIn env path canon inh1) c!"include" t only = r) :
    runBif env R sh inh (bifText mods c!"include" src) only = r := by
  obtain ⟨s, h1, hs⟩ := runBif_include hm hf hsc hmax hsel hparts hx hflags hfile he hcan
  rw [h1]
  unfold includeBody
  simp only [run_ite]
  rw [if_neg (by
    subst hs
    simp only [start, Bool.and_eq_true, List.contains_iff_mem, not_and]
    intro h
    exact honce (by simpa using h)), if_neg (by subst hs; rw [hasFlag_iff]; exact hsafe),
    if_neg (by subst hs; rw [hasFlag_iff]; exact hnop)]
  simp only [run_bind]
  have hpf : ∀ s : St, run R (perform (.pushFile .incl canon)) s =
      .ok () { s with inh := { s.inh with includeFiles := s.inh.includeFiles ++ [canon] } } := fun _ => rfl
  rw [hpf]
  simp only [andThen_ok, run_ite]
  have key : ∀ t' : Str, t' = t → bifResult env (run R (childParse t' true >>= fun x => setOut x)
      { s with inh := { s.inh with includeFiles := s.inh.includeFiles ++ [canon] } }) = r := by
    rintro _ rfl
    rw [run_bind, run_child_place env R _ _ (by subst hs; rfl) canon s.inh rfl]
    subst hs
    dsimp only
    change bifResult env (Res.andThen (match evaluated R true sh2 (placedIn env path canon inh1) c!"include" _ only with
      | .ok x sh' inh' => _
      | .panic p => _
      | .oof => _) _) = _
    rw [hy]
    rcases hr with rfl | ⟨q, rfl⟩ <;> rfl
  unfold FileText at htext
  have hsh : s.sh = sh2 := by subst hs; rfl
  by_cases hrem : c!"remove" <:+: sh2.comments
  · rw [if_pos hrem] at htext
    rw [if_pos (by rw [hsh, contains_iff (by decide)]; exact hrem), htext]
    dsimp only
    exact key t rfl
  · rw [if_neg hrem] at htext
    rw [if_neg (by rw [hsh, contains_iff (by decide)]; exact hrem)]
    exact key _ htext.symm

/-- A file whose text is an `include` of itself. -/
structure Spec.SelfIncluding (env : Env) (w : World) (path : Str) : Prop where
  name : NameOk path ∧ path.head? ≠ some '#'
  file : ∃ e canon, w.fs path = some e ∧ env.canon path = .ok canon ∧
    e.content = some (bifText [] c!"include" (c!" " ++ path ++ c!" "))

theorem createBlockSchema_keeps (sh : Shared) (inh : Inherit) :
    (createBlockSchema sh inh).1 = { sh with indir := (createBlockSchema sh inh).1.indir } := by
  unfold createBlockSchema
  dsimp only
  repeat' split
  all_goals rfl

theorem self_evaluates (env : Env) (path : Str) : ∀ (n : Nat) (sh : Shared) (inh : Inherit), SelfIncluding env sh.w path →
    sh.exit = false → ¬ (inh.lastCoalesceOut = true ∧ inh.alias = c!"coalesce") →
    parseSrc (runBlocks env n) sh inh (bifText [] c!"include" (c!" " ++ path ++ c!" ")) [] =
      if n ≤ sh.max - sh.count then .oof else .panic .budget := by
  intro n
  induction n with
  | zero =>
    intro sh inh hself hexit hco
    have hok : (Node.incl path []).Ok ⟨env.f64, false, false, [], fun _ => some [], fun _ => none, fun t => t, .null, .null⟩ [] := by
      simp only [Node.Ok, printAll, AllOk]
      exact ⟨hself.name.1, hself.name.2, trivial, trivial⟩
    have hbif := (shape_node _ hok).resolve_left (by rintro ⟨t, ht⟩; cases ht)
    have hwf : WellFormed 0 (bifText [] c!"include" (c!" " ++ path ++ c!" ") ++ []) _ := .block (.inl hbif) (.nil _)
    rw [List.append_nil] at hwf
    unfold parseSrc
    rw [C15_complete _ _ hwf, if_pos (Nat.zero_le _)]
    rfl
  | succ n ih =>
    intro sh inh hself hexit hco
    have hok : (Node.incl path []).Ok ⟨env.f64, false, false, [], fun _ => some [], fun _ => none, fun t => t, .null, .null⟩ [] := by
      simp only [Node.Ok, printAll, AllOk]
      exact ⟨hself.name.1, hself.name.2, trivial, trivial⟩
    have hbif := (shape_node _ hok).resolve_left (by rintro ⟨t, ht⟩; cases ht)
    have hwf : WellFormed 0 (bifText [] c!"include" (c!" " ++ path ++ c!" ") ++ []) _ := .block (.inl hbif) (.nil _)
    rw [List.append_nil] at hwf
    have hnc := all_noComment (S := ⟨env.f64, false, false, [], fun _ => some [], fun _ => none, fun t => t, .null, .null⟩) (al := []) (l := [Node.incl path []])
      (by simp only [AllOk]; exact ⟨hok, trivial⟩)
    simp only [printAll, Node.print, List.append_nil] at hnc
    have hrun : runBif env (runBlocks env n) sh inh (bifText [] c!"include" (c!" " ++ path ++ c!" ")) [] =
        if n + 1 ≤ sh.max - sh.count then .oof else .panic .budget := by
      by_cases hcnt : sh.count < sh.max
      · obtain ⟨e, canon, he, hcan, hcont⟩ := hself.file
        have hfl : flagsOf (counted sh) ((none : Option Str).getD []) = [] := flagsOf_plain (by decide)
        have hpath := pathOf_plain (inh := entered sh inh) hself.name.2
        refine include_fails env (runBlocks env n) sh (counted sh) (counted sh) inh (entered sh inh) [] (c!" " ++ path ++ c!" ") []
          path [] path canon (bifText [] c!"include" (c!" " ++ path ++ c!" ")) none e _ ?_ (by unfold Mods; decide) (by decide) (by decide) hcnt
          (.inl rfl) (name_plain hself.name.1) (evalParams_plain (by decide)) (by rw [hfl]; unfold FlagsIn; decide) (by rw [hfl]; decide)
          (by rw [hfl]; decide)
          (by
            have := FileName.literal (R := runBlocks env n) (sh := counted sh) (inh := entered sh inh) (name := c!"include") (only := [])
              (name_noOpen hself.name.1)
            rwa [hpath] at this)
          he hcan (fun h => absurd h (by decide)) (by
            unfold FileText
            rw [hcont]
            split
            · exact C16_unchanged _ hnc
            · rfl) ?_
        · split
          · exact .inl rfl
          · exact .inr ⟨_, rfl⟩
        · unfold evaluated runChild
          simp only [if_true]
          have hk := createBlockSchema_keeps (counted sh) (placedIn env path canon (entered sh inh))
          generalize createBlockSchema (counted sh) (placedIn env path canon (entered sh inh)) = q at hk ⊢
          have := ih q.1 (childInherit ⟨counted sh, placedIn env path canon (entered sh inh), { BifS.new with alias := c!"include" }, [], []⟩)
            (by rw [hk]; exact hself) (by rw [hk]; exact hexit) (by rintro ⟨_, h⟩; revert h; show ¬ c!"include" = c!"coalesce"; decide)
          have hmx : q.1.max = sh.max ∧ q.1.count = sh.count + 1 := by rw [hk]; exact ⟨rfl, rfl⟩
          rw [this, hmx.1, hmx.2]
          by_cases hle : n + 1 ≤ sh.max - sh.count
          · rw [if_pos hle, if_pos (by omega)]
          · rw [if_neg hle, if_neg (by omega)]
      · rw [if_neg (by omega)]
        unfold runBif
        rw [if_pos (by omega)]
    unfold parseSrc
    rw [C15_complete _ _ hwf]
    simp only [runBlocks, blocksGo, hexit, Bool.false_eq_true, if_false]
    have hsl : slice (bifText [] c!"include" (c!" " ++ path ++ c!" ")) 0 (0 + (bifText [] c!"include" (c!" " ++ path ++ c!" ")).length) =
        bifText [] c!"include" (c!" " ++ path ++ c!" ") := by simp [slice]
    have hst : startsWith c!"{:*" (bifText [] c!"include" (c!" " ++ path ++ c!" ")) = false := rfl
    rw [hsl, hst, if_neg (by
      simp only [Bool.false_or, Bool.and_eq_true, decide_eq_true_eq]
      exact hco), hrun]
    by_cases hle : n + 1 ≤ sh.max - sh.count
    · rw [if_pos hle]
    · rw [if_neg hle]

/-- **C104 (a file that includes itself).** It nests as deep as the limit of BIFs allows: one evaluation for each BIF that is left, and
one more; the render ends in the panic of the limit only then.  So the stack that is needed grows with `infinite_loop_max_bifs`. -/
theorem C104_self (env : Env) (path : Str) (sh : Shared) (inh : Inherit) (hself : SelfIncluding env sh.w path)
    (hexit : sh.exit = false) (hco : ¬ (inh.lastCoalesceOut = true ∧ inh.alias = c!"coalesce")) :
    NestsTo env sh inh (bifText [] c!"include" (c!" " ++ path ++ c!" ")) [] (sh.max - sh.count + 1) ∧
    ∀ n, sh.max - sh.count < n →
      parseSrc (runBlocks env n) sh inh (bifText [] c!"include" (c!" " ++ path ++ c!" ")) [] = .panic .budget := by
  refine ⟨⟨?_, fun m hm => ?_⟩, fun n hn => ?_⟩
  · rw [self_evaluates env path _ sh inh hself hexit hco, if_neg (by omega)]
    simp
  · rw [self_evaluates env path _ sh inh hself hexit hco, if_pos (by omega)]
  · rw [self_evaluates env path _ sh inh hself hexit hco, if_neg (by omega)]

/-- A world in which the file `me.ntpl` includes itself. -/
def Sample.selfWorld : World := ⟨fun p => if p = c!"me.ntpl" then some ⟨some c!"{:include; me.ntpl :}", 0, true⟩ else none, 0⟩

/-- The premises of `C104_self` are met. -/
example : SelfIncluding Sample.env Sample.selfWorld c!"me.ntpl" where
  name := ⟨⟨by decide, by decide, by decide⟩, by decide⟩
  file := ⟨_, _, rfl, rfl, rfl⟩

set_option maxRecDepth 10000 in
/-- A whole render, of a limit of 50: the panic of the limit. -/
example : Sample.panicOf (Tpl.render Sample.env 1 Sample.selfWorld
    (Sample.tpl (Sample.schema 50 [] Sample.inherit) c!"a {:include; me.ntpl :}")) = some .budget := by
  decide +kernel

set_option maxRecDepth 10000 in
/-- Three blocks inside each other in the template, twenty rounds of a loop: three evaluations inside each other. -/
example : Sample.outOf (Sample.go [] c!"{:for; i 1..20 >> {:code; {:;i:} :} :}") = some (c!"1234567891011121314151617181920", c!"200") ∧
    depthAll [.range false c!"i" 1 20 [.code false [.var false c!"i"]]] = 2 := by
  decide +kernel

end Nts
