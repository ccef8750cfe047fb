import Verif.Props.Allow
import Verif.Props.Names
import Verif.Props.Render
/-
C13: exactly what allow prints.
-/
set_option autoImplicit false
namespace Nts
open Spec

/-- Evaluate `text` as a block nested in the BIF `name`, also when it has no BIFs. `scope` tells whether what the block defines stays
visible afterwards. -/
def Spec.evaluated (R : Rec) (scope : Bool) (sh : Shared) (inh : Inherit) (name text only : Str) : PRes :=
  match runChild ⟨sh, inh, { BifS.new with alias := name }, [], only⟩ scope
      (fun sh' inh' => parseSrc R sh' inh' text only) with
  | .ok x s => .ok x s.sh s.inh
  | .panic p => .panic p
  | .oof => .oof

theorem evaluated_nested {R : Rec} {scope : Bool} {sh : Shared} {inh : Inherit} {name text only : Str} (h : c!"{:" <:+: text) :
    evaluated R scope sh inh name text only = nested R scope sh inh name text only := by
  unfold evaluated nested
  rw [if_pos ((contains_iff (by decide)).2 h)]
  rfl

theorem run_child_evaluated (R : Rec) {plus : Bool} (src : Str) (s : St) (hf : s.b.filePath = []) (hd : s.b.dir = []) :
    run R (childParse src plus) s =
      match evaluated R plus s.sh s.inh s.b.alias src s.only with
      | .ok x sh' inh' => .ok x { s with sh := sh', inh := inh' }
      | .panic p => .panic p
      | .oof => .oof := by
  rw [run_childParse]
  simp only [step]
  rw [runChild_congr s plus _ hf hd]
  unfold evaluated
  cases runChild ⟨s.sh, s.inh, { BifS.new with alias := s.b.alias }, [], s.only⟩ plus
      (fun sh' inh' => parseSrc R sh' inh' src s.only) <;> rfl

/-- A text without delimiters evaluates to itself (trimmed). -/
theorem evaluated_plain {env : Env} {n : Nat} {sh : Shared} {inh : Inherit} {name text only : Str} (h1 : ¬ c!"{:" <:+: text)
    (h2 : ¬ c!":}" <:+: text) : ∃ sh', evaluated (runBlocks env (n + 1)) false sh inh name text only = .ok (trim text) sh' inh ∧
      sh' = { sh with indir := sh'.indir } := by
  unfold evaluated runChild parseSrc
  rw [C15_complete text [] (wellFormed_plain h1 h2 0)]
  simp only [runBlocks, blocksGo, List.nil_append, List.drop_zero]
  refine ⟨_, rfl, ?_⟩
  unfold dropBlock
  dsimp only
  split <;> rfl

theorem named_allow : Named c!"allow" := by
  refine ⟨by decide, ?_⟩
  intro c r hc
  injection hc with h1 h2
  subst h1
  decide

theorem splitWsGo_ne (cur s : Str) : [] ∉ splitWsGo cur s := by
  induction s generalizing cur with
  | nil => unfold splitWsGo; split <;> simp_all
  | cons c s ih => unfold splitWsGo; split <;> (try split) <;> simp_all

theorem splitWhitespace_ne (s : Str) : [] ∉ splitWhitespace s := splitWsGo_ne [] s

/-- A word is found when one accepts the text: the first one. -/
theorem allowFind_iff (env : Env) (flags code : Str) (words : List Str) (hw : [] ∉ words) :
    allowFind env flags code words ≠ [] ↔ ∃ w ∈ words, WordAccepts env flags w code := by
  have hacc : ∀ w, wildcardMatch (allowHaystack env flags code) (allowPattern env flags w) = true ↔ WordAccepts env flags w code := by
    intro w
    rw [C12_wildcard]
    unfold WordAccepts allowHaystack allowPattern
    dsimp only
    by_cases hc : contains c!"|casein|" flags = true
    · simp only [hc, if_true]
    · simp only [hc, if_false]
      simp
  refine ⟨allowFind_spec env flags code words, ?_⟩
  rintro ⟨w, hw1, hw2⟩
  unfold allowFind
  cases hf : words.find? (fun w => wildcardMatch (allowHaystack env flags code) (allowPattern env flags w)) with
  | none =>
    rw [List.find?_eq_none] at hf
    exact absurd ((hacc w).2 hw2) (hf w hw1)
  | some v =>
    rw [Option.getD_some]
    intro hv
    rw [hv] at hf
    exact hw (List.mem_of_find?_eq_some hf)

/-- Flags of `allow`. -/
def Spec.allowFlags : List Str := [c!"partial", c!"replace", c!"casein"]

/-- The symbolic execution of `allow`. -/
theorem allow_run (env : Env) (R : Rec) (sh sh1 sh2 : Shared) (inh inh1 inh2 : Inherit) (mods src only p c k x : Str)
    (hm : Mods mods) (hf : '&' ∉ mods) (hsc : '+' ∉ mods) (hmax : sh.count < sh.max)
    (hsel : Selected inh mods c!"allow" only) (hparts : Parts src (some p) c)
    (hk : evalParams R (counted sh) (entered sh inh) c!"allow" p only = .ok k sh1 inh1)
    (hwords : readName env sh1 inh1 c!"declare" k ≠ []) (hflags : FlagsIn (flagsOf sh1 p) allowFlags)
    (hx : evaluated R false sh1 inh1 c!"allow" c only = .ok x sh2 inh2) :
    runBif env R sh inh (bifText mods c!"allow" src) only =
      finish (decide ('^' ∈ mods)) (allowOut env (flagsOf sh1 p) (decide ('!' ∈ mods)) x
        (splitWhitespace (readName env sh1 inh1 c!"declare" k))) sh2 inh2 := by
  rw [runBif_text env R sh inh mods c!"allow" src only hm named_allow hmax hsel]
  have hbody : bifBody env c!"allow" = bifAllow env := rfl
  rw [hbody]
  unfold bifAllow
  simp only [run_bind, run_denyMods]
  rw [if_neg (by simp [start, hf, hsc])]
  simp only [andThen_ok]
  rw [run_extract R hparts _ rfl rfl rfl rfl]
  change bifResult env (Res.andThen (match evalParams R (counted sh) (entered sh inh) c!"allow" p only with
    | .ok x sh' inh' => _
    | .panic p => _
    | .oof => _) _) = _
  rw [hk]
  simp only [andThen_ok, run_getSt, Option.getD_some, run_ite, run_bind]
  rw [if_neg (by
    intro h
    rw [List.isEmpty_iff] at h
    exact hwords h)]
  simp only [run_checkFlags]
  rw [badFlag_none (allowed := [c!"partial", c!"replace", c!"casein"]) hflags]
  simp only [andThen_ok]
  have hms : (start sh inh mods c!"allow" src only).b.modScope = false := by simp [start, hsc]
  have hch : ∀ b : Bool, b = false → ∀ (c : Str) (s : St), run R (childParse c b) s = run R (childParse c false) s := by
    intro b h c s; rw [h]
  rw [hch _ hms, run_child_evaluated R _ _ rfl rfl]
  change bifResult env (Res.andThen (match evaluated R false sh1 inh1 c!"allow" c only with
    | .ok x sh' inh' => _
    | .panic p => _
    | .oof => _) _) = _
  rw [hx]
  simp only [andThen_ok, run_setCode, run_getSt, run_setOut]
  rfl

/-- **C13 (exact).** Without the flag `replace`, `{:allow; name >> code :}` prints the evaluated code when one of the words declared under
`name` accepts it, and nothing otherwise; `{:!allow; name >> code :}` prints it when none of them accepts it. -/
theorem C13_exact (env : Env) (R : Rec) (sh sh1 sh2 : Shared) (inh inh1 inh2 : Inherit) (mods src only p c k x : Str)
    (hm : Mods mods) (hf : '&' ∉ mods) (hsc : '+' ∉ mods) (hmax : sh.count < sh.max)
    (hsel : Selected inh mods c!"allow" only) (hparts : Parts src (some p) c)
    (hk : evalParams R (counted sh) (entered sh inh) c!"allow" p only = .ok k sh1 inh1)
    (hwords : readName env sh1 inh1 c!"declare" k ≠ []) (hflags : FlagsIn (flagsOf sh1 p) allowFlags)
    (hrep : ¬ Flag (flagsOf sh1 p) c!"replace")
    (hx : evaluated R false sh1 inh1 c!"allow" c only = .ok x sh2 inh2) :
    ((¬ '!' ∈ mods ↔ ∃ w ∈ splitWhitespace (readName env sh1 inh1 c!"declare" k), WordAccepts env (flagsOf sh1 p) w x) →
      runBif env R sh inh (bifText mods c!"allow" src) only = finish (decide ('^' ∈ mods)) x sh2 inh2) ∧
    (('!' ∈ mods ↔ ∃ w ∈ splitWhitespace (readName env sh1 inh1 c!"declare" k), WordAccepts env (flagsOf sh1 p) w x) →
      runBif env R sh inh (bifText mods c!"allow" src) only = finish (decide ('^' ∈ mods)) [] sh2 inh2) := by
  rw [allow_run env R sh sh1 sh2 inh inh1 inh2 mods src only p c k x hm hf hsc hmax hsel hparts hk hwords hflags hx]
  have hr : contains c!"|replace|" (flagsOf sh1 p) = false := (contains_false_iff (by decide)).2 hrep
  rw [← allowFind_iff env _ _ _ (splitWhitespace_ne _)]
  unfold allowOut
  by_cases hn : '!' ∈ mods <;>
    by_cases hfd : allowFind env (flagsOf sh1 p) x (splitWhitespace (readName env sh1 inh1 c!"declare" k)) = [] <;>
    simp [hn, hfd, hr]

/-- Without wild cards. -/
def Spec.unwild (w : Str) : Str := w.filter (fun c => !(c!"~*?.").contains c)

theorem replGo_del (d : Char) (s : Str) : replGo [d] [] 0 s = s.filter (fun c => c != d) := by
  induction s with
  | nil => rfl
  | cons c s ih =>
    by_cases hc : c = d
    · subst hc
      rw [show (c :: s) = [c] ++ s from rfl, replGo_match _ _ _ (by simp), ih]
      simp
    · rw [replGo_nomatch, ih]
      · simp [hc]
      · rintro ⟨t, ht⟩
        simp only [List.cons_append, List.cons.injEq] at ht
        exact hc ht.1.symm

theorem stripWild_eq (w : Str) : stripWild w = unwild w := by
  unfold stripWild replaceAll unwild
  simp only [reduceCtorEq, if_false, replGo_del, List.filter_filter]
  congr 1
  funext c
  rw [Bool.eq_iff_iff]
  simp only [Bool.and_eq_true, bne_iff_ne, ne_eq, Bool.not_eq_true', List.contains_eq_mem, decide_eq_false_iff_not,
    List.mem_cons, List.not_mem_nil, or_false, not_or]
  constructor <;> (rintro ⟨h1, h2, h3, h4⟩; exact ⟨h4, h3, h2, h1⟩)

/-- **C13 (replace).** With the flag `replace`, `allow` prints the first word that the evaluated code contains, without its wild cards,
and nothing if there is none; with `!` it prints nothing. -/
theorem C13_replace (env : Env) (R : Rec) (sh sh1 sh2 : Shared) (inh inh1 inh2 : Inherit) (mods src only p c k x : Str)
    (hm : Mods mods) (hf : '&' ∉ mods) (hsc : '+' ∉ mods) (hmax : sh.count < sh.max)
    (hsel : Selected inh mods c!"allow" only) (hparts : Parts src (some p) c)
    (hk : evalParams R (counted sh) (entered sh inh) c!"allow" p only = .ok k sh1 inh1)
    (hwords : readName env sh1 inh1 c!"declare" k ≠ []) (hflags : FlagsIn (flagsOf sh1 p) allowFlags)
    (hrep : Flag (flagsOf sh1 p) c!"replace")
    (hx : evaluated R false sh1 inh1 c!"allow" c only = .ok x sh2 inh2) :
    (∀ a w b, splitWhitespace (readName env sh1 inh1 c!"declare" k) = a ++ w :: b → WordAccepts env (flagsOf sh1 p) w x →
      (∀ v ∈ a, ¬ WordAccepts env (flagsOf sh1 p) v x) → '!' ∉ mods →
      runBif env R sh inh (bifText mods c!"allow" src) only = finish (decide ('^' ∈ mods)) (unwild w) sh2 inh2) ∧
    ((∀ w ∈ splitWhitespace (readName env sh1 inh1 c!"declare" k), ¬ WordAccepts env (flagsOf sh1 p) w x) ∨ '!' ∈ mods →
      runBif env R sh inh (bifText mods c!"allow" src) only = finish (decide ('^' ∈ mods)) [] sh2 inh2) := by
  rw [allow_run env R sh sh1 sh2 inh inh1 inh2 mods src only p c k x hm hf hsc hmax hsel hparts hk hwords hflags hx]
  have hr : contains c!"|replace|" (flagsOf sh1 p) = true := (contains_iff (by decide)).2 hrep
  have hiff := allowFind_iff env (flagsOf sh1 p) x _ (splitWhitespace_ne (readName env sh1 inh1 c!"declare" k))
  have hacc : ∀ w, wildcardMatch (allowHaystack env (flagsOf sh1 p) x) (allowPattern env (flagsOf sh1 p) w) = true ↔
      WordAccepts env (flagsOf sh1 p) w x := by
    intro w
    rw [C12_wildcard]
    unfold WordAccepts allowHaystack allowPattern
    dsimp only
    by_cases hc : contains c!"|casein|" (flagsOf sh1 p) = true
    · simp only [hc, if_true]
    · simp only [hc, if_false]
      simp
  constructor
  · intro a w b hs hw hv hn
    have : allowFind env (flagsOf sh1 p) x (splitWhitespace (readName env sh1 inh1 c!"declare" k)) = w := by
      unfold allowFind
      rw [hs]
      have : List.find? (fun w => wildcardMatch (allowHaystack env (flagsOf sh1 p) x) (allowPattern env (flagsOf sh1 p) w))
          (a ++ w :: b) = some w := by
        rw [List.find?_append, List.find?_eq_none.2 (fun v hva h => hv v hva ((hacc v).1 h)), List.find?_cons, (hacc w).2 hw]
        rfl
      rw [this]; rfl
    have hne : w ≠ [] := fun h => splitWhitespace_ne (readName env sh1 inh1 c!"declare" k) (by rw [hs, ← h]; simp)
    unfold allowOut
    rw [this]
    simp [hn, hne, hr, stripWild_eq]
  · intro h
    unfold allowOut
    have he : ('!' ∈ mods → allowFind env (flagsOf sh1 p) x (splitWhitespace (readName env sh1 inh1 c!"declare" k)) = [] → stripWild
        (allowFind env (flagsOf sh1 p) x (splitWhitespace (readName env sh1 inh1 c!"declare" k))) = []) := by
      intro _ h2
      rw [h2]; rfl
    by_cases hn : '!' ∈ mods <;>
      by_cases hfd : allowFind env (flagsOf sh1 p) x (splitWhitespace (readName env sh1 inh1 c!"declare" k)) = []
    · simp [hn, hfd, hr]; rfl
    · simp [hn, hfd]
    · simp [hn, hfd]
    · exfalso
      obtain ⟨w, hw1, hw2⟩ := hiff.1 hfd
      rcases h with h | h
      · exact h w hw1 hw2
      · exact hn h

/-- **C13 (nothing declared).** Without words declared under the name, `allow` (also `!allow`) is an error and prints nothing. -/
theorem C13_undeclared (env : Env) (R : Rec) (sh sh1 : Shared) (inh inh1 : Inherit) (mods src only c k : Str) (p : Option Str)
    (hm : Mods mods) (hf : '&' ∉ mods) (hsc : '+' ∉ mods) (hmax : sh.count < sh.max)
    (hsel : Selected inh mods c!"allow" only) (hparts : Parts src p c)
    (hk : evalParams R (counted sh) (entered sh inh) c!"allow" (p.getD []) only = .ok k sh1 inh1)
    (hwords : readName env sh1 inh1 c!"declare" k = []) :
    runBif env R sh inh (bifText mods c!"allow" src) only =
      failed env mods c!"allow" (bifText mods c!"allow" src) (k ++ c!" declared is empty") sh1 inh1 := by
  rw [runBif_text env R sh inh mods c!"allow" src only hm named_allow hmax hsel]
  have hbody : bifBody env c!"allow" = bifAllow env := rfl
  rw [hbody]
  unfold bifAllow
  simp only [run_bind, run_denyMods]
  rw [if_neg (by simp [start, hf, hsc])]
  simp only [andThen_ok]
  rw [run_extract R hparts _ rfl rfl rfl rfl]
  change bifResult env (Res.andThen (match evalParams R (counted sh) (entered sh inh) c!"allow" (p.getD []) only with
    | .ok x sh' inh' => _
    | .panic p => _
    | .oof => _) _) = _
  rw [hk]
  simp only [andThen_ok, run_getSt, run_ite, run_bind]
  rw [if_pos (by rw [List.isEmpty_iff]; exact hwords)]
  exact bifResult_failed env mods c!"allow" _ _ _ _ _ rfl rfl rfl rfl rfl rfl

set_option maxRecDepth 10000 in
example :
    Sample.outOf (Sample.goSnippets c!"{:declare; w >> on* two :}"
      c!"{:include; snippets.ntpl :}{:allow; w >> one :}|{:!allow; w >> one :}|{:allow; w >> x :}|{:!allow; w >> x :}|{:allow; {:flg; replace :} w >> a-one-b :}") =
      some (c!"one|||x|on", c!"200") := by
  decide +kernel

end Nts
