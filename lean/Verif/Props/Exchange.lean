import Verif.Props.Dead
/-
C130: code can be exchanged with code that does the same.
-/
set_option autoImplicit false
namespace Nts
open Spec

/-- Whatever the first text does in a state, the second does in the same state. -/
def Spec.DoesTheSame (env : Env) (R : Rec) (only c1 c2 : Str) : Prop :=
  ∀ sh inh e y sh' inh', Produces env R only c1 sh inh e y sh' inh' → Produces env R only c2 sh inh e y sh' inh'

/-- Whatever the first text does as the code of the BIF `name` in the state `sh`, `inh`, the second does in it. -/
def Spec.SameCode (R : Rec) (mods name only c1 c2 : Str) (sh : Shared) (inh : Inherit) : Prop :=
  ∀ x s i, nested R (decide ('+' ∈ mods)) sh inh name c1 only = .ok x s i → nested R (decide ('+' ∈ mods)) sh inh name c2 only = .ok x s i

/-- **C130 (a place of a text).** At a place of a text a BIF can be exchanged with another one that does what it does in the state in which
that place is reached. -/
theorem C130_place (env : Env) (R : Rec) (only a B B' b ya y : Str) (sh sh1 sh' : Shared) (inh inh1 inh' : Inherit) (e : Bool)
    (hB : IsBif B) (hB' : IsBif B') (ha : Produces env R only a sh inh true ya sh1 inh1) (hx : sh1.exit = false)
    (hrun : ∀ x s i, runBif env R sh1 inh1 B only = .ok x s i → runBif env R sh1 inh1 B' only = .ok x s i)
    (h : Produces env R only (a ++ (B ++ b)) sh inh e y sh' inh') : Produces env R only (a ++ (B' ++ b)) sh inh e y sh' inh' := by
  obtain ⟨z, rfl, h1⟩ := C68_split (bif_noColon hB b) ha rfl hx h
  refine C68_append ha rfl hx (bif_noColon hB' b) ?_
  rcases produces_block (.inl hB) h1 with ⟨h4, _⟩ | ⟨h0, h5, h6⟩ | ⟨h0, _, hc, x', z, s3, i3, rfl, h6, h7⟩
  · rw [hx] at h4; cases h4
  · obtain ⟨h7, h8⟩ := h5.resolve_left (not_both hB)
    exact .skipped h0 hB' h7 h8 h6
  · exact .evaluated h0 hB' hc (hrun _ _ _ h6) h7

theorem stays_open {env : Env} {R : Rec} {only s y : Str} {sh sh' : Shared} {inh inh' : Inherit}
    (h : Produces env R only s sh inh false y sh' inh') : c!"{:" <:+: s := by
  by_cases ho : c!"{:" <:+: s
  · exact ho
  · exact absurd (produces_plain_inv ho h).1 (by decide)

/-- **C130 (one text after the other).** In front of texts that do the same, any text can stand. -/
theorem C130_before (env : Env) (R : Rec) (only a b b' : Str) (l : List Str) (ha : BifsOf a l) (hb : NoColon b) (hb' : NoColon b')
    (h : DoesTheSame env R only b b') : DoesTheSame env R only (a ++ b) (a ++ b') := by
  induction ha with
  | nil => exact h
  | @chr s l c h1 h2 ih =>
    intro sh inh e y sh' inh' h3
    have hn : ∀ t, NoColon t → ¬ c!"{:" <+: c :: (s ++ t) := by
      rintro t ht ⟨r, hr⟩
      have hr' : (c :: (s ++ t) : Str) = '{' :: ':' :: r := by simpa using hr.symm
      injection hr' with e1 e2
      subst e1
      cases s with
      | nil => exact ht ⟨r, by simpa using e2.symm⟩
      | cons d s =>
        injection e2 with e3 _
        subst e3
        exact h1 ⟨s, rfl⟩
    rcases produces_chr (hn b hb) h3 with ⟨h4, h6, rfl, rfl, rfl, rfl⟩ | ⟨h4, z, rfl, h5⟩
    · have h7 := stays_open (ih _ _ _ _ _ _ (.stop (inh := inh') h4 h6))
      exact .stop h4 (List.infix_cons_iff.2 (.inr h7))
    · refine .chr c (hn b' hb') (fun h6 => h4 ⟨h6.1, ?_⟩) (ih _ _ _ _ _ _ h5)
      by_cases ho : c!"{:" <:+: s ++ b
      · exact ho
      · exfalso
        obtain ⟨e1, y1, h7⟩ := over_produces (env := env) (R := R) (only := only) (s := s ++ b) (inh := inh) h6.1
        have h8 := ih _ _ _ _ _ _ h7
        have h9 := (produces_plain_inv ho h7).1
        subst h9
        exact absurd (produces_exit h6.1 h6.2 h8).1 (by decide)
  | @comment c s l hc _ ih =>
    intro sh inh e y sh' inh' h3
    rw [List.append_assoc] at h3 ⊢
    rcases produces_block (.inr hc) h3 with ⟨h4, rfl, rfl, rfl, rfl⟩ | ⟨h4, _, h5⟩ | ⟨_, h5, _⟩
    · exact .stop h4 (List.IsPrefix.isInfix (block_opens (.inr hc) _))
    · exact .comment h4 hc (ih _ _ _ _ _ _ h5)
    · exact (not_both h5 hc).elim
  | @one c s l hB _ ih =>
    intro sh inh e y sh' inh' h3
    rw [List.append_assoc] at h3 ⊢
    rcases produces_block (.inl hB) h3 with ⟨h4, rfl, rfl, rfl, rfl⟩ | ⟨h4, h5, h6⟩ | ⟨h4, _, hc, x, z, s1, i1, rfl, h6, h7⟩
    · exact .stop h4 (List.IsPrefix.isInfix (block_opens (.inl hB) _))
    · obtain ⟨h7, h8⟩ := h5.resolve_left (not_both hB)
      exact .skipped h4 hB h7 h8 (ih _ _ _ _ _ _ h6)
    · exact .evaluated h4 hB hc h6 (ih _ _ _ _ _ _ h7)

/-- **C130 (a BIF).** A BIF can be exchanged, anywhere in a text, with one that does what it does in every state. -/
theorem C130_anywhere (env : Env) (R : Rec) (only a B B' b : Str) (l : List Str) (ha : BifsOf a l) (hB : IsBif B) (hB' : IsBif B')
    (hrun : ∀ sh inh x s i, runBif env R sh inh B only = .ok x s i → runBif env R sh inh B' only = .ok x s i) :
    DoesTheSame env R only (a ++ (B ++ b)) (a ++ (B' ++ b)) := by
  refine C130_before env R only a _ _ l ha (bif_noColon hB b) (bif_noColon hB' b) ?_
  intro sh inh e y sh' inh' h1
  rcases produces_block (.inl hB) h1 with ⟨h4, rfl, rfl, rfl, rfl⟩ | ⟨h0, h5, h6⟩ | ⟨h0, _, hc, x', z, s3, i3, rfl, h6, h7⟩
  · exact .stop h4 (List.IsPrefix.isInfix (block_opens (.inl hB') _))
  · obtain ⟨h7, h8⟩ := h5.resolve_left (not_both hB)
    exact .skipped h0 hB' h7 h8 h6
  · exact .evaluated h0 hB' hc (hrun _ _ _ _ _ h6) h7

/-- **C130 (the code of a BIF).** Texts that do the same do so as the code of a BIF, with or without the modifier `+`, in every state. -/
theorem C130_code_of (env : Env) (n : Nat) (mods name only c1 c2 : Str) (sh : Shared) (inh : Inherit) (m1 m2 : List (Nat × Nat))
    (hwf1 : WellFormed 0 c1 m1) (hwf2 : WellFormed 0 c2 m2) (ho1 : c!"{:" <:+: c1) (ho2 : c!"{:" <:+: c2)
    (hsame : DoesTheSame env (runBlocks env n) only c1 c2) : SameCode (runBlocks env (n + 1)) mods name only c1 c2 sh inh := by
  intro x1 sh' inh' h
  have key : ∀ (s : Shared) (i : Inherit) (out : Str) (s' : Shared) (i' : Inherit),
      parseSrc (runBlocks env (n + 1)) s i c1 only = .ok out s' i' → parseSrc (runBlocks env (n + 1)) s i c2 only = .ok out s' i' := by
    intro s i out s' i' hp
    obtain ⟨e1, y1, h3, rfl⟩ := (C68_blocks env n s s' i i' c1 only out m1 hwf1).1 hp
    exact (C68_blocks env n s s' i i' c2 only _ m2 hwf2).2 ⟨e1, y1, hsame _ _ _ _ _ _ h3, rfl⟩
  unfold nested runChild at h ⊢
  rw [if_pos ((contains_iff (by decide)).2 ho1)] at h
  rw [if_pos ((contains_iff (by decide)).2 ho2)]
  cases hs : decide ('+' ∈ mods) <;>
  · rw [hs] at h
    simp only [Bool.false_eq_true, if_false, if_true] at h ⊢
    split at h
    next x s hr =>
      split at hr
      next out s' i' hp =>
        rw [key _ _ _ _ _ hp]
        cases hr
        cases h
        rfl
      · cases hr
      · cases hr
    · cases h
    · cases h

theorem shown_same {R : Rec} {mods name only c1 c2 z : Str} {sh sh' : Shared} {inh inh' : Inherit}
    (hsame : SameCode R mods name only c1 c2 sh inh) (h : shown R mods name c1 only sh inh = .ok z sh' inh') :
    shown R mods name c2 only sh inh = .ok z sh' inh' := by
  unfold shown at h ⊢
  cases hn : nested R (decide ('+' ∈ mods)) sh inh name c1 only with
  | panic q => rw [hn] at h; cases h
  | oof => rw [hn] at h; cases h
  | ok x s i =>
    rw [hn] at h
    rw [hsame _ _ _ hn]
    exact h

/-- **C130 (conditions).** The code of a condition can be exchanged with code that does the same in the state in which it is evaluated. -/
theorem C130_condition (env : Env) (R : Rec) (sh sh1 sh' : Shared) (inh inh1 inh' : Inherit) (mods name src1 src2 only p c1 c2 x z : Str)
    (hname : name ∈ condNames) (hm : Mods mods) (hf : '&' ∉ mods) (hmax : sh.count < sh.max)
    (hsel : Selected inh mods name only) (hp1 : Parts src1 (some p) c1) (hp2 : Parts src2 (some p) c2)
    (hx : evalParams R (counted sh) (entered sh inh) name p only = .ok x sh1 inh1) (hfl : flagsOf sh1 p = [])
    (hsame : SameCode R mods name only c1 c2 sh1 inh1)
    (h : runBif env R sh inh (bifText mods name src1) only = .ok z sh' inh') :
    runBif env R sh inh (bifText mods name src2) only = .ok z sh' inh' := by
  have a1 := C33_condition env R sh sh1 inh inh1 mods name src1 only p c1 x hname hm hf hmax hsel hp1 hx hfl
  have a2 := C33_condition env R sh sh1 inh inh1 mods name src2 only p c2 x hname hm hf hmax hsel hp2 hx hfl
  by_cases hc : Cond env name sh1 inh1 x <;> by_cases hn : '!' ∈ mods
  · rw [a1.2.1 hc hn] at h; rw [a2.2.1 hc hn]; exact h
  · rw [a1.1 hc hn] at h; rw [a2.1 hc hn]; exact shown_same hsame h
  · rw [a1.2.2.2 hc hn] at h; rw [a2.2.2.2 hc hn]; exact shown_same hsame h
  · rw [a1.2.2.1 hc hn] at h; rw [a2.2.2.1 hc hn]; exact h

/-- **C130 (comparisons).** The same for comparisons. -/
theorem C130_compare (env : Env) (R : Rec) (sh sh1 sh' : Shared) (inh inh1 inh' : Inherit) (mods name src1 src2 only r c1 c2 w : Str)
    (d : Char) (z a b : Str) (more : List Str)
    (hname : name ∈ cmpNames) (hm : Mods mods) (hf : '&' ∉ mods) (hmax : sh.count < sh.max)
    (hsel : Selected inh mods name only) (hp1 : Parts src1 (some (d :: r)) c1) (hp2 : Parts src2 (some (d :: r)) c2)
    (hflg : ¬ c!"{:flg;" <:+: d :: r)
    (hargs : ArgsGive R name only (splitChar d (d :: r)) (counted sh) (entered sh inh) (z :: a :: b :: more) sh1 inh1)
    (hsame : SameCode R mods name only c1 c2 sh1 inh1)
    (h : runBif env R sh inh (bifText mods name src1) only = .ok w sh' inh') :
    runBif env R sh inh (bifText mods name src2) only = .ok w sh' inh' := by
  have a1 := C33_compare env R sh sh1 inh inh1 mods name src1 only r c1 d z a b more hname hm hf hmax hsel hp1 hflg hargs
  have a2 := C33_compare env R sh sh1 inh inh1 mods name src2 only r c2 d z a b more hname hm hf hmax hsel hp2 hflg hargs
  by_cases hc : Compares name a b <;> by_cases hn : '!' ∈ mods
  · rw [a1.2.1 hc hn] at h; rw [a2.2.1 hc hn]; exact h
  · rw [a1.1 hc hn] at h; rw [a2.1 hc hn]; exact shown_same hsame h
  · rw [a1.2.2.2 hc hn] at h; rw [a2.2.2.2 hc hn]; exact shown_same hsame h
  · rw [a1.2.2.1 hc hn] at h; rw [a2.2.2.1 hc hn]; exact h

/-- **C130 (`else`).** The same for `else`. -/
theorem C130_else (env : Env) (R : Rec) (sh sh' : Shared) (inh inh' : Inherit) (mods src1 src2 only c1 c2 z : Str) (hm : Mods mods)
    (hf : '&' ∉ mods) (hmax : sh.count < sh.max) (hsel : Selected inh mods c!"else" only) (hp1 : Parts src1 none c1)
    (hp2 : Parts src2 none c2) (hsame : SameCode R mods c!"else" only c1 c2 (counted sh) (entered sh inh))
    (h : runBif env R sh inh (bifText mods c!"else" src1) only = .ok z sh' inh') :
    runBif env R sh inh (bifText mods c!"else" src2) only = .ok z sh' inh' := by
  rw [C34_else env R sh inh mods src1 only c1 hm hf hmax hsel hp1] at h
  rw [C34_else env R sh inh mods src2 only c2 hm hf hmax hsel hp2]
  split at h
  next hc => rw [if_pos hc]; exact shown_same hsame h
  next hc => rw [if_neg hc]; exact h

/-- **C130 (`coalesce`).** The same for `coalesce`. -/
theorem C130_coalesce (env : Env) (R : Rec) (sh sh' : Shared) (inh inh' : Inherit) (mods src1 src2 only z : Str) (hm : Mods mods)
    (hf : '&' ∉ mods) (hn : '!' ∉ mods) (hmax : sh.count < sh.max) (hsel : Selected inh mods c!"coalesce" only)
    (ho1 : c!"{:" <:+: trim src1) (ho2 : c!"{:" <:+: trim src2)
    (hsame : SameCode R mods c!"coalesce" only (trim src1) (trim src2) (counted sh) { entered sh inh with lastCoalesceOut := false })
    (h : runBif env R sh inh (bifText mods c!"coalesce" src1) only = .ok z sh' inh') :
    runBif env R sh inh (bifText mods c!"coalesce" src2) only = .ok z sh' inh' := by
  rw [C35_coalesce env R sh inh mods src1 only hm hf hn hmax hsel ho1] at h
  rw [C35_coalesce env R sh inh mods src2 only hm hf hn hmax hsel ho2]
  exact shown_same hsame h

/-- **C130 (`code`).** The same for `code` without flags. -/
theorem C130_code (env : Env) (R : Rec) (sh sh1 sh' : Shared) (inh inh1 inh' : Inherit) (mods src1 src2 only c1 c2 x z : Str)
    (p : Option Str) (hm : Mods mods) (hf : '&' ∉ mods) (hneg : '!' ∉ mods)
    (hmax : sh.count < sh.max) (hsel : Selected inh mods c!"code" only) (hp1 : Parts src1 p c1) (hp2 : Parts src2 p c2)
    (hx : evalParams R (counted sh) (entered sh inh) c!"code" (p.getD []) only = .ok x sh1 inh1) (hfl : flagsOf sh1 (p.getD []) = [])
    (hends : ∃ x s i, nested R (decide ('+' ∈ mods)) sh1 inh1 c!"code" c1 only = .ok x s i)
    (hsame : SameCode R mods c!"code" only c1 c2 sh1 inh1)
    (h : runBif env R sh inh (bifText mods c!"code" src1) only = .ok z sh' inh') :
    runBif env R sh inh (bifText mods c!"code" src2) only = .ok z sh' inh' := by
  obtain ⟨x1, s, i, hn⟩ := hends
  have key : ∀ src c y, Parts src p c → nested R (decide ('+' ∈ mods)) sh1 inh1 c!"code" c only = .ok y s i →
      runBif env R sh inh (bifText mods c!"code" src) only = finish (decide ('^' ∈ mods)) y s i := by
    intro src c y hp hy
    have h := C70_code env R sh sh1 s inh inh1 i mods src only c x y p hm hf hneg hmax hsel hp hx
      (by rw [hfl]; unfold Flag; decide) (by rw [hfl]; unfold FlagsIn; decide)
      (by rw [hfl, if_neg (by unfold Flag; decide)]; exact hy)
    rw [hfl] at h
    exact h
  rw [key src1 c1 x1 hp1 hn] at h
  rw [key src2 c2 x1 hp2 (hsame _ _ _ hn)]
  exact h

/-- **C130 (`code` with flags).** The same for `code` with flags, unless its text is not evaluated. -/
theorem C130_flags (env : Env) (R : Rec) (sh sh1 sh' : Shared) (inh inh1 inh' : Inherit) (mods src1 src2 only c1 c2 x z : Str)
    (p : Option Str) (hm : Mods mods) (hf : '&' ∉ mods) (hneg : '!' ∉ mods)
    (hmax : sh.count < sh.max) (hsel : Selected inh mods c!"code" only) (hp1 : Parts src1 p c1) (hp2 : Parts src2 p c2)
    (hx : evalParams R (counted sh) (entered sh inh) c!"code" (p.getD []) only = .ok x sh1 inh1)
    (hsafe : ¬ Flag (flagsOf sh1 (p.getD [])) c!"safe") (hnp : ¬ Flag (flagsOf sh1 (p.getD [])) c!"noparse")
    (hflags : FlagsIn (flagsOf sh1 (p.getD [])) codeFlags)
    (hends : ∃ x s i, nested R (decide ('+' ∈ mods)) sh1 inh1 c!"code" (codeBefore (flagsOf sh1 (p.getD [])) c1) only = .ok x s i)
    (hsame : SameCode R mods c!"code" only (codeBefore (flagsOf sh1 (p.getD [])) c1) (codeBefore (flagsOf sh1 (p.getD [])) c2) sh1 inh1)
    (h : runBif env R sh inh (bifText mods c!"code" src1) only = .ok z sh' inh') :
    runBif env R sh inh (bifText mods c!"code" src2) only = .ok z sh' inh' := by
  obtain ⟨x1, s, i, hn⟩ := hends
  rw [C70_code env R sh sh1 s inh inh1 i mods src1 only c1 x x1 p hm hf hneg hmax hsel hp1 hx hsafe hflags
    (by rw [if_neg hnp]; exact hn)] at h
  rw [C70_code env R sh sh1 s inh inh1 i mods src2 only c2 x x1 p hm hf hneg hmax hsel hp2 hx hsafe hflags
    (by rw [if_neg hnp]; exact hsame _ _ _ hn)]
  exact h

/-- **C130 (`eval`).** The same for `eval`. -/
theorem C130_eval (env : Env) (R : Rec) (sh sh1 sh2 sh3 sh4 : Shared) (inh inh1 inh3 : Inherit) (mods src1 src2 only c1 c2 x y : Str)
    (p : Option Str) (hm : Mods mods) (hf : '&' ∉ mods) (hmax : sh.count < sh.max)
    (hsel : Selected inh mods c!"eval" only) (hp1 : Parts src1 p c1) (hp2 : Parts src2 p c2) (hflg : ¬ c!"{:flg;" <:+: p.getD [])
    (hx : nested R (decide ('+' ∈ mods)) (counted sh) (entered sh inh) c!"eval" (p.getD []) only = .ok x sh1 inh1)
    (hcond : (x ≠ [] ∧ '!' ∉ mods) ∨ (x = [] ∧ '!' ∈ mods)) (ho1 : c!"{:" <:+: c1) (ho2 : c!"{:" <:+: c2)
    (hset : VarSet sh1 c!"__eval__" (.str x) sh2)
    (hsame : SameCode R mods c!"eval" only c1 c2 sh2 inh1)
    (hy : nested R (decide ('+' ∈ mods)) sh2 inh1 c!"eval" c1 only = .ok y sh3 inh3)
    (hback : VarSet sh3 c!"__eval__" (.str (shownVar env sh1 c!"__eval__")) sh4) :
    runBif env R sh inh (bifText mods c!"eval" src2) only = runBif env R sh inh (bifText mods c!"eval" src1) only := by
  rw [C58_shown env R sh sh1 sh2 sh3 sh4 inh inh1 inh3 mods src1 only c1 x y p hm hf hmax hsel hp1 hflg hx hcond ho1 hset hy hback,
    C58_shown env R sh sh1 sh2 sh3 sh4 inh inh1 inh3 mods src2 only c2 x y p hm hf hmax hsel hp2 hflg hx hcond ho2 hset
      (hsame _ _ _ hy) hback]

theorem block_same {env : Env} {n : Nat} {scope : Bool} {sh sh' : Shared} {inh inh' : Inherit} {name c1 c2 only x : Str}
    {m1 m2 : List (Nat × Nat)} (hwf1 : WellFormed 0 c1 m1) (hwf2 : WellFormed 0 c2 m2)
    (hsame : DoesTheSame env (runBlocks env n) only c1 c2)
    (h : block (runBlocks env (n + 1)) scope sh inh name c1 only = .ok x sh' inh') :
    block (runBlocks env (n + 1)) scope sh inh name c2 only = .ok x sh' inh' := by
  have key : ∀ (s : Shared) (i : Inherit) (out : Str) (s' : Shared) (i' : Inherit),
      parseSrc (runBlocks env (n + 1)) s i c1 only = .ok out s' i' → parseSrc (runBlocks env (n + 1)) s i c2 only = .ok out s' i' := by
    intro s i out s' i' hp
    obtain ⟨e1, y1, h3, rfl⟩ := (C68_blocks env n s s' i i' c1 only out m1 hwf1).1 hp
    exact (C68_blocks env n s s' i i' c2 only _ m2 hwf2).2 ⟨e1, y1, hsame _ _ _ _ _ _ h3, rfl⟩
  unfold block runChild at h ⊢
  cases scope <;>
  · simp only [Bool.false_eq_true, if_false, if_true] at h ⊢
    split at h
    next x s hr =>
      split at hr
      next out s' i' hp =>
        rw [key _ _ _ _ _ hp]
        cases hr
        cases h
        rfl
      · cases hr
      · cases hr
    · cases h
    · cases h

/-- **C130 (rounds).** In the rounds of a loop, the body can be exchanged with one that does the same. -/
theorem C130_rounds (env : Env) (n : Nat) (scope : Bool) (name c1 c2 only out : Str) (vs : List (List (Str × Value)))
    (m1 m2 : List (Nat × Nat)) (hwf1 : WellFormed 0 c1 m1) (hwf2 : WellFormed 0 c2 m2)
    (hsame : DoesTheSame env (runBlocks env n) only c1 c2)
    (sh sh' : Shared) (inh inh' : Inherit) (h : Rounds (runBlocks env (n + 1)) scope name c1 only vs sh inh out sh' inh') :
    Rounds (runBlocks env (n + 1)) scope name c2 only vs sh inh out sh' inh' := by
  induction h with
  | nil => exact .nil _ _
  | set hv _ ih => exact .set hv ih
  | eval hb _ ih => exact .eval (block_same hwf1 hwf2 hsame hb) ih

/-- **C130 (`each`).** The body of a loop can be exchanged with one that does the same. -/
theorem C130_each (env : Env) (n : Nat) (sh sh1 sh2 : Shared) (inh inh1 inh2 : Inherit)
    (mods src1 src2 only p c1 c2 x an kn vn out : Str) (extra : List Str) (m1 m2 : List (Nat × Nat)) (coll : Value)
    (items : List (Str × Value)) (sc d : Obj)
    (hm : Mods mods) (hf : '&' ∉ mods) (hneg : '!' ∉ mods) (hmax : sh.count < sh.max)
    (hsel : Selected inh mods c!"each" only) (hp1 : Parts src1 (some p) c1) (hp2 : Parts src2 (some p) c2)
    (hx : evalParams (runBlocks env (n + 1)) (counted sh) (entered sh inh) c!"each" p only = .ok x sh1 inh1) (hflags : flagsOf sh1 p = [])
    (hwords : Words x (an :: kn :: vn :: extra)) (hkn : ¬ c!"local::" <+: kn) (hvn : ¬ c!"local::" <+: vn)
    (hcoll : Collection sh1 inh1 an coll) (hitems : Elements coll items)
    (hwf1 : WellFormed 0 c1 m1) (hwf2 : WellFormed 0 c2 m2) (hsame : DoesTheSame env (runBlocks env n) only c1 c2)
    (hrounds : Rounds (runBlocks env (n + 1)) (decide ('+' ∈ mods)) c!"each" c1 only
      (items.map (fun kv => [(kn, .str kv.1), (vn, kv.2)])) sh1 inh1 out sh2 inh2)
    (hdata : sh2.schema = .obj sc ∧ Obj.get? c!"data" sc = some (.obj d)) :
    ∃ z sh' inh', runBif env (runBlocks env (n + 1)) sh inh (bifText mods c!"each" src1) only = .ok z sh' inh' ∧
      runBif env (runBlocks env (n + 1)) sh inh (bifText mods c!"each" src2) only = .ok z sh' inh' := by
  have hr2 := C130_rounds env n _ _ c1 c2 only out _ m1 m2 hwf1 hwf2 hsame sh1 sh2 inh1 inh2 hrounds
  obtain ⟨k1, s1, r1, a1, b1⟩ := each_exact env _ sh sh1 sh2 inh inh1 inh2 mods src1 only p c1 x an kn vn out extra m1 coll items sc d
    hm hf hneg hmax hsel hp1 hx hflags hwords hkn hvn hcoll hitems hwf1 hrounds hdata
  obtain ⟨k2, s2, r2, a2, b2⟩ := each_exact env _ sh sh1 sh2 inh inh1 inh2 mods src2 only p c2 x an kn vn out extra m2 coll items sc d
    hm hf hneg hmax hsel hp2 hx hflags hwords hkn hvn hcoll hitems hwf2 hr2 hdata
  have := varSet_determined a1 a2
  subst this
  have := varSet_determined b1 b2
  subst this
  rw [r1, r2]
  exact ⟨_, _, _, rfl, rfl⟩

/-- **C130 (`for`).** The same for `for`. -/
theorem C130_for (env : Env) (n : Nat) (sh sh1 sh2 : Shared) (inh inh1 inh2 : Inherit)
    (mods src1 src2 only p c1 c2 x vn at_ bt out : Str) (a b : Int) (extra : List Str) (m1 m2 : List (Nat × Nat)) (sc d : Obj)
    (hm : Mods mods) (hf : '&' ∉ mods) (hneg : '!' ∉ mods) (hmax : sh.count < sh.max)
    (hsel : Selected inh mods c!"for" only) (hp1 : Parts src1 (some p) c1) (hp2 : Parts src2 (some p) c2)
    (hx : evalParams (runBlocks env (n + 1)) (counted sh) (entered sh inh) c!"for" p only = .ok x sh1 inh1) (hflags : flagsOf sh1 p = [])
    (hwords : Words (replaceAll c!".." c!" " x) (vn :: at_ :: bt :: extra)) (hvn : ¬ c!"local::" <+: vn)
    (ha : parseI32 at_ = some a) (hb : parseI32 bt = some b)
    (hwf1 : WellFormed 0 c1 m1) (hwf2 : WellFormed 0 c2 m2) (hsame : DoesTheSame env (runBlocks env n) only c1 c2)
    (hrounds : Rounds (runBlocks env (n + 1)) (decide ('+' ∈ mods)) c!"for" c1 only
      ((span a b).map (fun i => [(vn, .str (showInt i))])) sh1 inh1 out sh2 inh2)
    (hdata : sh2.schema = .obj sc ∧ Obj.get? c!"data" sc = some (.obj d)) :
    ∃ z sh' inh', runBif env (runBlocks env (n + 1)) sh inh (bifText mods c!"for" src1) only = .ok z sh' inh' ∧
      runBif env (runBlocks env (n + 1)) sh inh (bifText mods c!"for" src2) only = .ok z sh' inh' := by
  have hr2 := C130_rounds env n _ _ c1 c2 only out _ m1 m2 hwf1 hwf2 hsame sh1 sh2 inh1 inh2 hrounds
  obtain ⟨s1, r1, b1⟩ := for_exact env _ sh sh1 sh2 inh inh1 inh2 mods src1 only p c1 x vn at_ bt out a b extra m1 sc d
    hm hf hneg hmax hsel hp1 hx hflags hwords hvn ha hb hwf1 hrounds hdata
  obtain ⟨s2, r2, b2⟩ := for_exact env _ sh sh1 sh2 inh inh1 inh2 mods src2 only p c2 x vn at_ bt out a b extra m2 sc d
    hm hf hneg hmax hsel hp2 hx hflags hwords hvn ha hb hwf2 hr2 hdata
  have := varSet_determined b1 b2
  subst this
  rw [r1, r2]
  exact ⟨_, _, _, rfl, rfl⟩

/-- **C130 (a page).** In a page a BIF can be exchanged with another one that does what it does in the state in which it is reached: when
the page renders, so does the other, with the same output, and all that the render leaves is the same. -/
theorem C130_render (env : Env) (n : Nat) (w : World) (t1 t2 t1' : Tpl) (a B B' b r ya : Str) (sh0 sh sh1 : Shared)
    (inh inh1 : Inherit) (l1 l2 : List (Nat × Nat)) (hschema : t2.schema = t1.schema) (hfile : t2.filePath = t1.filePath)
    (ho1 : c!"{:" <:+: t1.raw) (ho2 : c!"{:" <:+: t2.raw)
    (hs1 : Source env w t1 (a ++ (B ++ b))) (hs2 : Source env w t2 (a ++ (B' ++ b)))
    (hwf1 : WellFormed 0 (a ++ (B ++ b)) l1) (hwf2 : WellFormed 0 (a ++ (B' ++ b)) l2)
    (hnew : Shared.new env w t1.schema = some sh0) (hi : initShared env t1.filePath t1.raw sh0 = .ok (r, sh, inh))
    (hB : IsBif B) (hB' : IsBif B')
    (ha : Produces env (runBlocks env sh.max) [] a sh (inside [] inh) true ya sh1 inh1) (hx : sh1.exit = false)
    (hrun : ∀ x s i, runBif env (runBlocks env sh.max) sh1 inh1 B [] = .ok x s i →
      runBif env (runBlocks env sh.max) sh1 inh1 B' [] = .ok x s i)
    (h : t1.render env n w = .ok t1') :
    ∃ t2', t2.render env n w = .ok t2' ∧ t2'.out = t1'.out ∧ t2'.shared = t1'.shared := by
  refine alike_render hschema hfile ho1 ho2 hs1 hs2 hwf1 hwf2 ?_ h
  intro sh0' r' s i e y sh' inh' h1 h2 h3
  rw [hnew] at h1
  cases h1
  rw [hi] at h2
  cases h2
  exact C130_place env _ [] a B B' b ya y _ sh1 sh' _ inh1 inh' e hB hB' ha hx hrun h3

/-- **C130 (pages that do the same).** Two texts that do the same, as pages, have the same renders. -/
theorem C130_pages (env : Env) (n : Nat) (w : World) (t1 t2 t1' : Tpl) (s1 s2 : Str) (l1 l2 : List (Nat × Nat))
    (hschema : t2.schema = t1.schema) (hfile : t2.filePath = t1.filePath) (ho1 : c!"{:" <:+: t1.raw) (ho2 : c!"{:" <:+: t2.raw)
    (hs1 : Source env w t1 s1) (hs2 : Source env w t2 s2) (hwf1 : WellFormed 0 s1 l1) (hwf2 : WellFormed 0 s2 l2)
    (hsame : ∀ m, DoesTheSame env (runBlocks env m) [] s1 s2) (h : t1.render env n w = .ok t1') :
    ∃ t2', t2.render env n w = .ok t2' ∧ t2'.out = t1'.out ∧ t2'.shared = t1'.shared :=
  alike_render hschema hfile ho1 ho2 hs1 hs2 hwf1 hwf2 (fun _ _ sh _ _ _ _ _ _ _ h3 => hsame sh.max _ _ _ _ _ _ h3) h

/-- **C130 (a law for every state).** The white space around the text in a `code` does not matter: such BIFs do the same in every state. -/
theorem C130_spaces (env : Env) (R : Rec) (mods src1 src2 c : Str) (hm : Mods mods) (hf : '&' ∉ mods) (hneg : '!' ∉ mods)
    (hp1 : Parts src1 none c) (hp2 : Parts src2 none c) (hplain : ¬ c!"{:" <:+: c) (sh s : Shared) (inh i : Inherit) (x : Str)
    (h : runBif env R sh inh (bifText mods c!"code" src1) [] = .ok x s i) :
    runBif env R sh inh (bifText mods c!"code" src2) [] = .ok x s i := by
  have hmax : sh.count < sh.max := by
    by_cases hc : sh.count + 1 > sh.max
    · unfold runBif at h
      rw [if_pos hc] at h
      cases h
    · omega
  have hb : contains c!"{:" c = false := (contains_false_iff (by simp)).2 hplain
  have hev : evalParams R (counted sh) (entered sh inh) c!"code" [] [] = .ok [] (counted sh) (entered sh inh) := by
    unfold evalParams nested
    rw [show contains c!"{:" ([] : Str) = false from rfl]
    simp
  have hfl : flagsOf (counted sh) [] = [] := by
    unfold flagsOf
    rfl
  exact C130_code env R sh (counted sh) s inh (entered sh inh) i mods src1 src2 [] c c [] x none hm hf hneg hmax (.inl rfl) hp1 hp2
    hev hfl ⟨c, counted sh, entered sh inh, by unfold nested; rw [hb]; rfl⟩ (fun _ _ _ h => h) h

/-- Non-vacuity: `-{:code; t :}{:;x:}` and `-{:code;t:}{:;x:}` do the same, and so do they as the code of an `else`, on every page. -/
example (env : Env) (n : Nat) (sh : Shared) (inh : Inherit) (m1 m2 : List (Nat × Nat))
    (h1 : WellFormed 0 c!"-{:code; t :}{:;x:}" m1) (h2 : WellFormed 0 c!"-{:code;t:}{:;x:}" m2) :
    SameCode (runBlocks env (n + 1)) [] c!"else" [] c!"-{:code; t :}{:;x:}" c!"-{:code;t:}{:;x:}" sh inh := by
  refine C130_code_of env n [] c!"else" [] _ _ sh inh m1 m2 h1 h2 ((contains_iff (by decide)).1 rfl) ((contains_iff (by decide)).1 rfl) ?_
  refine C130_anywhere env _ [] c!"-" c!"{:code; t :}" c!"{:code;t:}" c!"{:;x:}" [] (.chr _ (by decide) .nil)
    ⟨c!"code; t ", rfl, bal_noBraces (by decide) (by decide) (by decide), by decide⟩
    ⟨c!"code;t", rfl, bal_noBraces (by decide) (by decide) (by decide), by decide⟩ ?_
  intro sh inh x s i h
  exact C130_spaces env _ [] c!" t " c!"t" c!"t" (by unfold Mods; decide) (by decide) (by decide)
    (.code (src := c!" t ") (noSep_plain _ _ (by decide))) (.code (src := c!"t") (noSep_plain _ _ (by decide))) (by decide) sh s inh i x h

set_option maxRecDepth 10000 in
/-- The two ways of writing it, in nested codes, by evaluation. -/
example :
    Sample.outOf (Sample.go [(c!"x", .str c!"X")] c!"{:bool; none >> n :}{:else; -{:code; t :}{:;x:} :}") = some (c!"-tX", c!"200") ∧
    Sample.outOf (Sample.go [(c!"x", .str c!"X")] c!"{:bool; none >> n :}{:else; -{:code;t:}{:;x:} :}") = some (c!"-tX", c!"200") := by
  decide +kernel

end Nts
