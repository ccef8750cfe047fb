import Verif.Lemmas.Eval
import Verif.Lemmas.Num
import Verif.Props.Var
import Verif.Spec.Sample
/-
C45: trans.  C48: rand, sum, lang.
-/
set_option autoImplicit false
namespace Nts
open Spec

/-! ### C45 -/

/-- The translations of the current language that the block sees. -/
def Spec.translations (sh : Shared) (inh : Inherit) : Value :=
  (((sh.getIndir inh.indir).index c!"locale").index c!"trans").index sh.lang

theorem getFromKey_textOf (F : F64Ops) (v : Value) (k : Str) : getFromKey F v k = textOf F (resolvePointer v k) := by
  unfold getFromKey
  cases resolvePointer v k with
  | none => rfl
  | some w =>
    cases w with
    | bool b => cases b <;> rfl
    | _ => rfl

theorem named_trans : Named c!"trans" := by
  refine ⟨by decide, ?_⟩
  intro c r hc
  injection hc with h1 h2
  subst h1
  decide

/-- What `trans` prints for the text `t`. -/
theorem runBif_trans (env : Env) (R : Rec) (sh sh1 : Shared) (inh inh1 : Inherit) (mods src only t : Str)
    (hm : Mods mods) (hf : '&' ∉ mods) (hsc : '+' ∉ mods) (hmax : sh.count < sh.max)
    (hsel : Selected inh mods c!"trans" only)
    (ht : nested R false (counted sh) (entered sh inh) c!"trans" (trim src) only = .ok t sh1 inh1) :
    runBif env R sh inh (bifText mods c!"trans" src) only =
      finish (decide ('^' ∈ mods))
        (if textOf env.f64 (resolvePointer (translations sh1 inh1) t) = [] then (if '!' ∈ mods then [] else t)
         else textOf env.f64 (resolvePointer (translations sh1 inh1) t)) sh1 inh1 := by
  rw [runBif_text env R sh inh mods c!"trans" src only hm named_trans hmax hsel]
  have hbody : bifBody env c!"trans" = bifTrans env := rfl
  rw [hbody]
  unfold bifTrans
  simp only [run_bind, run_denyMods]
  rw [if_neg (by simp [start, hsc, hf])]
  simp only [andThen_ok, run_getSt, run_ite]
  have hsc' : decide ('+' ∈ mods) = false := by simpa using hsc
  by_cases hc : contains c!"{:" (trim src) = true
  · rw [if_pos (by exact hc)]
    simp only [run_bind]
    change bifResult env (((Res.andThen (run R (childParse (trim src) (decide ('+' ∈ mods))) _)) _).andThen _) = _
    rw [run_child_nested _ _ _ _ rfl rfl hc, hsc']
    change bifResult env ((Res.andThen (match nested R false (counted sh) (entered sh inh) c!"trans" (trim src) only with
      | .ok x sh' inh' => _
      | .panic p => _
      | .oof => _) _).andThen _) = _
    rw [ht]
    simp only [andThen_ok, run_getSt, run_setOut, run_setSrc, getTrans, getFromKey_textOf]
    simp only [bifResult, bifFinish, start, finish, List.isEmpty_iff, decide_eq_true_eq]
    rfl
  · rw [if_neg (by exact hc)]
    unfold nested at ht
    rw [if_neg hc] at ht
    simp only [PRes.ok.injEq] at ht
    obtain ⟨rfl, rfl, rfl⟩ := ht
    simp only [run_pure', andThen_ok, run_getSt, run_setOut, getTrans, getFromKey_textOf]
    simp only [bifResult, bifFinish, start, finish, List.isEmpty_iff, decide_eq_true_eq]
    rfl

/-- **C45 (translated).** A text with an entry in the table of the current language prints the entry; the tables of other
languages play no role. Missing from the full statement: texts containing `/` or `->` (`C45_refuted`). -/
theorem C45_translated_partial (env : Env) (R : Rec) (sh sh1 : Shared) (inh inh1 : Inherit) (mods src only t x : Str) (o : Obj)
    (hm : Mods mods) (hf : '&' ∉ mods) (hsc : '+' ∉ mods) (hmax : sh.count < sh.max)
    (hsel : Selected inh mods c!"trans" only)
    (ht : nested R false (counted sh) (entered sh inh) c!"trans" (trim src) only = .ok t sh1 inh1)
    (hseg : Segment t) (htab : translations sh1 inh1 = .obj o) (hx : Obj.get? t o = some (.str x)) (hne : x ≠ []) :
    runBif env R sh inh (bifText mods c!"trans" src) only = finish (decide ('^' ∈ mods)) x sh1 inh1 := by
  rw [runBif_trans env R sh sh1 inh inh1 mods src only t hm hf hsc hmax hsel ht, htab, C09_plain o t hseg, hx]
  rw [show textOf env.f64 (some (.str x)) = x from rfl, if_neg hne]

/-- **C45 (not translated).** A text without an entry in the table of the current language (whatever other languages
have), or with an empty one, prints itself, or nothing with `!`. -/
theorem C45_fallback_partial (env : Env) (R : Rec) (sh sh1 : Shared) (inh inh1 : Inherit) (mods src only t : Str) (o : Obj)
    (hm : Mods mods) (hf : '&' ∉ mods) (hsc : '+' ∉ mods) (hmax : sh.count < sh.max)
    (hsel : Selected inh mods c!"trans" only)
    (ht : nested R false (counted sh) (entered sh inh) c!"trans" (trim src) only = .ok t sh1 inh1)
    (hseg : Segment t) (htab : translations sh1 inh1 = .obj o)
    (hx : Obj.get? t o = none ∨ Obj.get? t o = some (.str [])) :
    runBif env R sh inh (bifText mods c!"trans" src) only =
      finish (decide ('^' ∈ mods)) (if '!' ∈ mods then [] else t) sh1 inh1 := by
  rw [runBif_trans env R sh sh1 inh inh1 mods src only t hm hf hsc hmax hsel ht, htab, C09_plain o t hseg]
  rcases hx with hx | hx <;> rw [hx] <;> simp [textOf]

theorem textOf_null (F : F64Ops) (t : Str) : textOf F (resolvePointer .null t) = [] := by
  obtain ⟨l, last, h1, h2, rfl⟩ := C09_every_name t
  by_cases hl : l = []
  · subst hl
    unfold resolvePointer
    split
    · rfl
    · rw [show nameOf [] last = last from rfl]
      rename_i hn
      exfalso
      apply hn
      have h3 : contains c!"->" last = false := (contains_false_iff (by simp)).2 h2.2
      have h4 : contains c!"/" last = false := (contains_false_iff (by simp)).2 (by
        rintro ⟨a, b, hab⟩; exact h2.1 (by rw [← hab]; simp))
      simp [nameOf, h3, h4]
  · rw [C09_path _ _ _ h1 hl h2]
    cases (l.map (fun e => e.1) ++ [last]).filter (fun k => !k.isEmpty) <;> rfl

/-- **C45 (no translations).** When the current language has no translations, every text (also with separators) prints
itself, or nothing with `!`, whatever other languages have. -/
theorem C45_no_language (env : Env) (R : Rec) (sh sh1 : Shared) (inh inh1 : Inherit) (mods src only t : Str)
    (hm : Mods mods) (hf : '&' ∉ mods) (hsc : '+' ∉ mods) (hmax : sh.count < sh.max)
    (hsel : Selected inh mods c!"trans" only)
    (ht : nested R false (counted sh) (entered sh inh) c!"trans" (trim src) only = .ok t sh1 inh1)
    (htab : translations sh1 inh1 = .null) :
    runBif env R sh inh (bifText mods c!"trans" src) only =
      finish (decide ('^' ∈ mods)) (if '!' ∈ mods then [] else t) sh1 inh1 := by
  rw [runBif_trans env R sh sh1 inh inh1 mods src only t hm hf hsc hmax hsel ht, htab, textOf_null, if_pos rfl]

/-- **C45 (texts with separators, exactly).** A text in which `/` or `->` occurs (`nameOf l last`: keys and separators) prints
the text of the value found by following its non-empty keys in the table of the current language; if that is empty, itself
(nothing with `!`). -/
theorem C45_path (env : Env) (R : Rec) (sh sh1 : Shared) (inh inh1 : Inherit) (mods src only last : Str) (l : List (Str × Bool))
    (hm : Mods mods) (hf : '&' ∉ mods) (hsc : '+' ∉ mods) (hmax : sh.count < sh.max)
    (hsel : Selected inh mods c!"trans" only)
    (ht : nested R false (counted sh) (entered sh inh) c!"trans" (trim src) only = .ok (nameOf l last) sh1 inh1)
    (hl : ∀ e ∈ l, Segment e.1) (hne : l ≠ []) (hlast : Segment last) :
    runBif env R sh inh (bifText mods c!"trans" src) only =
      finish (decide ('^' ∈ mods))
        (match textOf env.f64 (follow (translations sh1 inh1) ((l.map (fun e => e.1) ++ [last]).filter (fun k => !k.isEmpty))) with
          | [] => if '!' ∈ mods then [] else nameOf l last
          | x => x) sh1 inh1 := by
  rw [runBif_trans env R sh sh1 inh inh1 mods src only _ hm hf hsc hmax hsel ht, C09_path _ _ _ hl hne hlast]
  cases textOf env.f64 (follow (translations sh1 inh1) ((l.map (fun e => e.1) ++ [last]).filter (fun k => !k.isEmpty))) with
  | nil => rw [if_pos rfl]
  | cons c r => rw [if_neg (by simp)]

/-- **C45: the full statement is false.** A text with `/` is not translated although it has an entry, and a text with
`/` that has no entry is translated by another one. -/
theorem C45_refuted :
    Sample.outOf ((Sample.tpl (Sample.schema 1000 [] [(c!"locale", .obj [(c!"current", .str c!"es"), (c!"trans", .obj [
      (c!"es", .obj [(c!"Yes/No", .str c!"Si o no"), (c!"Hi", .str c!"Hola")])])])])
      c!"[{:trans; Yes/No :}][{:trans; /Hi :}]").render Sample.env 10 Sample.world) =
      some (c!"[Yes/No][Hola]", c!"200") := by
  decide +kernel

/-- The premises are met: translated, in another language only, unknown. -/
example : Segment c!"Hi" ∧
    Sample.outOf (Sample.go [] c!"[{:trans; Hi :}][{:trans; Hola :}][{:!trans; Hola :}][{:trans; {:trans; Hi :} :}]") =
      some (c!"[Hello][Hola][][Hello]", c!"200") := by
  refine ⟨⟨by decide, by decide⟩, by decide +kernel⟩

/-! ### C48 -/

theorem named_rand : Named c!"rand" := by
  refine ⟨by decide, ?_⟩
  intro c r hc
  injection hc with h1 h2
  subst h1
  decide

/-- What the body of `rand` does with the text `t`. -/
def randBody (env : Env) (t : Str) : Prog Unit :=
  if t.isEmpty then do
    let k ← tick
    setOut (showInt (env.randRange k 100000000 999999999))
  else do
    modB (fun b => { b with code := replaceAll c!".." c!" " b.code })
    let s ← getSt
    match splitWhitespace s.b.code with
    | [] => bifError c!"arguments not found"
    | a :: rest =>
      match parseI32 a with
      | none => bifError c!"argument is not a number"
      | some x =>
        match rest with
        | [] => bifError c!"arguments not found"
        | b :: _ =>
          match parseI32 b with
          | none => bifError c!"argument is not a number"
          | some y =>
            if x > y then bifError c!"from > to"
            else do
              let k ← tick
              setOut (showInt (env.randRange k x y))

theorem runBif_rand (env : Env) (R : Rec) (sh sh1 : Shared) (inh inh1 : Inherit) (mods src only t : Str)
    (hm : Mods mods) (hf : '&' ∉ mods) (hneg : '!' ∉ mods) (hsc : '+' ∉ mods) (hmax : sh.count < sh.max)
    (hsel : Selected inh mods c!"rand" only)
    (ht : nested R false (counted sh) (entered sh inh) c!"rand" (trim src) only = .ok t sh1 inh1) :
    runBif env R sh inh (bifText mods c!"rand" src) only =
      bifResult env (run R (randBody env t) { start sh inh mods c!"rand" src only with
        sh := sh1, inh := inh1, b := { (start sh inh mods c!"rand" src only).b with code := t } }) := by
  rw [runBif_text env R sh inh mods c!"rand" src only hm named_rand hmax hsel]
  have hbody : bifBody env c!"rand" = bifRand env := rfl
  rw [hbody]
  unfold bifRand
  simp only [run_bind, run_denyMods]
  rw [if_neg (by simp [start, hsc, hf, hneg])]
  simp only [andThen_ok, run_getSt, run_ite, run_modB]
  have hsc' : decide ('+' ∈ mods) = false := by simpa using hsc
  by_cases hc : contains c!"{:" (trim src) = true
  · rw [if_pos (by exact hc)]
    simp only [run_bind]
    change bifResult env (((Res.andThen (run R (childParse (trim (trim src)) (decide ('+' ∈ mods))) _)) _).andThen _) = _
    rw [trim_idem, run_child_nested _ _ _ _ rfl rfl hc, hsc']
    change bifResult env ((Res.andThen (match nested R false (counted sh) (entered sh inh) c!"rand" (trim src) only with
      | .ok x sh' inh' => _
      | .panic p => _
      | .oof => _) _).andThen _) = _
    rw [ht]
    simp only [andThen_ok, run_setCode]
    unfold randBody
    simp only [run_ite, run_bind]
    rfl
  · rw [if_neg (by exact hc)]
    unfold nested at ht
    rw [if_neg hc] at ht
    simp only [PRes.ok.injEq] at ht
    obtain ⟨rfl, rfl, rfl⟩ := ht
    simp only [andThen_ok, run_setCode]
    unfold randBody
    simp only [run_ite, run_bind]
    change bifResult env (if (trim (trim src)).isEmpty = true then _ else _) = _
    rw [trim_idem]
    unfold start
    dsimp only
    rw [trim_idem]
    rfl

/-- The contract of the random number generator (`rand::Rng::random_range(a..=b)`). -/
def Spec.InRange (env : Env) : Prop := ∀ k x y, x ≤ y → x ≤ env.randRange k x y ∧ env.randRange k x y ≤ y

/-- `Range t x y`: the text `t` is a range from `x` to `y`: two numbers with `..` or blanks between them. -/
def Spec.Range (t : Str) (x y : Int) : Prop :=
  ∃ a b r, splitWhitespace (replaceAll c!".." c!" " t) = a :: b :: r ∧ parseI32 a = some x ∧ parseI32 b = some y

theorem splitWhitespace_blank : splitWhitespace [] = [] := rfl

/-- **C48 (rand).** `{:rand; a..b :}`, the range literal or computed, prints an integer between `a` and `b`. -/
theorem C48_rand (env : Env) (henv : InRange env) (R : Rec) (sh sh1 : Shared) (inh inh1 : Inherit)
    (mods src only t : Str) (x y : Int)
    (hm : Mods mods) (hf : '&' ∉ mods) (hneg : '!' ∉ mods) (hsc : '+' ∉ mods) (hmax : sh.count < sh.max)
    (hsel : Selected inh mods c!"rand" only)
    (ht : nested R false (counted sh) (entered sh inh) c!"rand" (trim src) only = .ok t sh1 inh1)
    (hr : Range t x y) (hxy : x ≤ y) :
    ∃ z, x ≤ z ∧ z ≤ y ∧ runBif env R sh inh (bifText mods c!"rand" src) only =
      finish (decide ('^' ∈ mods)) (showInt z) { sh1 with w := { sh1.w with tick := sh1.w.tick + 1 } } inh1 := by
  refine ⟨env.randRange sh1.w.tick x y, (henv _ _ _ hxy).1, (henv _ _ _ hxy).2, ?_⟩
  rw [runBif_rand env R sh sh1 inh inh1 mods src only t hm hf hneg hsc hmax hsel ht]
  obtain ⟨a, b, r, h1, h2, h3⟩ := hr
  unfold randBody
  rw [if_neg]
  · simp only [run_bind, run_modB, andThen_ok, run_getSt, h1, h2, h3]
    rw [if_neg (by omega)]
    simp only [run_bind, run_tick, andThen_ok, run_setOut]
    rfl
  · intro h
    rw [List.isEmpty_iff] at h
    subst h
    rw [show splitWhitespace (replaceAll c!".." c!" " []) = [] from rfl] at h1
    simp at h1

/-- **C48 (rand, default).** Without a range it prints a number of nine digits. -/
theorem C48_rand_default (env : Env) (henv : InRange env) (R : Rec) (sh sh1 : Shared) (inh inh1 : Inherit)
    (mods src only : Str)
    (hm : Mods mods) (hf : '&' ∉ mods) (hneg : '!' ∉ mods) (hsc : '+' ∉ mods) (hmax : sh.count < sh.max)
    (hsel : Selected inh mods c!"rand" only)
    (ht : nested R false (counted sh) (entered sh inh) c!"rand" (trim src) only = .ok [] sh1 inh1) :
    ∃ z : Int, 100000000 ≤ z ∧ z ≤ 999999999 ∧ runBif env R sh inh (bifText mods c!"rand" src) only =
      finish (decide ('^' ∈ mods)) (showInt z) { sh1 with w := { sh1.w with tick := sh1.w.tick + 1 } } inh1 := by
  refine ⟨env.randRange sh1.w.tick 100000000 999999999, (henv _ _ _ (by decide)).1, (henv _ _ _ (by decide)).2, ?_⟩
  rw [runBif_rand env R sh sh1 inh inh1 mods src only [] hm hf hneg hsc hmax hsel ht]
  unfold randBody
  rw [if_pos (by rfl)]
  simp only [run_bind, run_tick, andThen_ok, run_setOut]
  rfl

/-- **C48 (rand, rejected).** A text that is not a range from a smaller to a larger number is an error. -/
theorem C48_rand_rejected (env : Env) (R : Rec) (sh sh1 : Shared) (inh inh1 : Inherit)
    (mods src only t : Str)
    (hm : Mods mods) (hf : '&' ∉ mods) (hneg : '!' ∉ mods) (hsc : '+' ∉ mods) (hmax : sh.count < sh.max)
    (hsel : Selected inh mods c!"rand" only)
    (ht : nested R false (counted sh) (entered sh inh) c!"rand" (trim src) only = .ok t sh1 inh1)
    (hne : t ≠ []) (hr : ∀ x y, Range t x y → y < x) :
    ∃ msg, runBif env R sh inh (bifText mods c!"rand" src) only =
      failed env mods c!"rand" (bifText mods c!"rand" src) msg sh1 inh1 := by
  rw [runBif_rand env R sh sh1 inh inh1 mods src only t hm hf hneg hsc hmax hsel ht]
  unfold randBody
  rw [if_neg (by simpa using hne)]
  simp only [run_bind, run_modB, andThen_ok, run_getSt]
  suffices ∀ msg s, s.sh = sh1 → s.inh = inh1 → s.b.alias = c!"rand" → s.raw = bifText mods c!"rand" src → s.b.out = [] →
      s.b.modUpline = decide ('^' ∈ mods) → ∃ m, bifResult env (run R (bifError msg : Prog Unit) s) = failed env mods c!"rand" (bifText mods c!"rand" src) m sh1 inh1 by
    cases hs : splitWhitespace (replaceAll c!".." c!" " t) with
    | nil => exact this _ _ rfl rfl rfl rfl rfl rfl
    | cons a l =>
      simp only
      cases ha : parseI32 a with
      | none => exact this _ _ rfl rfl rfl rfl rfl rfl
      | some x =>
        cases l with
        | nil => exact this _ _ rfl rfl rfl rfl rfl rfl
        | cons b l =>
          simp only
          cases hb : parseI32 b with
          | none => exact this _ _ rfl rfl rfl rfl rfl rfl
          | some y =>
            have hlt := hr x y ⟨a, b, l, hs, ha, hb⟩
            simp only
            rw [if_pos (by omega)]
            exact this _ _ rfl rfl rfl rfl rfl rfl
  intro msg s h1 h2 h3 h4 h5 h6
  refine ⟨msg, ?_⟩
  rw [run_bifError]
  exact bifResult_failed env mods c!"rand" _ msg sh1 inh1 s h1 h2 h3 h4 h5 h6

/-! the written form of a range -/

theorem replaceAll_dots (a b : Str) (ha : '.' ∉ a) (hb : '.' ∉ b) :
    replaceAll c!".." c!" " (a ++ c!".." ++ b) = a ++ c!" " ++ b := by
  unfold replaceAll
  rw [if_neg (by decide)]
  induction a with
  | nil =>
    rw [List.nil_append, replGo_match _ _ _ (by decide)]
    have : replaceAll c!".." c!" " b = b := replaceAll_of_not_infix (by decide) (by
      rintro ⟨x, y, rfl⟩
      simp at hb)
    unfold replaceAll at this
    rw [if_neg (by decide)] at this
    rw [this]; rfl
  | cons c a ih =>
    have hc : c ≠ '.' := fun h => ha (by simp [h])
    rw [List.cons_append, List.cons_append, replGo_nomatch, ih (fun h => ha (List.mem_cons_of_mem _ h))]
    · rfl
    · rintro ⟨t, ht⟩
      injection ht with h1 _
      exact hc h1.symm

theorem splitWsGo_word (acc a rest : Str) (ha : ∀ c ∈ a, isWs c = false) :
    splitWsGo acc (a ++ rest) = splitWsGo (a.reverse ++ acc) rest := by
  induction a generalizing acc with
  | nil => rfl
  | cons c a ih =>
    simp only [List.cons_append, splitWsGo, ha c (by simp), Bool.false_eq_true, if_false, List.reverse_cons,
      List.append_assoc]
    rw [ih _ (fun d hd => ha d (List.mem_cons_of_mem _ hd))]
    simp

theorem splitWs_two (a b : Str) (ha : ∀ c ∈ a, isWs c = false) (hb : ∀ c ∈ b, isWs c = false) (hna : a ≠ []) (hnb : b ≠ []) :
    splitWhitespace (a ++ c!" " ++ b) = [a, b] := by
  unfold splitWhitespace
  rw [List.append_assoc, splitWsGo_word [] a _ ha]
  have hr : (a.reverse ++ []).isEmpty = false := by simp [hna]
  rw [show c!" " ++ b = ' ' :: b from rfl, splitWsGo, if_pos (by decide), hr]
  have hb' := splitWsGo_word [] b [] hb
  rw [List.append_nil] at hb'
  rw [hb']
  simp [splitWsGo, hnb]

theorem showInt_chars (i : Int) : ∀ c ∈ showInt i, c ∈ c!"-0123456789" := by
  intro c hc
  unfold showInt at hc
  split at hc
  · rcases List.mem_cons.1 hc with rfl | hc
    · decide
    · exact List.mem_cons_of_mem _ (showNat_digits _ c hc)
  · exact List.mem_cons_of_mem _ (showNat_digits _ c hc)

theorem showInt_ne_nil (i : Int) : showInt i ≠ [] := by
  unfold showInt
  split
  · simp
  · exact showNat_ne_nil _

theorem range_show (x y : Int) (hx : -(2 ^ 31) ≤ x ∧ x < 2 ^ 31) (hy : -(2 ^ 31) ≤ y ∧ y < 2 ^ 31) :
    Range (showInt x ++ c!".." ++ showInt y) x y := by
  have hd : ∀ i, '.' ∉ showInt i := fun i h => absurd (showInt_chars i _ h) (by decide)
  have hw : ∀ i, ∀ c ∈ showInt i, isWs c = false := by
    intro i c hc
    have := showInt_chars i c hc
    revert c
    intro c _ h
    have : ∀ c ∈ c!"-0123456789", isWs c = false := by decide
    exact this c h
  refine ⟨showInt x, showInt y, [], ?_, parseI32_showInt x hx, parseI32_showInt y hy⟩
  rw [replaceAll_dots _ _ (hd x) (hd y)]
  exact splitWs_two _ _ (hw x) (hw y) (showInt_ne_nil x) (showInt_ne_nil y)

/-- The premises of `C48_rand` are met by every pair of 32-bit integers written `x..y`, and by the sample generator. -/
example : InRange Sample.env ∧ Range c!"-5..7" (-5) 7 ∧
    Sample.outOf (Sample.go [] c!"[{:rand; -5..7 :}][{:rand; {:code; 3 :} 4 :}][{:rand; 7..5 :}][{:rand; a..5 :}]") =
      some (c!"[-5][3][][]", c!"200") := by
  refine ⟨fun k x y h => ⟨Int.le_refl _, h⟩, ?_, by decide +kernel⟩
  have e : showInt (-5) ++ c!".." ++ showInt 7 = c!"-5..7" := by decide +kernel
  rw [← e]
  exact range_show (-5) 7 (by decide) (by decide)

theorem named_sum : Named c!"sum" := by
  refine ⟨by decide, ?_⟩
  intro c r hc
  injection hc with h1 h2
  subst h1
  decide

/-- **C48 (sum).** `{:sum; /a/b/ :}`: when the arguments, literal or computed, evaluate to the texts of two numbers, the
result is the text of their sum. -/
theorem C48_sum (env : Env) (R : Rec) (sh sh1 : Shared) (inh inh1 : Inherit) (mods src only r a b pre : Str) (d : Char) (l : List Str)
    (x y : Nat)
    (hm : Mods mods) (hf : '&' ∉ mods) (hneg : '!' ∉ mods) (hsc : '+' ∉ mods) (hmax : sh.count < sh.max)
    (hsel : Selected inh mods c!"sum" only) (hsrc : trim src = d :: r) (hflg : ¬ c!"{:flg;" <:+: d :: r)
    (hargs : ArgsGive R c!"sum" only (splitChar d (d :: r)) (counted sh) (entered sh inh) (pre :: a :: b :: l) sh1 inh1)
    (ha : env.f64.parse a = some x) (hb : env.f64.parse b = some y) :
    runBif env R sh inh (bifText mods c!"sum" src) only =
      finish (decide ('^' ∈ mods)) (env.f64.show_ (env.f64.add x y)) sh1 inh1 := by
  rw [runBif_text env R sh inh mods c!"sum" src only hm named_sum hmax hsel]
  have hbody : bifBody env c!"sum" = bifSum env := rfl
  rw [hbody]
  unfold bifSum
  simp only [run_bind, run_denyMods]
  rw [if_neg (by simp [start, hsc, hf, hneg])]
  simp only [andThen_ok, run_modB, run_denyFlgParams]
  rw [if_neg (by
    rw [show (start sh inh mods c!"sum" src only).b.src = d :: r from hsrc, contains_iff (by decide)]
    exact hflg)]
  simp only [andThen_ok]
  rw [run_extractArgs R hargs _ hsrc rfl rfl rfl rfl rfl rfl]
  simp only [andThen_ok, run_argReq, List.getElem?_cons_succ, List.getElem?_cons_zero, ha, hb, run_setOut]
  rfl

/-- **C48 (sum, rejected).** An argument that is not a number, or a missing argument, is an error. -/
theorem C48_sum_rejected (env : Env) (R : Rec) (sh sh1 : Shared) (inh inh1 : Inherit) (mods src only r : Str) (d : Char) (l : List Str)
    (hm : Mods mods) (hf : '&' ∉ mods) (hneg : '!' ∉ mods) (hsc : '+' ∉ mods) (hmax : sh.count < sh.max)
    (hsel : Selected inh mods c!"sum" only) (hsrc : trim src = d :: r) (hflg : ¬ c!"{:flg;" <:+: d :: r)
    (hargs : ArgsGive R c!"sum" only (splitChar d (d :: r)) (counted sh) (entered sh inh) l sh1 inh1)
    (hbad : ∀ a b, l[1]? = some a → l[2]? = some b → env.f64.parse a = none ∨ env.f64.parse b = none) :
    ∃ msg, runBif env R sh inh (bifText mods c!"sum" src) only =
      failed env mods c!"sum" (bifText mods c!"sum" src) msg sh1 inh1 := by
  rw [runBif_text env R sh inh mods c!"sum" src only hm named_sum hmax hsel]
  have hbody : bifBody env c!"sum" = bifSum env := rfl
  rw [hbody]
  unfold bifSum
  simp only [run_bind, run_denyMods]
  rw [if_neg (by simp [start, hsc, hf, hneg])]
  simp only [andThen_ok, run_modB, run_denyFlgParams]
  rw [if_neg (by
    rw [show (start sh inh mods c!"sum" src only).b.src = d :: r from hsrc, contains_iff (by decide)]
    exact hflg)]
  simp only [andThen_ok]
  rw [run_extractArgs R hargs _ hsrc rfl rfl rfl rfl rfl rfl]
  simp only [andThen_ok, run_argReq]
  cases h1 : l[1]? with
  | none => exact ⟨_, bifResult_failed env mods c!"sum" _ _ sh1 inh1 _ rfl rfl rfl rfl rfl rfl⟩
  | some a =>
    simp only [andThen_ok]
    cases h2 : l[2]? with
    | none => exact ⟨_, bifResult_failed env mods c!"sum" _ _ sh1 inh1 _ rfl rfl rfl rfl rfl rfl⟩
    | some b =>
      simp only [andThen_ok]
      cases ha : env.f64.parse a with
      | none => simp only [run_bifError]; exact ⟨_, bifResult_failed env mods c!"sum" _ _ sh1 inh1 _ rfl rfl rfl rfl rfl rfl⟩
      | some x =>
        simp only
        cases hb : env.f64.parse b with
        | none => simp only [run_bifError]; exact ⟨_, bifResult_failed env mods c!"sum" _ _ sh1 inh1 _ rfl rfl rfl rfl rfl rfl⟩
        | some y =>
          have := hbad a b h1 h2
          rw [ha, hb] at this
          simp at this

theorem named_lang : Named c!"lang" := by
  refine ⟨by decide, ?_⟩
  intro c r hc
  injection hc with h1 h2
  subst h1
  decide

/-- **C48 (lang).** `{:lang;:}` prints the language; nothing else happens. -/
theorem C48_lang (env : Env) (R : Rec) (sh : Shared) (inh : Inherit) (mods src only : Str)
    (hm : Mods mods) (hf : '&' ∉ mods) (hneg : '!' ∉ mods) (hsc : '+' ∉ mods) (hmax : sh.count < sh.max)
    (hsel : Selected inh mods c!"lang" only) :
    runBif env R sh inh (bifText mods c!"lang" src) only =
      finish (decide ('^' ∈ mods)) sh.lang (counted sh) (entered sh inh) := by
  rw [runBif_text env R sh inh mods c!"lang" src only hm named_lang hmax hsel]
  have hbody : bifBody env c!"lang" = bifLang := rfl
  rw [hbody]
  unfold bifLang
  simp only [run_bind, run_denyMods]
  rw [if_neg (by simp [start, hsc, hf, hneg])]
  simp only [andThen_ok, run_getSt, run_setOut]
  rfl

/-- The premises are met (the sample environment's numbers are natural numbers). -/
example : Sample.env.f64.parse c!"12" = some 12 ∧
    Sample.outOf (Sample.go [] c!"[{:sum; /12/30/ :}][{:sum; /{:sum; .1.2. :}/4/ :}][{:sum; /a/1/ :}][{:sum; /1 :}][{:lang;:}]") =
      some (c!"[42][7][][][en]", c!"200") := by
  refine ⟨by decide +kernel, by decide +kernel⟩

end Nts
