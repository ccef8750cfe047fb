import Verif.Props.Printed
import Verif.Props.Loop
import Verif.Props.EvalBif
/-
C103: the counters of the deprecated BIF `count`.
-/
set_option autoImplicit false
namespace Nts
open Spec

/-- A BIF that prints `x` and reports an error all the same. -/
def Spec.printedWithError (env : Env) (mods name raw msg x : Str) (sh : Shared) (inh : Inherit) : PRes :=
  match showErrors sh with
  | none => .panic .unwrap
  | some _ => finish (decide ('^' ∈ mods)) x
      (pushError { sh with w := { sh.w with tick := sh.w.tick + 1 } }
        (errorLine (env.localTime sh.w.tick) { msg := msg, name := name, file := inh.currentFile, src := raw })) inh

theorem bifResult_printed (env : Env) (mods name raw msg x : Str) (sh : Shared) (inh : Inherit) (s : St)
    (hs : s.sh = sh) (hi : s.inh = inh) (ha : s.b.alias = name) (hr : s.raw = raw) (ho : s.b.out = x)
    (hu : s.b.modUpline = decide ('^' ∈ mods)) :
    bifResult env (.err (errOf s msg) s) = printedWithError env mods name raw msg x sh inh := by
  subst hs hi ha hr ho
  unfold printedWithError
  simp only [bifResult]
  cases showErrors s.sh with
  | none => rfl
  | some b => simp [bifFinish, finish, hu, errOf]

theorem in_i32 (r : Option Int) (n : Int)
    (h : (match r with
      | some i => if -(2 ^ 31) ≤ i ∧ i < 2 ^ 31 then some i else none
      | none => none) = some n) : -(2 ^ 31) ≤ n ∧ n < 2 ^ 31 := by
  cases r with
  | none => cases h
  | some i =>
    by_cases hi : -(2 ^ 31) ≤ i ∧ i < 2 ^ 31
    · dsimp only at h
      rw [if_pos hi] at h
      cases h
      exact hi
    · dsimp only at h
      rw [if_neg hi] at h
      cases h

/-- A number read is in the range of the type. -/
theorem parseI32_range {t : Str} {n : Int} (h : parseI32 t = some n) : -(2 ^ 31) ≤ n ∧ n < 2 ^ 31 :=
  in_i32 _ n h

/-- What is left of `count` once its arguments are evaluated. -/
def countRest (env : Env) (R : Rec) (isSet : Bool) (s : St) : Res Unit :=
  run R (do
    (if isSet then
      match parseI32 s.b.code with
      | none => bifError c!"argument is not a number"
      | some n => do
        setData s.b.params (showInt n)
        setOut []
    else
      match parseI32 (getData env s s.b.code) with
      | none => bifError c!"argument is not a number"
      | some n =>
        match i32Add env n 1 with
        | none => .panic .overflow
        | some m => do
          setData s.b.code (showInt m)
          setOut (showInt n))
    bifError c!"Bif 'count' is deprecated") s

theorem count_args (env : Env) (R : Rec) (sh sh1 sh2 : Shared) (inh inh1 inh2 : Inherit) (mods src only c x t : Str) (p : Option Str)
    (hm : Mods mods) (hf : '&' ∉ mods) (hneg : '!' ∉ mods) (hsc : '+' ∉ mods) (hmax : sh.count < sh.max)
    (hsel : Selected inh mods c!"count" only) (hparts : Parts src p c)
    (hx : evalParams R (counted sh) (entered sh inh) c!"count" (p.getD []) only = .ok x sh1 inh1)
    (ht : nested R false sh1 inh1 c!"count" c only = .ok t sh2 inh2) :
    runBif env R sh inh (bifText mods c!"count" src) only =
      bifResult env (countRest env R p.isSome ⟨sh2, inh2,
        { (start sh inh mods c!"count" src only).b with params := x, code := t, flags := flagsOf sh1 (p.getD []) },
        (start sh inh mods c!"count" src only).raw, only⟩) := by
  rw [runBif_text env R sh inh mods c!"count" src only hm named_count hmax hsel]
  have hbody : bifBody env c!"count" = bifCount env := rfl
  rw [hbody]
  unfold bifCount
  simp only [run_bind, run_denyMods]
  rw [if_neg (by simp [start, hsc, hf, hneg])]
  simp only [andThen_ok]
  rw [run_extract R hparts _ rfl rfl rfl rfl]
  change bifResult env (Res.andThen (match evalParams R (counted sh) (entered sh inh) c!"count" (p.getD []) only with
    | .ok x sh' inh' => _
    | .panic p => _
    | .oof => _) _) = _
  rw [hx]
  simp only [andThen_ok]
  rw [run_parseCode_nested R false _ rfl rfl]
  change bifResult env (Res.andThen (match nested R false sh1 inh1 c!"count" c only with
    | .ok x sh' inh' => _
    | .panic p => _
    | .oof => _) _) = _
  rw [ht]
  simp only [andThen_ok, run_getSt]
  unfold countRest
  rw [run_bind]
  rfl

/-- **C103 (set).** `{:count; name >> number :}` stores the number under the name, prints nothing, and reports that `count` is
deprecated. -/
theorem C103_set (env : Env) (R : Rec) (sh sh1 sh2 sh3 : Shared) (inh inh1 inh2 : Inherit) (mods src only c p k t : Str) (n : Int)
    (hm : Mods mods) (hf : '&' ∉ mods) (hneg : '!' ∉ mods) (hsc : '+' ∉ mods) (hmax : sh.count < sh.max)
    (hsel : Selected inh mods c!"count" only) (hparts : Parts src (some p) c)
    (hx : evalParams R (counted sh) (entered sh inh) c!"count" p only = .ok k sh1 inh1)
    (ht : nested R false sh1 inh1 c!"count" c only = .ok t sh2 inh2)
    (hn : parseI32 t = some n) (hset : VarSet sh2 k (.str (showInt n)) sh3) :
    runBif env R sh inh (bifText mods c!"count" src) only =
      printedWithError env mods c!"count" (bifText mods c!"count" src) c!"Bif 'count' is deprecated" [] sh3 inh2 := by
  rw [count_args env R sh sh1 sh2 inh inh1 inh2 mods src only c k t (some p) hm hf hneg hsc hmax hsel hparts hx ht]
  unfold countRest
  simp only [Option.isSome_some, if_true, hn, run_bind]
  have h1 := step_setData (R := R) (s := ⟨sh2, inh2,
        { (start sh inh mods c!"count" src only).b with params := k, code := t, flags := flagsOf sh1 ((some p).getD []) },
        (start sh inh mods c!"count" src only).raw, only⟩) hset
  unfold setData
  rw [h1]
  simp only [andThen_ok, run_setOut, run_bifError]
  exact bifResult_printed env mods c!"count" _ _ _ _ _ _ rfl rfl rfl rfl rfl rfl

/-- **C103 (next).** `{:count; name :}` of a name that shows a number `n` prints `n`, stores `n + 1` under the name, and reports that
`count` is deprecated; if there is no next number, the program panics, or starts again at the smallest (`overflowChecks`). -/
theorem C103_next (env : Env) (R : Rec) (sh sh1 : Shared) (inh inh1 : Inherit) (mods src only c k : Str) (n : Int)
    (hm : Mods mods) (hf : '&' ∉ mods) (hneg : '!' ∉ mods) (hsc : '+' ∉ mods) (hmax : sh.count < sh.max)
    (hsel : Selected inh mods c!"count" only) (hparts : Parts src none c)
    (ht : nested R false (counted sh) (entered sh inh) c!"count" c only = .ok k sh1 inh1)
    (hk : ¬ c!"local::" <+: k) (hn : parseI32 (shownVar env sh1 k) = some n) :
    (n + 1 < 2 ^ 31 → ∀ sh2, VarSet sh1 k (.str (showInt (n + 1))) sh2 →
      runBif env R sh inh (bifText mods c!"count" src) only =
        printedWithError env mods c!"count" (bifText mods c!"count" src) c!"Bif 'count' is deprecated" (showInt n) sh2 inh1) ∧
    (2 ^ 31 ≤ n + 1 → env.overflowChecks = true →
      runBif env R sh inh (bifText mods c!"count" src) only = .panic .overflow) ∧
    (2 ^ 31 ≤ n + 1 → env.overflowChecks = false → ∀ sh2, VarSet sh1 k (.str (showInt (-(2 ^ 31)))) sh2 →
      runBif env R sh inh (bifText mods c!"count" src) only =
        printedWithError env mods c!"count" (bifText mods c!"count" src) c!"Bif 'count' is deprecated" (showInt n) sh2 inh1) := by
  have hx : evalParams R (counted sh) (entered sh inh) c!"count" ((none : Option Str).getD []) only = .ok [] (counted sh) (entered sh inh) := rfl
  rw [count_args env R sh _ sh1 inh _ inh1 mods src only c [] k none hm hf hneg hsc hmax hsel hparts hx ht]
  have hg : ∀ s : St, s.sh = sh1 → getData env s k = shownVar env sh1 k := by
    intro s hs
    unfold getData shownVar dataOf
    rw [stripPrefix?_eq_none.2 hk, hs]
  have hrange := parseI32_range hn
  unfold countRest
  simp only [Option.isSome_none, Bool.false_eq_true, if_false, run_bind]
  rw [hg _ rfl, hn]
  refine ⟨fun hr sh2 hset => ?_, fun hr ho => ?_, fun hr ho sh2 hset => ?_⟩
  · have ha : i32Add env n 1 = some (n + 1) := by
      unfold i32Add
      rw [if_pos ⟨by omega, hr⟩]
    simp only [ha, run_bind]
    have h1 := step_setData (R := R) (s := ⟨sh1, inh1,
        { (start sh inh mods c!"count" src only).b with params := [], code := k, flags := flagsOf (counted sh) ((none : Option Str).getD []) },
        (start sh inh mods c!"count" src only).raw, only⟩) hset
    unfold setData
    rw [h1]
    simp only [andThen_ok, run_setOut, run_bifError]
    exact bifResult_printed env mods c!"count" _ _ _ _ _ _ rfl rfl rfl rfl rfl rfl
  · have ha : i32Add env n 1 = none := by
      unfold i32Add
      rw [if_neg (by omega), ho]
      rfl
    simp only [ha]
    rfl
  · have ha : i32Add env n 1 = some (-(2 ^ 31)) := by
      unfold i32Add
      dsimp only
      rw [if_neg (by omega), ho]
      have : n = 2 ^ 31 - 1 := by omega
      subst this
      decide
    simp only [ha, run_bind]
    have h1 := step_setData (R := R) (s := ⟨sh1, inh1,
        { (start sh inh mods c!"count" src only).b with params := [], code := k, flags := flagsOf (counted sh) ((none : Option Str).getD []) },
        (start sh inh mods c!"count" src only).raw, only⟩) hset
    unfold setData
    rw [h1]
    simp only [andThen_ok, run_setOut, run_bifError]
    exact bifResult_printed env mods c!"count" _ _ _ _ _ _ rfl rfl rfl rfl rfl rfl

/-- **C103 (not a number).** A text that is not a number is an error, and nothing is stored or printed. -/
theorem C103_not_number (env : Env) (R : Rec) (sh sh1 sh2 : Shared) (inh inh1 inh2 : Inherit) (mods src only c k t : Str) (p : Option Str)
    (hm : Mods mods) (hf : '&' ∉ mods) (hneg : '!' ∉ mods) (hsc : '+' ∉ mods) (hmax : sh.count < sh.max)
    (hsel : Selected inh mods c!"count" only) (hparts : Parts src p c)
    (hx : evalParams R (counted sh) (entered sh inh) c!"count" (p.getD []) only = .ok k sh1 inh1)
    (ht : nested R false sh1 inh1 c!"count" c only = .ok t sh2 inh2)
    (hn : (p ≠ none ∧ parseI32 t = none) ∨ (p = none ∧ ¬ c!"local::" <+: t ∧ parseI32 (shownVar env sh2 t) = none)) :
    runBif env R sh inh (bifText mods c!"count" src) only =
      failed env mods c!"count" (bifText mods c!"count" src) c!"argument is not a number" sh2 inh2 := by
  rw [count_args env R sh sh1 sh2 inh inh1 inh2 mods src only c k t p hm hf hneg hsc hmax hsel hparts hx ht]
  unfold countRest
  rcases hn with ⟨h1, h2⟩ | ⟨h1, h2, h3⟩
  · cases p with
    | none => exact absurd rfl h1
    | some q =>
      simp only [Option.isSome_some, if_true, h2, run_bind, run_bifError]
      exact bifResult_failed env mods c!"count" _ _ _ _ _ rfl rfl rfl rfl rfl rfl
  · subst h1
    have hg : ∀ s : St, s.sh = sh2 → getData env s t = shownVar env sh2 t := by
      intro s hs
      unfold getData shownVar dataOf
      rw [stripPrefix?_eq_none.2 h2, hs]
    simp only [Option.isSome_none, Bool.false_eq_true, if_false, run_bind]
    rw [hg _ rfl, h3]
    simp only [run_bifError]
    exact bifResult_failed env mods c!"count" _ _ _ _ _ rfl rfl rfl rfl rfl rfl

/-- **C103 (again).** A number stored under a plain name is what the next `count` of that name finds: after `n` comes `n + 1`. -/
theorem C103_again (env : Env) (sh sh' : Shared) (k : Str) (n : Int) (hseg : Segment k) (hn : -(2 ^ 31) ≤ n ∧ n < 2 ^ 31)
    (h : VarSet sh k (.str (showInt n)) sh') : parseI32 (shownVar env sh' k) = some n := by
  obtain ⟨sc, d, h1, h2, h3⟩ := h
  subst h3
  unfold shownVar getFromKey
  simp only [Value.index, Value.get?, Obj.get?_insert_self, Option.getD_some]
  rw [C09_plain _ _ hseg, Obj.get?_insert_self]
  exact parseI32_showInt n hn

set_option maxRecDepth 10000 in
/-- The premises are met: three counts, set again, a count of a text. -/
example : Sample.outOf (Sample.go [(c!"x", .str c!"5"), (c!"y", .str c!"a")]
    c!"[{:count; x :}{:count; x :}{:count; x :}{:count; x >> 0 :}{:count; x :}{:count; y :}][{:;x:}{:;y:}]") =
      some (c!"[5670][1a]", c!"200") ∧
    Sample.panicOf (Sample.go [(c!"x", .str c!"2147483647")] c!"{:count; x :}") = some .overflow := by
  decide +kernel

set_option maxRecDepth 10000 in
/-- Names with `->` do not count: the number is read inside the object, and stored beside it. -/
theorem C103_path_stuck :
    Sample.outOf (Sample.go [(c!"o", .obj [(c!"n", .str c!"5")])] c!"[{:count; o->n :}{:count; o->n :}]") =
      some (c!"[55]", c!"200") := by
  decide +kernel

end Nts
