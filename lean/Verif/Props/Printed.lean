import Verif.Props.AllowBif
import Verif.Props.Simple
/-
C73: hash, date and neutral.
-/
set_option autoImplicit false
namespace Nts
open Spec

theorem named_hash : Named c!"hash" := by
  refine ⟨by decide, ?_⟩
  intro c r hc
  injection hc with h1 h2
  subst h1
  decide

theorem named_date : Named c!"date" := by
  refine ⟨by decide, ?_⟩
  intro c r hc
  injection hc with h1 h2
  subst h1
  decide

theorem named_neutral : Named c!"neutral" := by
  refine ⟨by decide, ?_⟩
  intro c r hc
  injection hc with h1 h2
  subst h1
  decide

theorem trim_nil_or (c : Str) : c = [] ∨ c ≠ [] := by
  cases c <;> simp

theorem hash_run (env : Env) (R : Rec) (sh sh1 : Shared) (inh inh1 : Inherit) (mods src only t : Str)
    (hm : Mods mods) (hf : '&' ∉ mods) (hneg : '!' ∉ mods) (hsc : '+' ∉ mods) (hmax : sh.count < sh.max)
    (hsel : Selected inh mods c!"hash" only)
    (ht : nested R false (counted sh) (entered sh inh) c!"hash" (trim src) only = .ok t sh1 inh1) :
    runBif env R sh inh (bifText mods c!"hash" src) only =
      if t = [] then finish (decide ('^' ∈ mods)) (env.randHash sh1.w.tick) { sh1 with w := { sh1.w with tick := sh1.w.tick + 1 } } inh1
      else finish (decide ('^' ∈ mods)) (env.md5 t) sh1 inh1 := by
  rw [runBif_text env R sh inh mods c!"hash" src only hm named_hash hmax hsel]
  have hbody : bifBody env c!"hash" = bifHash env := rfl
  rw [hbody]
  unfold bifHash
  simp only [run_bind, run_denyMods]
  rw [if_neg (by simp [start, hf, hsc, hneg])]
  simp only [andThen_ok, run_modB, run_getSt, run_ite, run_bind]
  have hms : (start sh inh mods c!"hash" src only).b.modScope = false := by simp [start, hsc]
  have hch : ∀ b : Bool, b = false → ∀ (c : Str) (s : St), run R (childParse c b) s = run R (childParse c false) s := by
    intro b h c s; rw [h]
  have hsrc : (start sh inh mods c!"hash" src only).b.src = trim src := rfl
  have key : ∀ r : Res Unit, r = .ok () { start sh inh mods c!"hash" src only with
        sh := sh1
        inh := inh1
        b := { (start sh inh mods c!"hash" src only).b with code := t } } →
      bifResult env (Res.andThen r fun _ s => if s.b.code.isEmpty = true then
        Res.andThen (run R tick s) fun x s => run R (setOut (env.randHash x)) s
        else run R (setOut (env.md5 s.b.code)) s) =
      if t = [] then finish (decide ('^' ∈ mods)) (env.randHash sh1.w.tick) { sh1 with w := { sh1.w with tick := sh1.w.tick + 1 } } inh1
      else finish (decide ('^' ∈ mods)) (env.md5 t) sh1 inh1 := by
    rintro _ rfl
    simp only [andThen_ok]
    rcases trim_nil_or t with h | h
    · subst h
      rfl
    · rw [if_neg h, if_neg (by rw [List.isEmpty_iff]; exact h)]
      rfl
  refine key _ ?_
  by_cases hc : c!"{:" <:+: trim src
  · rw [if_pos ((contains_iff (by decide)).2 (by rw [hsrc]; exact hc)), hch _ hms, run_child_evaluated R _ _ rfl rfl]
    rw [← evaluated_nested hc] at ht
    rw [hsrc, trim_idem]
    change Res.andThen (match evaluated R false (counted sh) (entered sh inh) c!"hash" (trim src) only with
      | .ok x sh' inh' => _
      | .panic p => _
      | .oof => _) _ = _
    rw [ht]
    rfl
  · rw [if_neg (by rw [contains_iff (by decide), hsrc]; exact hc)]
    rw [nested_plain hc] at ht
    injection ht with h1 h2 h3
    subst h1 h2 h3
    simp only [run_setCode, hsrc, trim_idem]
    rfl

/-- **C73 (hash).** `{:hash; text :}` prints the md5 of the evaluated text, without surrounding white space. -/
theorem C73_hash (env : Env) (R : Rec) (sh sh1 : Shared) (inh inh1 : Inherit) (mods src only t : Str)
    (hm : Mods mods) (hf : '&' ∉ mods) (hneg : '!' ∉ mods) (hsc : '+' ∉ mods) (hmax : sh.count < sh.max)
    (hsel : Selected inh mods c!"hash" only)
    (ht : nested R false (counted sh) (entered sh inh) c!"hash" (trim src) only = .ok t sh1 inh1) (hne : t ≠ []) :
    runBif env R sh inh (bifText mods c!"hash" src) only = finish (decide ('^' ∈ mods)) (env.md5 t) sh1 inh1 := by
  rw [hash_run env R sh sh1 inh inh1 mods src only t hm hf hneg hsc hmax hsel ht, if_neg hne]

/-- **C73 (hash, random).** When the text evaluates to nothing, `hash` prints a fresh random hash: the random source is read once. -/
theorem C73_hash_random (env : Env) (R : Rec) (sh sh1 : Shared) (inh inh1 : Inherit) (mods src only : Str)
    (hm : Mods mods) (hf : '&' ∉ mods) (hneg : '!' ∉ mods) (hsc : '+' ∉ mods) (hmax : sh.count < sh.max)
    (hsel : Selected inh mods c!"hash" only)
    (ht : nested R false (counted sh) (entered sh inh) c!"hash" (trim src) only = .ok [] sh1 inh1) :
    runBif env R sh inh (bifText mods c!"hash" src) only =
      finish (decide ('^' ∈ mods)) (env.randHash sh1.w.tick) { sh1 with w := { sh1.w with tick := sh1.w.tick + 1 } } inh1 := by
  rw [hash_run env R sh sh1 inh inh1 mods src only [] hm hf hneg hsc hmax hsel ht, if_pos rfl]

/-- **C73 (date, partial).** `{:date; format :}` with a literal format prints the present UTC time in that format, and the timestamp
when there is no format. Missing: formats that are computed, for which this is false (`C73_refuted`). -/
theorem C73_date_partial (env : Env) (R : Rec) (sh : Shared) (inh : Inherit) (mods src only c : Str) (p : Option Str)
    (hm : Mods mods) (hf : '&' ∉ mods) (hneg : '!' ∉ mods) (hsc : '+' ∉ mods) (hmax : sh.count < sh.max)
    (hsel : Selected inh mods c!"date" only) (hparts : Parts src p c) (hlit : ¬ c!"{:" <:+: trim src)
    (hp : ¬ c!"{:" <:+: p.getD []) :
    (trim src = [] → runBif env R sh inh (bifText mods c!"date" src) only =
      finish (decide ('^' ∈ mods)) (showNat (env.now sh.w.tick)) { counted sh with w := { sh.w with tick := sh.w.tick + 1 } }
        (entered sh inh)) ∧
    (∀ x, trim src ≠ [] → env.utcFormat sh.w.tick (trim src) = some x → runBif env R sh inh (bifText mods c!"date" src) only =
      finish (decide ('^' ∈ mods)) x { counted sh with w := { sh.w with tick := sh.w.tick + 1 } } (entered sh inh)) := by
  rw [runBif_text env R sh inh mods c!"date" src only hm named_date hmax hsel]
  have hbody : bifBody env c!"date" = bifDate env := rfl
  rw [hbody]
  unfold bifDate
  simp only [run_bind, run_denyMods]
  rw [if_neg (by simp [start, hf, hsc, hneg])]
  simp only [andThen_ok]
  rw [run_extract_plain R true hparts _ rfl (fun _ => hp)]
  simp only [andThen_ok, run_denyFlags]
  rw [if_pos (by rfl)]
  have htick : ∀ s : St, run R tick s = .ok s.sh.w.tick { s with sh := { s.sh with w := { s.sh.w with tick := s.sh.w.tick + 1 } } } :=
    fun _ => rfl
  simp only [andThen_ok, htick, run_getSt, run_ite, run_bind]
  rw [if_neg (by
    rw [contains_iff (by decide)]
    exact hlit)]
  simp only [run_setCode, andThen_ok]
  have hsrc : (start sh inh mods c!"date" src only).b.src = trim src := rfl
  have htk : (start sh inh mods c!"date" src only).sh.w.tick = sh.w.tick := rfl
  simp only [hsrc, trim_idem, htk]
  constructor
  · intro h
    rw [if_pos (by rw [List.isEmpty_iff]; exact h)]
    rfl
  · intro x h hx
    rw [if_neg (by rw [List.isEmpty_iff]; exact h), hx]
    rfl

/-- **C73 (date, exactly).** What `date` does with every source, literal or computed: the parameters are evaluated, the clock is read, and
the code is evaluated if the source has BIFs. When this gives nothing, the timestamp is printed; otherwise the time is printed in the
format given by the source itself, unevaluated, and a source that is not a format makes it panic. -/
theorem C73_date_exact (env : Env) (R : Rec) (sh sh1 sh2 : Shared) (inh inh1 inh2 : Inherit) (mods src only c x y : Str) (p : Option Str)
    (hm : Mods mods) (hf : '&' ∉ mods) (hneg : '!' ∉ mods) (hsc : '+' ∉ mods) (hmax : sh.count < sh.max)
    (hsel : Selected inh mods c!"date" only) (hparts : Parts src p c)
    (hx : evalParams R (counted sh) (entered sh inh) c!"date" (p.getD []) only = .ok x sh1 inh1)
    (hflags : flagsOf sh1 (p.getD []) = [])
    (hy : (c!"{:" <:+: trim src ∧
        evaluated R false { sh1 with w := { sh1.w with tick := sh1.w.tick + 1 } } inh1 c!"date" c only = .ok y sh2 inh2) ∨
      (¬ c!"{:" <:+: trim src ∧ y = trim src ∧ sh2 = { sh1 with w := { sh1.w with tick := sh1.w.tick + 1 } } ∧ inh2 = inh1)) :
    (y = [] → runBif env R sh inh (bifText mods c!"date" src) only =
      finish (decide ('^' ∈ mods)) (showNat (env.now sh1.w.tick)) sh2 inh2) ∧
    (∀ z, y ≠ [] → env.utcFormat sh1.w.tick (trim src) = some z → runBif env R sh inh (bifText mods c!"date" src) only =
      finish (decide ('^' ∈ mods)) z sh2 inh2) ∧
    (y ≠ [] → env.utcFormat sh1.w.tick (trim src) = none →
      runBif env R sh inh (bifText mods c!"date" src) only = .panic .fmt) := by
  rw [runBif_text env R sh inh mods c!"date" src only hm named_date hmax hsel]
  have hbody : bifBody env c!"date" = bifDate env := rfl
  rw [hbody]
  unfold bifDate
  simp only [run_bind, run_denyMods]
  rw [if_neg (by simp [start, hf, hsc, hneg])]
  simp only [andThen_ok]
  rw [run_extract R hparts _ rfl rfl rfl rfl]
  have hgo : ∀ P : Res Unit → Prop,
      (∀ b : BifS, b.src = trim src → b.flags = [] → b.out = [] → b.modUpline = decide ('^' ∈ mods) →
        P (if y.isEmpty = true then .ok () ⟨sh2, inh2, { b with out := showNat (env.now sh1.w.tick) },
            bifText mods c!"date" src, only⟩
          else match env.utcFormat sh1.w.tick (trim src) with
            | some x => .ok () ⟨sh2, inh2, { b with out := x }, bifText mods c!"date" src, only⟩
            | none => .panic .fmt)) →
      P (Res.andThen
        (match evalParams R (counted sh) (entered sh inh) c!"date" (p.getD []) only with
        | .ok x sh' inh' => .ok p.isSome { start sh inh mods c!"date" src only with
            sh := sh', inh := inh', b := { (start sh inh mods c!"date" src only).b with
              params := x, code := c, flags := flagsOf sh' (p.getD []) } }
        | .panic p => .panic p
        | .oof => .oof)
        (fun _ s => (run R denyFlags s).andThen (fun _ s => (run R tick s).andThen (fun t s => (run R getSt s).andThen (fun a s =>
          (run R (if contains bifOpen a.b.src = true then do
              let x ← childParse a.b.code a.b.modScope
              setCode x
            else setCode (trim a.b.src)) s).andThen (fun _ s => (run R getSt s).andThen (fun a s =>
          run R (if a.b.code.isEmpty = true then setOut (showNat (env.now t)) else match env.utcFormat t a.b.src with
            | some x => setOut x
            | none => .panic .fmt) s))))))) := by
    intro P hP
    rw [hx]
    have htick : ∀ s : St, run R tick s = .ok s.sh.w.tick { s with sh := { s.sh with w := { s.sh.w with tick := s.sh.w.tick + 1 } } } :=
      fun _ => rfl
    simp only [andThen_ok, run_denyFlags]
    rw [if_pos (by rw [hflags]; rfl)]
    simp only [andThen_ok, htick, run_getSt, run_ite, run_bind]
    have hsrc : (start sh inh mods c!"date" src only).b.src = trim src := rfl
    have hms : (start sh inh mods c!"date" src only).b.modScope = false := by simp [start, hsc]
    rcases hy with ⟨h1, h2⟩ | ⟨h1, rfl, rfl, rfl⟩
    · rw [if_pos (by exact (contains_iff (by decide)).2 h1)]
      simp only [hms]
      rw [run_child_evaluated R _ _ rfl rfl]
      change P (Res.andThen (Res.andThen (match evaluated R false { sh1 with w := { sh1.w with tick := sh1.w.tick + 1 } } inh1 c!"date" c only with
        | .ok x sh' inh' => _
        | .panic p => _
        | .oof => _) _) _)
      rw [h2]
      simp only [andThen_ok, run_setCode, run_setOut]
      refine cast (congrArg P ?_) (hP { (start sh inh mods c!"date" src only).b with params := x, code := y, flags := flagsOf sh1 (p.getD []), modScope := false }
        rfl hflags rfl rfl)
      simp only [hsrc]
      split
      · rfl
      · cases env.utcFormat sh1.w.tick (trim src) <;> rfl
    · rw [if_neg (by
        rw [contains_iff (by decide)]
        exact h1)]
      simp only [andThen_ok, run_setCode, run_setOut]
      refine cast (congrArg P ?_) (hP { (start sh inh mods c!"date" src only).b with params := x, code := trim src, flags := flagsOf sh1 (p.getD []) }
        rfl hflags rfl rfl)
      simp only [hsrc, trim_idem]
      split
      · rfl
      · cases env.utcFormat sh1.w.tick (trim src) <;> rfl
  refine ⟨?_, ?_, ?_⟩
  · intro h
    refine hgo (fun r => bifResult env r = _) ?_
    intro b _ _ _ hup
    rw [if_pos (by rw [h]; rfl)]
    simp only [bifResult, bifFinish, finish, hup]
  · intro z h hz
    refine hgo (fun r => bifResult env r = _) ?_
    intro b _ _ _ hup
    rw [if_neg (by rw [List.isEmpty_iff]; exact h), hz]
    simp only [bifResult, bifFinish, finish, hup]
  · intro h hz
    refine hgo (fun r => bifResult env r = _) ?_
    intro b _ _ _ _
    rw [if_neg (by rw [List.isEmpty_iff]; exact h), hz]
    rfl

/-- **C73 (neutral).** `{:neutral; ... :}` prints itself as it is written, whatever is in it; nothing is evaluated. -/
theorem C73_neutral (env : Env) (R : Rec) (sh : Shared) (inh : Inherit) (mods src only : Str)
    (hm : Mods mods) (hf : '&' ∉ mods) (hneg : '!' ∉ mods) (hsc : '+' ∉ mods) (hmax : sh.count < sh.max)
    (hsel : Selected inh mods c!"neutral" only) :
    runBif env R sh inh (bifText mods c!"neutral" src) only =
      finish (decide ('^' ∈ mods)) (bifText mods c!"neutral" src) (counted sh) (entered sh inh) := by
  rw [runBif_text env R sh inh mods c!"neutral" src only hm named_neutral hmax hsel]
  have hbody : bifBody env c!"neutral" = bifNeutral := rfl
  rw [hbody]
  unfold bifNeutral
  simp only [run_bind, run_denyMods]
  rw [if_neg (by simp [start, hsc, hf, hneg])]
  simp only [andThen_ok, run_getSt, run_setOut]
  rfl

theorem named_count : Named c!"count" := by
  refine ⟨by decide, ?_⟩
  intro c r hc
  injection hc with h1 h2
  subst h1
  decide

/-- A program that never succeeds. -/
def Never (p : Prog Unit) : Prop := ∀ R s a s', run R p s ≠ .ok a s'

theorem never_bind {α : Type} {p : Prog α} {f : α → Prog Unit} (h : ∀ x, Never (f x)) : Never (p >>= f) := by
  intro R s a s'
  rw [run_bind]
  cases run R p s with
  | ok x s1 => exact h x R s1 a s'
  | err e s1 => exact fun h => nomatch h
  | panic p => exact fun h => nomatch h
  | oof => exact fun h => nomatch h

/-- **C73 (count).** The deprecated `count` is always an error, whatever else it does. -/
theorem C73_count (env : Env) (R : Rec) (sh sh' : Shared) (inh inh' : Inherit) (mods src only x : Str)
    (hm : Mods mods) (hmax : sh.count < sh.max) (hsel : Selected inh mods c!"count" only)
    (h : runBif env R sh inh (bifText mods c!"count" src) only = .ok x sh' inh') : sh'.hasError = true := by
  rw [runBif_text env R sh inh mods c!"count" src only hm named_count hmax hsel] at h
  have hbody : bifBody env c!"count" = bifCount env := rfl
  have hn : Never (bifCount env) := by
    unfold bifCount
    refine never_bind fun _ => never_bind fun _ => never_bind fun _ => never_bind fun _ => never_bind fun _ => ?_
    intro R s a s'
    simp [run_bifError]
  rw [hbody] at h
  cases hr : run R (bifCount env) (start sh inh mods c!"count" src only) with
  | ok a s => exact absurd hr (hn _ _ _ _)
  | err e s =>
    rw [hr] at h
    simp only [bifResult] at h
    split at h
    · simp at h
    · simp only [bifFinish, PRes.ok.injEq] at h
      rw [← h.2.1]
      rfl
  | panic p => rw [hr] at h; simp [bifResult] at h
  | oof => rw [hr] at h; simp [bifResult] at h

/-- It ends: the premise is met. -/
example : Sample.outOf (Sample.go [(c!"x", .str c!"5")] c!"[{:count; x :}][{:;x:}]") = some (c!"[5][6]", c!"200") := by
  decide +kernel

set_option maxRecDepth 10000 in
/-- The premises are met (in the sample environment md5 and the formats are the identity). -/
example : Sample.outOf (Sample.go [(c!"x", .str c!"X")]
      c!"[{:hash; {:;x:} :}][{:hash; a b :}][{:hash; {:;y:} :}][{:date; %Y :}][{:neutral; {:;x:} :}]") =
    some (c!"[X][a b][0][%Y][{:neutral; {:;x:} :}]", c!"200") := by
  decide +kernel

set_option maxRecDepth 10000 in
/-- **C73 is false for computed formats**: the format is evaluated, but what is formatted is its source. -/
theorem C73_refuted : Sample.outOf (Sample.go [(c!"x", .str c!"%Y")] c!"[{:date; {:;x:} :}]") = some (c!"[{:;x:}]", c!"200") := by
  decide +kernel

end Nts
