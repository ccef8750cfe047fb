import Verif.Model.Bifs
import Verif.Lemmas.RunBif
import Verif.Spec.Html
import Verif.Lemmas.Str
import Verif.Spec.Sample
/-
C12, C13: wildcard matching and the allow whitelist.
-/
set_option autoImplicit false
namespace Nts
open Spec

/-- The wildcard language of the documentation: `Matches pattern text`. -/
inductive Spec.Matches : Str → Str → Prop
  | done : Matches [] []
  | escape (e : Char) {p t : Str} : Matches p t → Matches ('\\' :: e :: p) (e :: t)
  | dotNone {p t : Str} : Matches p t → Matches ('.' :: p) t
  | dotOne (c : Char) {p t : Str} : Matches p t → Matches ('.' :: p) (c :: t)
  | one (c : Char) {p t : Str} : Matches p t → Matches ('?' :: p) (c :: t)
  | star (u : Str) {p t : Str} : Matches p t → Matches ('*' :: p) (u ++ t)
  | theEnd (p : Str) : Matches ('~' :: p) []
  | literal (c : Char) {p t : Str} : c ∉ ['\\', '.', '?', '*', '~'] → Matches p t → Matches (c :: p) (c :: t)

theorem starMatch_iff (f : Str → Bool) (t : Str) : starMatch f t = true ↔ ∃ u r, t = u ++ r ∧ f r = true := by
  induction t with
  | nil =>
    simp only [starMatch]
    constructor
    · intro h; exact ⟨[], [], rfl, h⟩
    · rintro ⟨u, r, h, hf⟩
      simp only [List.nil_eq, List.append_eq_nil_iff] at h
      rw [h.2] at hf; exact hf
  | cons c cs ih =>
    simp only [starMatch, Bool.or_eq_true, ih]
    constructor
    · rintro (h | ⟨u, r, h, hf⟩)
      · exact ⟨[], _, rfl, h⟩
      · exact ⟨c :: u, r, by simp [h], hf⟩
    · rintro ⟨u, r, h, hf⟩
      cases u with
      | nil => left; simp only [List.nil_append] at h; rw [h]; exact hf
      | cons d u =>
        simp only [List.cons_append, List.cons.injEq] at h
        right; exact ⟨u, r, h.2, hf⟩

theorem matchRec_sound : ∀ n (p t : Str), p.length ≤ n → matchRec p t = true → Matches p t := by
  intro n
  induction n with
  | zero =>
    intro p t hp h
    have : p = [] := List.length_eq_zero_iff.1 (by omega)
    subst this
    simp only [matchRec, List.isEmpty_iff] at h
    subst h; exact .done
  | succ n ih =>
    intro p t hp h
    cases p with
    | nil =>
      simp only [matchRec, List.isEmpty_iff] at h
      subst h; exact .done
    | cons c rest =>
      simp only [List.length_cons] at hp
      have ih' := fun t => ih rest t (by omega)
      rw [matchRec.eq_def] at h
      simp only at h
      split at h
      · next hc =>
        subst hc
        cases rest with
        | nil => simp at h
        | cons e rest' =>
          cases t with
          | nil => simp at h
          | cons d cs =>
            simp only [Bool.and_eq_true, decide_eq_true_eq] at h
            rw [h.2]
            exact .escape e (ih rest' cs (by simp only [List.length_cons] at hp; omega) h.1)
      split at h
      · next hc =>
        subst hc
        simp only [Bool.or_eq_true] at h
        rcases h with h | h
        · exact .dotNone (ih' t h)
        · cases t with
          | nil => simp at h
          | cons d cs => exact .dotOne d (ih' cs h)
      split at h
      · next hc =>
        subst hc
        cases t with
        | nil => simp at h
        | cons d cs => exact .one d (ih' cs h)
      split at h
      · next hc =>
        subst hc
        obtain ⟨u, r, rfl, hf⟩ := (starMatch_iff _ _).1 h
        exact .star u (ih' r hf)
      split at h
      · next hc =>
        subst hc
        simp only [List.isEmpty_iff] at h
        subst h; exact .theEnd rest
      · cases t with
        | nil => simp at h
        | cons d cs =>
          simp only [ne_eq] at h
          split at h
          · simp at h
          · next hd =>
            simp only [Classical.not_not] at hd
            subst hd
            exact .literal c (by simp_all) (ih' cs h)

theorem matchRec_complete {p t : Str} (h : Matches p t) : matchRec p t = true := by
  induction h with
  | done => rfl
  | escape e _ ih => rw [matchRec.eq_def]; simp [ih]
  | @dotNone p t _ ih => rw [matchRec.eq_def]; simp [ih]
  | dotOne c _ ih => rw [matchRec.eq_def]; simp [ih]
  | one c _ ih => rw [matchRec.eq_def]; simp [ih]
  | star u _ ih =>
    rw [matchRec.eq_def]
    simp only [Char.reduceEq, if_false, if_true]
    exact (starMatch_iff _ _).2 ⟨u, _, rfl, ih⟩
  | theEnd p => rw [matchRec.eq_def]; simp
  | literal c hc _ ih =>
    rw [matchRec.eq_def]
    simp only [List.mem_cons, List.not_mem_nil, or_false, not_or] at hc
    simp [hc, ih]

/-- **C12.** `wildcard_match` decides exactly the documented language, for every text and pattern. -/
theorem C12_wildcard (text pattern : Str) : wildcardMatch text pattern = true ↔ Matches pattern text :=
  ⟨matchRec_sound _ pattern text (Nat.le_refl _), matchRec_complete⟩

/-- **C12.** A pattern without wildcards matches only itself. -/
theorem C12_literal (text pattern : Str) (h : ∀ c ∈ pattern, c ∉ ['\\', '.', '?', '*', '~']) :
    wildcardMatch text pattern = true ↔ text = pattern := by
  rw [C12_wildcard]
  constructor
  · intro hm
    induction hm with
    | done => rfl
    | literal c _ _ ih => rw [ih (fun x hx => h x (List.mem_cons_of_mem _ hx))]
    | escape e _ _ => exact absurd (by simp) (h '\\' (by simp))
    | dotNone _ _ => exact absurd (by simp) (h '.' (by simp))
    | dotOne _ _ _ => exact absurd (by simp) (h '.' (by simp))
    | one _ _ _ => exact absurd (by simp) (h '?' (by simp))
    | star _ _ _ => exact absurd (by simp) (h '*' (by simp))
    | theEnd _ => exact absurd (by simp) (h '~' (by simp))
  · rintro rfl
    induction text with
    | nil => exact .done
    | cons c cs ih =>
      exact .literal c (h c (by simp)) (ih (fun x hx => h x (List.mem_cons_of_mem _ hx)))

example : wildcardMatch c!"some-file.txt" c!"some*\\.tx?~" = true := by decide +kernel
example : ∀ c ∈ c!"es-ES", c ∉ ['\\', '.', '?', '*', '~'] := by decide

/-! ### C13 -/

/-- The words declared under a name in the current block. -/
def Spec.declaredWords (env : Env) (s : St) (name : Str) : List Str :=
  splitWhitespace (getFromKey env.f64 ((s.sh.getIndir s.inh.indir).index c!"declare") name)

/-- What one declared word accepts: the word itself as a wildcard pattern, anywhere in the text under `partial` (and
`replace`), ignoring case under `casein`. -/
def Spec.WordAccepts (env : Env) (flags word code : Str) : Prop :=
  let pattern := if contains c!"|partial|" flags || contains c!"|replace|" flags then c!"*" ++ word ++ c!"*" else word
  if contains c!"|casein|" flags then Matches (env.lower pattern) (env.lower code) else Matches pattern code

theorem allowFind_spec (env : Env) (flags code : Str) (words : List Str) :
    allowFind env flags code words ≠ [] → ∃ w ∈ words, WordAccepts env flags w code := by
  intro h
  unfold allowFind at h
  cases hf : words.find? (fun w => wildcardMatch (allowHaystack env flags code) (allowPattern env flags w)) with
  | none => rw [hf] at h; simp at h
  | some w =>
    refine ⟨w, List.mem_of_find?_eq_some hf, ?_⟩
    have := List.find?_some hf
    rw [C12_wildcard] at this
    unfold WordAccepts
    unfold allowHaystack allowPattern at this
    dsimp only at this ⊢
    by_cases hc : contains c!"|casein|" flags = true
    · simp only [hc, if_true] at this ⊢; exact this
    · simp only [hc, if_false] at this ⊢
      simpa using this

/-- **C13.** Whatever the template, the data and the flags: when `allow` without `!` and without `replace` produces
output, that output is the evaluated code and some word declared under the given name accepts it. -/
theorem C13_allow (env : Env) (R : Rec) (s s' : St) (hneg : s.b.modNegate = false)
    (h : run R (bifAllow env) s = .ok () s') (hrep : contains c!"|replace|" s'.b.flags = false) :
    s'.b.out = [] ∨ (s'.b.out = s'.b.code ∧
      ∃ s1 found, run R (extractParamsCode true) s = .ok found s1 ∧ s1.b.params = s'.b.params ∧
        ∃ w ∈ declaredWords env s1 s1.b.params, WordAccepts env s'.b.flags w s'.b.code) := by
  unfold bifAllow at h
  simp only [run_bind, run_denyMods] at h
  split at h
  · simp at h
  simp only [andThen_ok] at h
  obtain ⟨found, s1, h1, h2⟩ := andThen_eq_ok h
  have hs1 := extractParamsCode_ok h1
  simp only [run_getSt, andThen_ok, run_ite, run_bifError, run_bind] at h2
  split at h2
  · simp at h2
  obtain ⟨_, s2, h3, h4⟩ := andThen_eq_ok h2
  rw [run_checkFlags] at h3
  split at h3
  · simp at h3
  simp only [Res.ok.injEq, true_and] at h3
  subst h3
  obtain ⟨x, s3, h5, h6⟩ := andThen_eq_ok h4
  simp only [run_setCode, run_getSt, andThen_ok, run_setOut, Res.ok.injEq, true_and] at h6
  obtain ⟨hb, _, _, _⟩ := run_childParse_ok h5
  subst h6
  simp only at hrep ⊢
  have hn : s3.b.modNegate = false := by
    rw [hb, hs1.2.1]; simp [splitSrc_fields, hneg]
  unfold allowOut
  simp only [hn, hrep, Bool.xor_false]
  by_cases hf : allowFind env s3.b.flags x (splitWhitespace (getFromKey env.f64
      ((s1.sh.getIndir s1.inh.indir).index c!"declare") s1.b.params)) = []
  · left; simp [hf]
  · right
    refine ⟨?_, s1, found, h1, by rw [hb], ?_⟩
    · simp [hf]
    · exact allowFind_spec env _ _ _ hf

/-- A state with `allow` ready to run, for the examples. -/
def Sample.bifSt (data : Obj) (src : Str) : St :=
  { sh := { (Sample.shared (Sample.schema 100 data Sample.inherit)) with
      indir := fun _ => some (.obj Sample.inherit) }
    inh := Inherit.new, b := { BifS.new with src := src }, raw := src, only := [] }

/-- Output of a run. -/
def Sample.outRun (r : Res Unit) : Option Str :=
  match r with
  | .ok _ s => some s.b.out
  | _ => none

example : Sample.outRun (run (runBlocks Sample.env 5) (bifAllow Sample.env)
    (Sample.bifSt [(c!"x", .str c!"es")] c!"any >> {:;x:}")) = some c!"es" := by decide +kernel

end Nts
