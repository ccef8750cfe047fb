import Verif.Spec.Bif
import Verif.Lemmas.RunBif
import Verif.Lemmas.Str
import Verif.Props.Comments
/-
From the text of a BIF to its body.
-/
set_option autoImplicit false
namespace Nts
open Spec

theorem trim_idem (s : Str) : trim (trim s) = trim s := by
  have h1 : ∀ t : Str, (t.dropWhile isWs).dropWhile isWs = t.dropWhile isWs := by
    intro t
    induction t with
    | nil => rfl
    | cons c r ih =>
      simp only [List.dropWhile_cons]
      split
      · exact ih
      · next h => simp [List.dropWhile_cons, h]
  have h2 : ∀ t : Str, t.dropWhile isWs = t → (trimEnd t).dropWhile isWs = trimEnd t := by
    intro t ht
    cases t with
    | nil => rfl
    | cons c r =>
      have hc : isWs c = false := by
        cases h : isWs c with
        | false => rfl
        | true =>
          exfalso
          rw [List.dropWhile_cons, if_pos h] at ht
          have : (r.dropWhile isWs).length ≤ r.length := (List.dropWhile_sublist _).length_le
          rw [ht] at this; simp at this; omega
      obtain ⟨w, hw, hws⟩ := trimEnd_eq (c :: r)
      cases he : trimEnd (c :: r) with
      | nil =>
        rfl
      | cons d u =>
        rw [he] at hw
        simp only [List.cons_append, List.cons.injEq] at hw
        rw [← hw.1]
        simp [List.dropWhile_cons, hc]
  unfold trim
  have h3 : trimStart (trimEnd (trimStart s)) = trimEnd (trimStart s) := h2 _ (h1 s)
  rw [h3]
  unfold trimEnd
  rw [List.reverse_reverse, h1]

theorem setModifiers_mods (mods : Str) (hm : Mods mods) (name : Str) (hn : Named name) :
    ∀ b : BifS, setModifiers b (mods ++ name) = some ({ b with
      modFilter := b.modFilter || decide ('&' ∈ mods), modNegate := b.modNegate || decide ('!' ∈ mods)
      modUpline := b.modUpline || decide ('^' ∈ mods), modScope := b.modScope || decide ('+' ∈ mods) }, name) := by
  induction mods with
  | nil =>
    intro b
    cases name with
    | nil => simp [setModifiers]
    | cons c r =>
      obtain ⟨h1, h2, h3, h4, h5⟩ := hn.2 c r rfl
      simp [setModifiers, h1, h2, h3, h4, h5]
  | cons c r ih =>
    intro b
    have hr : Mods r := fun d hd => hm d (List.mem_cons_of_mem _ hd)
    rcases hm c (by simp) with rfl | rfl | rfl | rfl
    all_goals
      simp only [List.cons_append, setModifiers]
      simp [ih hr]

theorem splitOnce_char (d : Char) (a b : Str) (h : d ∉ a) : splitOnce [d] (a ++ [d] ++ b) = some (a, b) := by
  induction a with
  | nil => simp [splitOnce, stripPrefix?]
  | cons c r ih =>
    simp only [List.mem_cons, not_or] at h
    have := ih h.2
    simp only [List.append_assoc, List.cons_append, List.nil_append] at this
    simp [splitOnce, stripPrefix?, h.1, this]

theorem mods_no_semicolon {mods : Str} (hm : Mods mods) : ';' ∉ mods := by
  intro h
  rcases hm ';' h with h | h | h | h <;> exact absurd h (by decide)

theorem stripPrefixSuffix_mid (p s m : Str) : stripPrefixSuffix (p ++ m ++ s) p s = m := by
  unfold stripPrefixSuffix
  rw [List.append_assoc, stripPrefix?_append]
  simp only
  rw [(stripSuffix?_eq_some (p := s) (s := m ++ s) (r := m)).2 rfl]

theorem bifSplit_text (mods name src : Str) (hm : Mods mods) (hn : Named name) :
    bifSplit (bifText mods name src) = some (mods ++ name, trim src) := by
  unfold bifSplit bifText
  have : c!"{:" ++ mods ++ name ++ c!";" ++ src ++ c!":}" = c!"{:" ++ (mods ++ name ++ c!";" ++ src) ++ c!":}" := by
    simp
  rw [this, stripPrefixSuffix_mid, splitOnce_char]
  · rfl
  · intro h
    rcases List.mem_append.1 h with h | h
    · exact mods_no_semicolon hm h
    · exact hn.1 h

/-- A BIF within its budget that is selected for this pass runs its body from the start state. -/
theorem runBif_text (env : Env) (R : Rec) (sh : Shared) (inh : Inherit) (mods name src only : Str) (hm : Mods mods)
    (hn : Named name) (hmax : sh.count < sh.max) (hsel : Selected inh mods name only) :
    runBif env R sh inh (bifText mods name src) only =
      bifResult env (run R (bifBody env name) (start sh inh mods name src only)) := by
  unfold runBif
  rw [if_neg (by omega)]
  unfold bifParse
  rw [bifSplit_text mods name src hm hn]
  simp only
  rw [if_neg, setModifiers_mods mods hm name hn]
  · simp only [BifS.new, Bool.false_or, start]
  · intro h
    simp only [Bool.and_eq_true, Bool.not_eq_eq_eq_not, Bool.not_true, List.isEmpty_eq_false_iff, ne_eq] at h
    rcases hsel with rfl | h' | h'
    · exact h.1.1 rfl
    · rw [h'] at h; exact absurd h.2 (by decide)
    · have := (contains_iff h.1.1).2 h'
      rw [this] at h; exact absurd h.1.2 (by decide)

theorem splitSrc_parts {src c : Str} {p : Option Str} (h : Parts src p c) (b : BifS) (hb : b.src = trim src) :
    splitSrc b = { b with params := p.getD [], code := c } ∧ (getCodePosition b.src).isSome = p.isSome := by
  cases h with
  | @both a r hs he =>
    have hpos := C18_first a r hs
    unfold splitSrc
    rw [hb, he, hpos]
    refine ⟨?_, rfl⟩
    have h1 : (a ++ c!">>" ++ r).take a.length = a := by simp
    have h2 : (a ++ c!">>" ++ r).drop (a.length + 2) = r := by
      rw [List.append_assoc, List.drop_append]; simp
    simp only [h1, h2, Option.getD_some]
  | code hs =>
    have hpos := C18_none _ hs
    unfold splitSrc
    rw [hb, hpos]
    exact ⟨by simp only [trim_idem, Option.getD_none], rfl⟩

/-- Extraction of the parts of the source when the parameters need no evaluation. -/
theorem run_extract_plain (R : Rec) (parse : Bool) {src c : Str} {p : Option Str} (h : Parts src p c) (s : St)
    (hb : s.b.src = trim src) (hp : parse = true → ¬ c!"{:" <:+: p.getD []) :
    run R (extractParamsCode parse) s = .ok p.isSome { s with b := { s.b with params := p.getD [], code := c } } := by
  obtain ⟨h1, h2⟩ := splitSrc_parts h s.b hb
  rw [run_extractParamsCode]
  dsimp only
  rw [h1, h2, if_neg]
  simp only [Bool.and_eq_true, not_and, Bool.not_eq_true]
  intro hh
  exact (contains_false_iff (by simp)).2 (hp hh)

/-- ... and in general: the parameters are evaluated first. -/
theorem run_extract_parts (R : Rec) {src c p : Str} (h : Parts src (some p) c) (s : St)
    (hb : s.b.src = trim src) (hp : c!"{:" <:+: p) :
    run R (extractParamsCode true) s =
      (run R (childParse p false) { s with b := { s.b with params := p, code := c }, sh := { s.sh with flags := [] } }).andThen
        (fun x s' => .ok true { s' with b := { s'.b with params := x, flags := s'.sh.flags } }) := by
  obtain ⟨h1, h2⟩ := splitSrc_parts h s.b hb
  rw [run_extractParamsCode]
  dsimp only
  rw [h1, h2, if_pos]
  · rfl
  · simp only [Bool.true_and]
    exact (contains_iff (by simp)).2 hp

theorem noSep_plain (k a : Str) (h : ∀ c ∈ a, c ≠ '{' ∧ c ≠ ':' ∧ c ≠ '>') : NoSep k a := by
  induction a with
  | nil => exact .nil _
  | cons c r ih =>
    obtain ⟨h1, h2, h3⟩ := h c (by simp)
    refine .chr c ?_ ?_ ?_ (ih (fun d hd => h d (List.mem_cons_of_mem _ hd)))
    · rintro ⟨t, ht⟩; injection ht with e; exact h1 e.symm
    · rintro ⟨t, ht⟩; injection ht with e; exact h2 e.symm
    · rintro ⟨t, ht⟩; injection ht with e; exact h3 e.symm

end Nts
