import Verif.Spec.Browser
import Verif.Props.Escape
/-
C01: what a browser shows of escaped text.
-/
set_option autoImplicit false
namespace Nts
open Spec

theorem ref_unique : ∀ p ∈ references, ∀ q ∈ references, (p.1.isPrefixOf q.1 || q.1.isPrefixOf p.1) = true → p = q := by decide

theorem ref_amp : ∀ p ∈ references, p.1.head? = some '&' := by decide

theorem shows_unique {s t u : Str} (h : Displays s t) (h' : Displays s u) : t = u := by
  induction h generalizing u with
  | nil =>
    generalize hs : ([] : Str) = s at h'
    cases h' with
    | nil => rfl
    | char => cases hs
    | ref e c s t hr _ =>
      have := ref_amp _ hr
      cases e with
      | nil => cases this
      | cons => cases hs
  | char c s t hc _ ih =>
    generalize hs : c :: s = x at h'
    cases h' with
    | nil => cases hs
    | char c' s' t' _ h2 => injection hs with e1 e2; subst e1 e2; rw [ih h2]
    | ref e c' s' t' hr _ =>
      have := ref_amp _ hr
      cases e with
      | nil => cases this
      | cons a e' => injection hs with e1 e2; injection this with this; exact absurd (e1.trans this) hc
  | ref e c s t hr _ ih =>
    generalize hs : e ++ s = x at h'
    cases h' with
    | nil =>
      have := ref_amp _ hr
      cases e with
      | nil => cases this
      | cons => cases hs
    | char c' s' t' hc _ =>
      have := ref_amp _ hr
      cases e with
      | nil => cases this
      | cons a e' => injection hs with e1 e2; injection this with this; exact absurd (e1.symm.trans this) hc
    | ref e' c' s' t' hr' h2 =>
      have hp : (e.isPrefixOf e' || e'.isPrefixOf e) = true := by
        rw [Bool.or_eq_true, List.isPrefixOf_iff_prefix, List.isPrefixOf_iff_prefix]
        exact List.prefix_or_prefix_of_prefix (l₃ := e ++ s) ⟨s, rfl⟩ ⟨s', hs.symm⟩
      have := ref_unique _ hr _ hr' hp
      injection this with e1 e2
      subst e1 e2
      rw [ih (List.append_cancel_left hs ▸ h2)]

theorem escapeChar_shows (b : Bool) (c : Char) :
    (escapeChar b c, c) ∈ references ∨ escapeChar b c = [c] ∧ c ≠ '&' := by
  unfold escapeChar
  repeat' split
  all_goals first
    | (next h => subst h; left; decide)
    | (next h => left; simp only [Bool.and_eq_true, decide_eq_true_eq] at h; rw [h.2]; decide)
    | (right; exact ⟨rfl, by assumption⟩)

/-- **C01.** A browser shows the escaped text as the original text, and in no other way. -/
theorem C01_escape_shows (b : Bool) (s : Str) :
    Displays (escapeChars b s) s ∧ ∀ t, Displays (escapeChars b s) t → t = s := by
  have h : Displays (escapeChars b s) s := by
    rw [escapeChars_eq]
    induction s with
    | nil => exact .nil
    | cons c s ih =>
      rw [List.flatMap_cons]
      rcases escapeChar_shows b c with h | ⟨h, hc⟩
      · exact .ref _ c _ _ h ih
      · rw [h]; exact .char c _ _ hc ih
  exact ⟨h, fun t ht => shows_unique ht h⟩

end Nts
