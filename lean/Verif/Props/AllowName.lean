import Verif.Props.Uncomment
/-
Which names computed by BIFs are accepted: the check that variables, include, data, locale and obj make (used in C27, C66, C67).
-/
set_option autoImplicit false
namespace Nts
open Spec

/-- The text has the BIF `allow` or `!allow` somewhere. -/
def Spec.HasAllow (c : Str) : Prop := c!"{:allow;" <:+: c ∨ c!"{:!allow;" <:+: c

/-- The name `c` is, but for its comments, a text from `{:;` to `:}`, and has no `allow`. -/
def Spec.Refused (c : Str) : Prop :=
  ¬ HasAllow c ∧ ∃ t, Uncommented [] c (some t) ∧ c!"{:;" <+: t ∧ c!":}" <:+ t

/-- The name `c` has `allow`, or it is something else than a text from `{:;` to `:}`, comments apart. -/
def Spec.Accepted (c : Str) : Prop :=
  HasAllow c ∨ ∃ t, Uncommented [] c (some t) ∧ ¬ (c!"{:;" <+: t ∧ c!":}" <:+ t)

theorem hasAllow_iff (c : Str) : (contains c!"{:allow;" c || contains c!"{:!allow;" c) = true ↔ HasAllow c := by
  rw [Bool.or_eq_true, contains_iff (by decide), contains_iff (by decide)]
  rfl

theorem containsAllow_true {c : Str} (h : Accepted c) : containsAllow c = some true := by
  unfold containsAllow
  by_cases ha : HasAllow c
  · rw [if_pos ((hasAllow_iff c).2 ha)]
  · rw [if_neg (fun h => ha ((hasAllow_iff c).1 h))]
    rcases h with h | ⟨t, ht, hn⟩
    · exact absurd h ha
    · rw [(C16_exact c (some t)).2 ht, Option.map_some]
      congr 1
      rw [Bool.not_eq_true', ← Bool.not_eq_true, Bool.and_eq_true, startsWith_iff, endsWith_iff]
      exact hn

theorem containsAllow_false {c : Str} (h : Refused c) : containsAllow c = some false := by
  obtain ⟨ha, t, ht, h1, h2⟩ := h
  unfold containsAllow
  rw [if_neg (fun h => ha ((hasAllow_iff c).1 h)), (C16_exact c (some t)).2 ht, Option.map_some]
  have e1 : startsWith c!"{:;" t = true := startsWith_iff.2 h1
  have e2 : endsWith bifClose t = true := endsWith_iff.2 h2
  rw [e1, e2]
  rfl

/-- Every name is accepted, refused, or (without `allow`, with a comment that is never closed, and a `:` at its end) makes the check
panic; and only one of them. -/
theorem allow_cases (c : Str) :
    (Accepted c ∧ ¬ Refused c ∧ containsAllow c = some true) ∨ (Refused c ∧ ¬ Accepted c ∧ containsAllow c = some false) ∨
    (¬ HasAllow c ∧ c!":" <:+ c ∧ ¬ AllClosed c ∧ ¬ Accepted c ∧ ¬ Refused c ∧ containsAllow c = none) := by
  have hno : Accepted c → ¬ Refused c := by
    intro h1 h2
    have := (containsAllow_true h1).symm.trans (containsAllow_false h2)
    exact absurd this (by simp)
  by_cases ha : HasAllow c
  · exact .inl ⟨.inl ha, hno (.inl ha), containsAllow_true (.inl ha)⟩
  · cases hr : removeComments c with
    | none =>
      have hn : containsAllow c = none := by
        unfold containsAllow
        rw [if_neg (fun h => ha ((hasAllow_iff c).1 h)), hr]
        rfl
      refine .inr (.inr ⟨ha, ((C16_panics_exact c).1 hr).1, ((C16_panics_exact c).1 hr).2, ?_, ?_, hn⟩)
      · intro h; exact absurd (hn.symm.trans (containsAllow_true h)) (by simp)
      · intro h; exact absurd (hn.symm.trans (containsAllow_false h)) (by simp)
    | some t =>
      have ht := (C16_exact c (some t)).1 hr
      by_cases hb : c!"{:;" <+: t ∧ c!":}" <:+ t
      · have h : Refused c := ⟨ha, t, ht, hb⟩
        exact .inr (.inl ⟨h, fun h' => hno h' h, containsAllow_false h⟩)
      · have h : Accepted c := .inr ⟨t, ht, hb⟩
        exact .inl ⟨h, hno h, containsAllow_true h⟩

/-- A text without comments. -/
theorem uncommented_self {c : Str} (h : ¬ c!"{:*" <:+: c) : Uncommented [] c (some c) :=
  (C16_exact c (some c)).1 (C16_unchanged c h)

/-- `{:;x:}` is refused; `{:&;x:}`, `a{:;x:}` and `{:;x:}.ntpl` are accepted, and so is everything with `allow`. -/
example : Refused c!"{:;x:}" ∧ Accepted c!"{:&;x:}" ∧ Accepted c!"a{:;x:}" ∧ Accepted c!"{:;x:}.ntpl" ∧
    Accepted c!"{:allow; w >> {:;x:} :}" := by
  refine ⟨⟨?_, _, uncommented_self ?_, by decide, by decide⟩, .inr ⟨_, uncommented_self ?_, ?_⟩, .inr ⟨_, uncommented_self ?_, ?_⟩,
    .inr ⟨_, uncommented_self ?_, ?_⟩, .inl (.inl ?_)⟩
  · unfold HasAllow; decide
  all_goals decide

end Nts
