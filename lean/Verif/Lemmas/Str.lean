import Verif.Model.Str
/-
Characterisation of the string primitives by the standard list notions.
-/
set_option autoImplicit false
namespace Nts

theorem stripPrefix?_eq_some {p s r : Str} : stripPrefix? p s = some r ↔ s = p ++ r := by
  induction p generalizing s with
  | nil => simp [stripPrefix?, eq_comm]
  | cons a as ih =>
    cases s with
    | nil => simp [stripPrefix?]
    | cons c cs =>
      simp only [stripPrefix?]
      split
      · next h => subst h; simp [ih]
      · next h => simp; intro h'; exact absurd h'.symm h

theorem stripPrefix?_append (p r : Str) : stripPrefix? p (p ++ r) = some r := stripPrefix?_eq_some.2 rfl

theorem stripPrefix?_eq_none {p s : Str} : stripPrefix? p s = none ↔ ¬ p <+: s := by
  constructor
  · intro h ⟨r, hr⟩
    rw [← hr, stripPrefix?_append] at h; exact absurd h (by simp)
  · intro h
    cases hs : stripPrefix? p s with
    | none => rfl
    | some r => exact absurd ⟨r, (stripPrefix?_eq_some.1 hs).symm⟩ h

theorem startsWith_iff {p s : Str} : startsWith p s = true ↔ p <+: s := by
  unfold startsWith
  constructor
  · intro h
    obtain ⟨r, hr⟩ := Option.isSome_iff_exists.1 h
    exact ⟨r, (stripPrefix?_eq_some.1 hr).symm⟩
  · rintro ⟨r, rfl⟩; simp [stripPrefix?_append]

theorem stripSuffix?_eq_some {p s r : Str} : stripSuffix? p s = some r ↔ s = r ++ p := by
  unfold stripSuffix?
  constructor
  · intro h
    obtain ⟨x, hx, rfl⟩ := Option.map_eq_some_iff.1 h
    have := stripPrefix?_eq_some.1 hx
    have h2 := congrArg List.reverse this
    simpa using h2
  · rintro rfl
    rw [List.reverse_append, stripPrefix?_append]; simp

theorem endsWith_iff {p s : Str} : endsWith p s = true ↔ p <:+ s := by
  unfold endsWith
  constructor
  · intro h
    obtain ⟨r, hr⟩ := Option.isSome_iff_exists.1 h
    exact ⟨r, (stripSuffix?_eq_some.1 hr).symm⟩
  · rintro ⟨r, rfl⟩
    rw [stripSuffix?_eq_some.2 rfl]; rfl

/-- `splitOnce` returns the split at the first occurrence. -/
theorem splitOnce_eq_some {p s a b : Str} (hp : p ≠ []) :
    splitOnce p s = some (a, b) ↔ s = a ++ p ++ b ∧ ∀ a' b', s = a' ++ p ++ b' → a.length ≤ a'.length := by
  induction s generalizing a with
  | nil => simp [splitOnce, hp]
  | cons c cs ih =>
    simp only [splitOnce]
    split
    · next r hr =>
      have hs := stripPrefix?_eq_some.1 hr
      constructor
      · intro h
        simp only [Option.some.injEq, Prod.mk.injEq] at h
        obtain ⟨rfl, rfl⟩ := h
        exact ⟨by simpa using hs, fun _ _ _ => Nat.zero_le _⟩
      · rintro ⟨h1, h2⟩
        have := h2 [] r (by simpa using hs)
        have ha : a = [] := List.length_eq_zero_iff.1 (by simpa using this)
        subst ha
        rw [hs] at h1
        simp at h1
        simp [h1]
    · next hn =>
      have hn' := stripPrefix?_eq_none.1 hn
      have hne : ∀ b', c :: cs ≠ [] ++ p ++ b' := fun b' h => hn' ⟨b', by simpa using h.symm⟩
      constructor
      · intro h
        split at h
        · next x y hxy =>
          simp only [Option.some.injEq, Prod.mk.injEq] at h
          obtain ⟨rfl, rfl⟩ := h
          have := (ih (a := x)).1 hxy
          refine ⟨by simp [this.1], ?_⟩
          intro a' b' h'
          cases a' with
          | nil => exact absurd h' (hne b')
          | cons d a'' =>
            simp only [List.cons_append, List.cons.injEq] at h'
            have := this.2 a'' b' h'.2
            simpa using this
        · exact absurd h (by simp)
      · rintro ⟨h1, h2⟩
        cases a with
        | nil => exact absurd h1 (hne b)
        | cons d a'' =>
          simp only [List.cons_append, List.cons.injEq] at h1
          obtain ⟨rfl, h1⟩ := h1
          have : splitOnce p cs = some (a'', b) := by
            refine (ih (a := a'')).2 ⟨h1, ?_⟩
            intro a' b' h'
            have := h2 (c :: a') b' (by simp [h'])
            simpa using this
          rw [this]

theorem splitOnce_eq_none {p s : Str} (hp : p ≠ []) : splitOnce p s = none ↔ ¬ p <:+: s := by
  induction s with
  | nil => simp [splitOnce, hp]
  | cons c cs ih =>
    simp only [splitOnce]
    rw [List.infix_cons_iff]
    split
    · next r hr =>
      simp only [reduceCtorEq, false_iff, Classical.not_not]
      exact Or.inl ⟨r, (stripPrefix?_eq_some.1 hr).symm⟩
    · next hn =>
      have hn' := stripPrefix?_eq_none.1 hn
      split
      · next x y hxy =>
        simp only [reduceCtorEq, false_iff, Classical.not_not]
        right
        have : splitOnce p cs ≠ none := by simp [hxy]
        exact Classical.not_not.1 (fun h => this (ih.2 h))
      · next hc =>
        simp only [true_iff]
        rintro (h | h)
        · exact hn' h
        · exact ih.1 hc h

theorem contains_iff {p s : Str} (hp : p ≠ []) : contains p s = true ↔ p <:+: s := by
  unfold contains
  cases h : splitOnce p s with
  | none => simpa using (splitOnce_eq_none hp).1 h
  | some x =>
    simp only [Option.isSome_some, true_iff]
    have := ((splitOnce_eq_some (a := x.1) (b := x.2) hp).1 h).1
    exact ⟨x.1, x.2, this.symm⟩

theorem contains_false_iff {p s : Str} (hp : p ≠ []) : contains p s = false ↔ ¬ p <:+: s := by
  rw [← contains_iff hp]; simp

theorem find_eq_some {p s : Str} {n : Nat} (hp : p ≠ []) :
    find p s = some n ↔
      (∃ a b, s = a ++ p ++ b ∧ a.length = n) ∧ ∀ a' b', s = a' ++ p ++ b' → n ≤ a'.length := by
  unfold find
  constructor
  · intro h
    obtain ⟨x, hx, rfl⟩ := Option.map_eq_some_iff.1 h
    have := (splitOnce_eq_some (a := x.1) (b := x.2) hp).1 hx
    exact ⟨⟨x.1, x.2, this.1, rfl⟩, this.2⟩
  · rintro ⟨⟨a, b, h1, rfl⟩, h2⟩
    rw [(splitOnce_eq_some hp).2 ⟨h1, h2⟩]; rfl

theorem find_eq_none {p s : Str} (hp : p ≠ []) : find p s = none ↔ ¬ p <:+: s := by
  unfold find
  rw [Option.map_eq_none_iff, splitOnce_eq_none hp]

/-! ### replace -/

theorem replGo_skip (f t : Str) (k : Nat) (s : Str) : replGo f t k s = replGo f t 0 (s.drop k) := by
  induction k generalizing s with
  | zero => simp
  | succ k ih =>
    cases s with
    | nil => simp [replGo]
    | cons c cs => simp [replGo, ih]

theorem replGo_match (f t r : Str) (hf : f ≠ []) : replGo f t 0 (f ++ r) = t ++ replGo f t 0 r := by
  cases f with
  | nil => exact absurd rfl hf
  | cons a as =>
    simp only [List.cons_append, replGo]
    rw [if_pos]
    · rw [replGo_skip]; simp
    · have := stripPrefix?_append (a :: as) r
      simp only [List.cons_append] at this
      rw [this]; rfl

theorem replGo_nomatch (f t : Str) (c : Char) (cs : Str) (h : ¬ f <+: c :: cs) :
    replGo f t 0 (c :: cs) = c :: replGo f t 0 cs := by
  simp only [replGo]
  rw [if_neg]
  rw [stripPrefix?_eq_none.2 h]; simp

theorem replaceAll_of_not_infix {f t s : Str} (hf : f ≠ []) (h : ¬ f <:+: s) : replaceAll f t s = s := by
  unfold replaceAll; rw [if_neg hf]
  induction s with
  | nil => rfl
  | cons c cs ih =>
    rw [List.infix_cons_iff] at h
    rw [replGo_nomatch _ _ _ _ (fun h' => h (Or.inl h')), ih (fun h' => h (Or.inr h'))]

/-! ### trim -/

theorem takeWhile_all (p : Char → Bool) (s : Str) : ∀ c ∈ s.takeWhile p, p c = true := by
  induction s with
  | nil => simp
  | cons a as ih =>
    intro c hc
    rw [List.takeWhile_cons] at hc
    split at hc
    · next h =>
      rcases List.mem_cons.1 hc with rfl | h'
      · exact h
      · exact ih c h'
    · simp at hc

theorem trimStart_eq (s : Str) : ∃ a, s = a ++ trimStart s ∧ ∀ c ∈ a, isWs c = true := by
  refine ⟨s.takeWhile isWs, (List.takeWhile_append_dropWhile).symm, ?_⟩
  intro c hc
  exact takeWhile_all _ _ c hc

theorem trimEnd_eq (s : Str) : ∃ a, s = trimEnd s ++ a ∧ ∀ c ∈ a, isWs c = true := by
  refine ⟨(s.reverse.takeWhile isWs).reverse, ?_, ?_⟩
  · unfold trimEnd
    rw [← List.reverse_append, List.takeWhile_append_dropWhile, List.reverse_reverse]
  · intro c hc
    exact takeWhile_all _ _ c (List.mem_reverse.1 hc)

theorem trim_infix (s : Str) : trim s <:+: s := by
  obtain ⟨a, ha, _⟩ := trimStart_eq s
  obtain ⟨b, hb, _⟩ := trimEnd_eq (trimStart s)
  refine ⟨a, b, ?_⟩
  unfold trim
  rw [List.append_assoc, ← hb, ← ha]

end Nts
