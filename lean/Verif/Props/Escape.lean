import Verif.Model.Utils
import Verif.Spec.Html
import Verif.Lemmas.Str
/-
C01, C02, C03: escape_chars and unescape_chars.
-/
set_option autoImplicit false
namespace Nts
open Spec

theorem escapeChars_eq (b : Bool) (s : Str) : escapeChars b s = s.flatMap (escapeChar b) := by
  unfold escapeChars escapeCow
  split
  · rfl
  · next h =>
    simp only [List.any_eq_true, not_exists, not_and, Bool.not_eq_true] at h
    induction s with
    | nil => rfl
    | cons c cs ih =>
      have h1 := h c (by simp)
      have h2 := ih (fun x hx => h x (List.mem_cons_of_mem _ hx))
      simp only at h2
      have : escapeChar b c = [c] := by
        simp only [needsEscape, Bool.or_eq_false_iff, decide_eq_false_iff_not, Bool.and_eq_false_iff] at h1
        unfold escapeChar
        simp only [h1, if_false]
        rcases h1.2 with hb | hb
        · simp [hb]
        · simp [hb]
      simp only [List.flatMap_cons, this, ← h2, List.singleton_append]

/-- Case analysis on a character: one of the listed specials or none of them. -/
theorem escapeChar_cases (b : Bool) (c : Char) :
    (escapeChar b c = [c] ∧ c ≠ '&' ∧ c ∉ special b) ∨
    (∃ e ∈ entities b, escapeChar b c = e ∧ entityText b (e.tail.dropLast) true = [c]) := by
  unfold escapeChar
  by_cases h1 : c = '&'
  · subst h1; right; exact ⟨c!"&amp;", by cases b <;> simp [entities], by simp, by cases b <;> rfl⟩
  by_cases h2 : c = '<'
  · subst h2; right; exact ⟨c!"&lt;", by cases b <;> simp [entities], by simp, by cases b <;> rfl⟩
  by_cases h3 : c = '>'
  · subst h3; right; exact ⟨c!"&gt;", by cases b <;> simp [entities], by simp, by cases b <;> rfl⟩
  by_cases h4 : c = '"'
  · subst h4; right; exact ⟨c!"&quot;", by cases b <;> simp [entities], by simp, by cases b <;> rfl⟩
  by_cases h5 : c = '\''
  · subst h5; right; exact ⟨c!"&#x27;", by cases b <;> simp [entities], by simp, by cases b <;> rfl⟩
  by_cases h6 : c = '/'
  · subst h6; right; exact ⟨c!"&#x2F;", by cases b <;> simp [entities], by simp, by cases b <;> rfl⟩
  cases b with
  | false => left; simp [h1, h2, h3, h4, h5, h6, special, htmlSpecial]
  | true =>
    by_cases h7 : c = '{'
    · subst h7; right; exact ⟨c!"&#123;", by simp [entities], by simp, rfl⟩
    by_cases h8 : c = '}'
    · subst h8; right; exact ⟨c!"&#125;", by simp [entities], by simp, rfl⟩
    left; simp [h1, h2, h3, h4, h5, h6, h7, h8, special, htmlSpecial]

/-- Shape of an entity: `&`, then characters other than `&`, `;` and the specials, then `;`. -/
theorem entity_shape {b : Bool} {e : Str} (he : e ∈ entities b) :
    ∃ m, e = '&' :: m ++ c!";" ∧ (∀ c ∈ m, c ≠ '&' ∧ c ≠ ';' ∧ c ∉ special b) := by
  cases b with
  | false =>
    simp only [entities, List.mem_append, List.mem_cons, List.not_mem_nil, or_false, if_false,
      Bool.false_eq_true] at he
    rcases he with rfl | rfl | rfl | rfl | rfl | rfl
    · exact ⟨c!"amp", rfl, by decide⟩
    · exact ⟨c!"lt", rfl, by decide⟩
    · exact ⟨c!"gt", rfl, by decide⟩
    · exact ⟨c!"quot", rfl, by decide⟩
    · exact ⟨c!"#x27", rfl, by decide⟩
    · exact ⟨c!"#x2F", rfl, by decide⟩
  | true =>
    simp only [entities, List.mem_append, List.mem_cons, List.not_mem_nil, or_false, if_true] at he
    rcases he with (rfl | rfl | rfl | rfl | rfl | rfl) | rfl | rfl
    · exact ⟨c!"amp", rfl, by decide⟩
    · exact ⟨c!"lt", rfl, by decide⟩
    · exact ⟨c!"gt", rfl, by decide⟩
    · exact ⟨c!"quot", rfl, by decide⟩
    · exact ⟨c!"#x27", rfl, by decide⟩
    · exact ⟨c!"#x2F", rfl, by decide⟩
    · exact ⟨c!"#123", rfl, by decide⟩
    · exact ⟨c!"#125", rfl, by decide⟩

theorem Clean.nil (b : Bool) : Clean b [] := ⟨by simp, by simp⟩

theorem Clean.cons {b : Bool} {c : Char} {s : Str} (h1 : c ≠ '&') (h2 : c ∉ special b) (h : Clean b s) :
    Clean b (c :: s) := by
  refine ⟨?_, ?_⟩
  · intro x hx
    rcases List.mem_cons.1 hx with rfl | hx
    · exact h2
    · exact h.1 x hx
  · intro a r hr
    cases a with
    | nil => simp at hr; exact absurd hr.1 h1
    | cons d a =>
      simp only [List.cons_append, List.cons.injEq] at hr
      exact h.2 a r hr.2

theorem Clean.append_plain {b : Bool} {m s : Str} (hm : ∀ c ∈ m, c ≠ '&' ∧ c ∉ special b) (h : Clean b s) :
    Clean b (m ++ s) := by
  induction m with
  | nil => exact h
  | cons c m ih =>
    exact Clean.cons (hm c (by simp)).1 (hm c (by simp)).2 (ih (fun x hx => hm x (List.mem_cons_of_mem _ hx)))

theorem Clean.entity {b : Bool} {e s : Str} (he : e ∈ entities b) (h : Clean b s) : Clean b (e ++ s) := by
  obtain ⟨m, rfl, hm⟩ := entity_shape he
  have hrest : Clean b (m ++ (c!";" ++ s)) :=
    Clean.append_plain (fun c hc => ⟨(hm c hc).1, (hm c hc).2.2⟩)
      (Clean.cons (by decide) (by cases b <;> decide) h)
  have hform : '&' :: m ++ c!";" ++ s = '&' :: (m ++ (c!";" ++ s)) := by simp
  rw [hform]
  refine ⟨?_, ?_⟩
  · intro x hx
    rcases List.mem_cons.1 hx with rfl | hx
    · cases b <;> decide
    · exact hrest.1 x hx
  · intro a r hr
    cases a with
    | nil =>
      refine ⟨_, he, ⟨s, ?_⟩⟩
      simp only [List.nil_append] at hr
      rw [← hr]; simp
    | cons d a =>
      simp only [List.cons_append, List.cons.injEq] at hr
      exact hrest.2 a r (by simpa using hr.2)

/-- **C01.** Whatever the input, the escaped text contains no raw special character, and every `&` in it begins
one of the listed entities. -/
theorem C01_escape_clean (b : Bool) (s : Str) : Clean b (escapeChars b s) := by
  rw [escapeChars_eq]
  induction s with
  | nil => exact Clean.nil b
  | cons c cs ih =>
    rw [List.flatMap_cons]
    rcases escapeChar_cases b c with ⟨h, h1, h2⟩ | ⟨e, he, h, _⟩
    · rw [h]; exact Clean.cons h1 h2 ih
    · rw [h]; exact Clean.entity he ih

/-- **C01.** A text without special characters is returned unchanged. -/
theorem C01_escape_plain (b : Bool) (s : Str) (h : ∀ c ∈ s, c ≠ '&' ∧ c ∉ special b) : escapeChars b s = s := by
  rw [escapeChars_eq]
  induction s with
  | nil => rfl
  | cons c cs ih =>
    rw [List.flatMap_cons, ih (fun x hx => h x (List.mem_cons_of_mem _ hx))]
    have hc := h c (by simp)
    rcases escapeChar_cases b c with ⟨h, _⟩ | ⟨e, he, h', ht⟩
    · rw [h]; rfl
    · exfalso
      revert hc; intro hc
      obtain ⟨h1, h2⟩ := hc
      have : escapeChar b c = [c] := by
        unfold escapeChar
        have hb : ∀ x ∈ htmlSpecial, c ≠ x := by
          intro x hx hcx; subst hcx
          apply h2; cases b <;> simp [special, hx]
        have g2 := hb '<' (by decide)
        have g3 := hb '>' (by decide)
        have g4 := hb '"' (by decide)
        have g5 := hb '\'' (by decide)
        have g6 := hb '/' (by decide)
        simp only [h1, g2, g3, g4, g5, g6, if_false]
        cases b with
        | false => simp
        | true =>
          have g7 : c ≠ '{' := by rintro rfl; exact h2 (by decide)
          have g8 : c ≠ '}' := by rintro rfl; exact h2 (by decide)
          simp [g7, g8]
      obtain ⟨m, hm, _⟩ := entity_shape he
      rw [this] at h'
      rw [hm] at h'
      simp at h'

/-- **C01.** Without the brace flag the braces of the text are kept, in order. -/
theorem C01_escape_keeps_braces (s : Str) :
    (escapeChars false s).filter (fun c => c = '{' || c = '}') = s.filter (fun c => c = '{' || c = '}') := by
  rw [escapeChars_eq]
  induction s with
  | nil => rfl
  | cons c cs ih =>
    rw [List.flatMap_cons, List.filter_append, ih, List.filter_cons]
    rcases escapeChar_cases false c with ⟨h, h1, h2⟩ | ⟨e, he, h, ht⟩
    · rw [h]
      by_cases hb : (decide (c = '{') || decide (c = '}')) = true
      · simp only [List.filter_cons, hb]; rfl
      · simp only [List.filter_cons, hb]; rfl
    · rw [h]
      simp only [entities, List.mem_append, List.mem_cons, List.not_mem_nil, or_false,
        Bool.false_eq_true, reduceIte] at he
      have hc : (decide (c = '{') || decide (c = '}')) = false := by
        unfold escapeChar at h
        by_cases h1 : c = '{'
        · subst h1; simp at h; rcases he with rfl | rfl | rfl | rfl | rfl | rfl <;> simp at h
        by_cases h2 : c = '}'
        · subst h2; simp at h; rcases he with rfl | rfl | rfl | rfl | rfl | rfl <;> simp at h
        simp [h1, h2]
      rw [if_neg (by simp [hc])]
      rcases he with rfl | rfl | rfl | rfl | rfl | rfl <;> simp

example : escapeChars true c!"<a href='x/y'>{&}" =
    c!"&lt;a href=&#x27;x&#x2F;y&#x27;&gt;&#123;&amp;&#125;" := by decide +kernel
example : ∃ s : Str, s ≠ [] ∧ ∀ c ∈ s, c ≠ '&' ∧ c ∉ special true := ⟨c!"plain: text;", by decide, by decide⟩

/-! ### C02 -/

theorem unescapeGo_collect (b : Bool) (m e r : Str) (hm : ∀ c ∈ m, c ≠ ';') :
    unescapeGo b (some e) (m ++ ';' :: r) = entityText b (e.reverse ++ m) true ++ unescapeGo b none r := by
  induction m generalizing e with
  | nil => simp [unescapeGo]
  | cons c m ih =>
    have hc := hm c (by simp)
    simp only [List.cons_append, unescapeGo, hc, if_false]
    rw [ih _ (fun x hx => hm x (List.mem_cons_of_mem _ hx))]
    simp

theorem unescapeGo_entity {b : Bool} {e : Str} (he : e ∈ entities b) (r : Str) :
    unescapeGo b none (e ++ r) = entityText b (e.tail.dropLast) true ++ unescapeGo b none r := by
  obtain ⟨m, rfl, hm⟩ := entity_shape he
  have hform : '&' :: m ++ c!";" ++ r = '&' :: (m ++ ';' :: r) := by simp
  rw [hform]
  simp only [unescapeGo, if_true]
  rw [unescapeGo_collect b m [] r (fun c hc => (hm c hc).2.1)]
  simp

theorem unescapeGo_plain (b : Bool) (s : Str) (h : '&' ∉ s) : unescapeGo b none s = s := by
  induction s with
  | nil => rfl
  | cons c cs ih =>
    have hc : c ≠ '&' := by rintro rfl; simp at h
    simp only [unescapeGo, hc, if_false]
    rw [ih (fun h' => h (List.mem_cons_of_mem _ h'))]

theorem unescapeChars_eq (b : Bool) (s : Str) : unescapeChars b s = unescapeGo b none s := by
  unfold unescapeChars unescapeCow
  split
  · rfl
  · next h =>
    rw [unescapeGo_plain]
    intro h'; apply h; simpa using h'

/-- **C02.** Unescaping undoes escaping, for every text and both flags. -/
theorem C02_roundtrip (b : Bool) (s : Str) : unescapeChars b (escapeChars b s) = s := by
  rw [unescapeChars_eq, escapeChars_eq]
  induction s with
  | nil => rfl
  | cons c cs ih =>
    rw [List.flatMap_cons]
    rcases escapeChar_cases b c with ⟨h, h1, _⟩ | ⟨e, he, h, ht⟩
    · rw [h]
      simp only [List.singleton_append, unescapeGo, h1, if_false]
      rw [ih]
    · rw [h, unescapeGo_entity he, ht, ih]; rfl

/-- **C02.** Escaping loses no information. -/
theorem C02_injective (b : Bool) (s t : Str) (h : escapeChars b s = escapeChars b t) : s = t := by
  rw [← C02_roundtrip b s, h, C02_roundtrip]

example : escapeChars true c!"&lt;" ≠ escapeChars true c!"<" := by decide +kernel

/-! ### C03 -/

/-- The filter of src/utils.rs:807-817 is "unescape, then escape", its copy-on-write shortcuts included. -/
theorem unescape_special (b : Bool) (s : Str) (h : '&' ∈ s) :
    ∃ c ∈ unescapeGo b none s, c = '&' ∨ c ∈ special b := by
  have ht : ∀ e semi, ∃ c ∈ entityText b e semi, c = '&' ∨ c ∈ special b := by
    intro e semi
    unfold entityText
    split
    · exact ⟨'&', by simp, Or.inl rfl⟩
    split
    · exact ⟨'<', by simp, Or.inr (by cases b <;> decide)⟩
    split
    · exact ⟨'>', by simp, Or.inr (by cases b <;> decide)⟩
    split
    · exact ⟨'"', by simp, Or.inr (by cases b <;> decide)⟩
    split
    · exact ⟨'\'', by simp, Or.inr (by cases b <;> decide)⟩
    split
    · exact ⟨'/', by simp, Or.inr (by cases b <;> decide)⟩
    split
    · next hb =>
      have : b = true := by revert hb; cases b <;> simp
      subst this
      exact ⟨'{', by simp, Or.inr (by decide)⟩
    split
    · next hb =>
      have : b = true := by revert hb; cases b <;> simp
      subst this
      exact ⟨'}', by simp, Or.inr (by decide)⟩
    · exact ⟨'&', by simp, Or.inl rfl⟩
  have hs : ∀ s e, ∃ c ∈ unescapeGo b (some e) s, c = '&' ∨ c ∈ special b := by
    intro s
    induction s with
    | nil => intro e; exact ht _ _
    | cons c s ih =>
      intro e
      simp only [unescapeGo]
      split
      · obtain ⟨x, hx, hx'⟩ := ht e.reverse true
        exact ⟨x, List.mem_append_left _ hx, hx'⟩
      · exact ih _
  induction s with
  | nil => simp at h
  | cons c s ih =>
    simp only [unescapeGo]
    split
    · exact hs _ _
    · next hc =>
      obtain ⟨x, hx, hx'⟩ := ih (by
        rcases List.mem_cons.1 h with h | h
        · exact absurd h.symm hc
        · exact h)
      exact ⟨x, List.mem_cons_of_mem _ hx, hx'⟩

theorem any_needsEscape {b : Bool} {s : Str} (h : ∃ c ∈ s, c = '&' ∨ c ∈ special b) :
    s.any (needsEscape b) = true := by
  obtain ⟨c, hc, h⟩ := h
  rw [List.any_eq_true]
  refine ⟨c, hc, ?_⟩
  rcases h with rfl | h
  · rfl
  · cases b with
    | false =>
      simp [special, htmlSpecial] at h
      rcases h with h | h | h | h | h <;> subst h <;> rfl
    | true =>
      simp [special, htmlSpecial] at h
      rcases h with h | h | h | h | h | h | h <;> subst h <;> rfl

theorem filterStr_eq (s : Str) : filterStr s = escapeChars true (unescapeChars true s) := by
  rw [unescapeChars_eq]
  unfold filterStr unescapeCow
  by_cases h : s.contains '&' = true
  · simp only [h, if_true]
    have hsp := any_needsEscape (unescape_special true s (by simpa using h))
    have : (escapeCow true (unescapeGo true none s)).owned = true := by
      unfold escapeCow; rw [if_pos hsp]
    rw [if_pos this]; rfl
  · simp only [h]
    have hpl : unescapeGo true none s = s := unescapeGo_plain _ _ (by simpa using h)
    rw [hpl]
    simp only [Bool.false_eq_true, if_false]
    by_cases h2 : s.any (needsEscape true) = true
    · simp [escapeCow, escapeChars, h2]
    · simp [escapeCow, escapeChars, h2]

/-- **C03.** Filtering twice is filtering once, for both flags. -/
theorem C03_filter_idempotent (b : Bool) (s : Str) :
    escapeChars b (unescapeChars b (escapeChars b (unescapeChars b s))) = escapeChars b (unescapeChars b s) := by
  rw [C02_roundtrip]

/-- **C03.** Filtering a text that is already escaped gives it back: no double encoding. -/
theorem C03_filter_escaped (b : Bool) (s : Str) :
    escapeChars b (unescapeChars b (escapeChars b s)) = escapeChars b s := by
  rw [C02_roundtrip]

/-- **C03.** The filter applied to a JSON string (`filter_value`) is idempotent and does not encode twice. -/
theorem C03_filter_value_idempotent (s : Str) :
    filterValue (filterValue (.str s)) = filterValue (.str s) ∧
    filterValue (.str (escapeChars true s)) = .str (escapeChars true s) := by
  simp only [filterValue, filterStr_eq, C02_roundtrip, and_self]

example : filterStr c!"a &lt;b&gt; <c> & &copy;" = c!"a &lt;b&gt; &lt;c&gt; &amp; &amp;copy;" := by decide +kernel

end Nts
