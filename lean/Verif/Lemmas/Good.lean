import Verif.Props.Compose
import Verif.Spec.Lang
/-
Texts that are written from templates of the language of Spec/Lang.lean: their structure.
-/
set_option autoImplicit false
namespace Nts
open Spec

/-- `Good k s`: the text `s`, when followed by `k`, consists of characters that are not part of a delimiter or a `>>` and of
BIFs. -/
inductive Good : Str → Str → Prop
  | nil (k : Str) : Good k []
  | chr {k s : Str} (c : Char) : ¬ c!"{:" <+: c :: s ++ k → ¬ c!":}" <+: c :: s ++ k → ¬ c!">>" <+: c :: s ++ k →
      Good k s → Good k (c :: s)
  | nest {k b s : Str} : Bal c!":}" b → ¬ c!"*" <+: b → Good k s → Good k (c!"{:" ++ b ++ c!":}" ++ s)

theorem good_noSep {k s : Str} (h : Good k s) : NoSep k s := by
  induction h with
  | nil => exact .nil k
  | chr c h1 h2 h3 _ ih => exact .chr c h1 h2 h3 ih
  | nest h1 _ _ ih => exact .nest h1 ih

theorem good_bal {k s : Str} (h : Good k s) : Bal k s := by
  induction h with
  | nil => exact .nil k
  | chr c h1 h2 _ _ ih => exact .chr c h1 h2 ih
  | nest h1 _ _ ih => exact .nest h1 ih

theorem good_wf {k s : Str} (h : Good k s) : k = [] → ∀ p, ∃ l, WellFormed p s l := by
  induction h with
  | nil => intro _ p; exact ⟨[], .nil p⟩
  | chr c h1 h2 _ _ ih =>
    intro hk p
    subst hk
    simp only [List.append_nil] at h1 h2
    obtain ⟨l, hl⟩ := ih rfl (p + 1)
    exact ⟨l, .chr c h1 h2 hl⟩
  | @nest b s h1 h2 _ ih =>
    intro hk p
    obtain ⟨l, hl⟩ := ih hk (p + (c!"{:" ++ b ++ c!":}").length)
    exact ⟨_, .block (.inl ⟨b, rfl, h1, h2⟩) hl⟩

theorem bal_append {k a b : Str} (h : Bal (b ++ k) a) (hb : Bal k b) : Bal k (a ++ b) := by
  generalize hk : b ++ k = k' at h
  induction h with
  | nil => exact hb
  | chr c h1 h2 _ ih =>
    subst hk
    refine .chr c ?_ ?_ (ih rfl)
    · simpa using h1
    · simpa using h2
  | @nest k0 x s h1 _ _ ih =>
    have : c!"{:" ++ x ++ c!":}" ++ s ++ b = c!"{:" ++ x ++ c!":}" ++ (s ++ b) := by simp
    rw [this]
    exact .nest h1 (ih hk)

theorem good_append {k a b : Str} (h : Good (b ++ k) a) (hb : Good k b) : Good k (a ++ b) := by
  induction h with
  | nil => exact hb
  | chr c h1 h2 h3 _ ih =>
    refine .chr c ?_ ?_ ?_ ih
    · simpa using h1
    · simpa using h2
    · simpa using h3
  | @nest x s h1 h2 _ ih =>
    have : c!"{:" ++ x ++ c!":}" ++ s ++ b = c!"{:" ++ x ++ c!":}" ++ (s ++ b) := by simp
    rw [this]
    exact .nest h1 h2 ih

/-- What can come after a text. -/
def Cont (k : Str) : Prop := k.head? ≠ some ':' ∧ k.head? ≠ some '}' ∧ k.head? ≠ some '>'

theorem cont_append {a b : Str} (ha : Cont a) (hb : Cont b) : Cont (a ++ b) := by
  cases a with
  | nil => exact hb
  | cons c a => exact ha

theorem good_text {t k : Str} (h1 : ¬ c!"{:" <:+: t) (h2 : ¬ c!":}" <:+: t) (h3 : ¬ c!">>" <:+: t) (hk : Cont k) : Good k t := by
  induction t with
  | nil => exact .nil k
  | cons c t ih =>
    rw [pair_cons, not_or] at h1 h2 h3
    have hh : ∀ b : Char, b = ':' ∨ b = '}' ∨ b = '>' → (t ++ k).head? = some b → t.head? = some b := by
      intro b hb hx
      cases t with
      | nil =>
        rcases hb with rfl | rfl | rfl
        · exact absurd hx hk.1
        · exact absurd hx hk.2.1
        · exact absurd hx hk.2.2
      | cons d t => exact hx
    refine .chr c ?_ ?_ ?_ (ih h1.2 h2.2 h3.2)
    · rw [List.cons_append, pair_prefix]; rintro ⟨rfl, hx⟩; exact h1.1 ⟨rfl, hh _ (.inl rfl) hx⟩
    · rw [List.cons_append, pair_prefix]; rintro ⟨rfl, hx⟩; exact h2.1 ⟨rfl, hh _ (.inr (.inl rfl)) hx⟩
    · rw [List.cons_append, pair_prefix]; rintro ⟨rfl, hx⟩; exact h3.1 ⟨rfl, hh _ (.inr (.inr rfl)) hx⟩

theorem blank_no {w : Str} (hw : Blank w) {c : Char} (hc : isWs c = false) : c ∉ w := by
  intro h
  rw [hw c h] at hc
  simp at hc

/-- White space at the start can be removed. -/
theorem good_dropStart {k : Str} : ∀ {w s : Str}, Blank w → Good k (w ++ s) → Good k s
  | [], _, _, h => h
  | c :: w, s, hw, h => by
    generalize ht : c :: w ++ s = t at h
    cases h with
    | nil => simp at ht
    | chr d _ _ _ h4 =>
      injection ht with _ h2
      subst h2
      exact good_dropStart (fun x hx => hw x (by simp [hx])) h4
    | nest =>
      injection ht with h1 _
      have := hw c (by simp)
      rw [h1] at this
      exact absurd this (by decide)

/-- A text that ends with white space, divided at a block. -/
theorem block_blank {b s a w : Str} (hw : Blank w) (he : c!"{:" ++ b ++ c!":}" ++ s = a ++ w) :
    ∃ a', a = c!"{:" ++ b ++ c!":}" ++ a' ∧ s = a' ++ w := by
  rw [List.append_eq_append_iff] at he
  rcases he with ⟨a', h1, h2⟩ | ⟨c', h1, h2⟩
  · exact ⟨a', h1, h2⟩
  · cases hc : c'.reverse with
    | nil =>
      have : c' = [] := by simpa using hc
      subst this
      exact ⟨[], by simpa using h1.symm, by simpa using h2.symm⟩
    | cons x r =>
      exfalso
      have hc' : c' = r.reverse ++ [x] := by
        have := congrArg List.reverse hc
        simpa using this
      have hx : x = '}' := by
        have e : c!"{:" ++ b ++ c!":}" = c!"{:" ++ b ++ c!":" ++ [ '}' ] := by simp
        rw [hc', e, ← List.append_assoc] at h1
        exact (List.append_inj_right' h1 rfl |> fun h => by injection h with h; exact h.symm)
      exact blank_no hw (by decide : isWs '}' = false) (by rw [h2, hc', hx]; simp)

theorem good_dropEnd {k s : Str} (h : Good k s) : ∀ {a w : Str}, s = a ++ w → Blank w → Good [] a := by
  induction h with
  | nil =>
    intro a w he _
    have : a = [] := (List.append_eq_nil_iff.1 he.symm).1
    subst this
    exact .nil _
  | @chr s c h1 h2 h3 _ ih =>
    intro a w he hw
    cases a with
    | nil => exact .nil _
    | cons d a =>
      injection he with e1 e2
      subst e1; subst e2
      have hp : ∀ {p : Str}, p <+: c :: a ++ [] → p <+: c :: (a ++ w) ++ k := by
        intro p hp
        rw [List.append_nil] at hp
        exact hp.trans ⟨w ++ k, by simp⟩
      exact .chr c (fun h => h1 (hp h)) (fun h => h2 (hp h)) (fun h => h3 (hp h)) (ih rfl hw)
  | @nest b s h1 h2 _ ih =>
    intro a w he hw
    obtain ⟨a', rfl, h4⟩ := block_blank hw he
    exact .nest h1 h2 (ih h4 hw)

theorem trim_parts (s : Str) : ∃ w1 w2, s = w1 ++ (trim s ++ w2) ∧ Blank w1 ∧ Blank w2 := by
  obtain ⟨a, ha, h1⟩ := trimStart_eq s
  obtain ⟨b, hb, h2⟩ := trimEnd_eq (trimStart s)
  refine ⟨a, b, ?_, h1, h2⟩
  unfold trim
  rw [← hb, ← ha]

theorem good_trim {k s : Str} (h : Good k s) : Good [] (trim s) := by
  obtain ⟨w1, w2, h1, h2, h3⟩ := trim_parts s
  rw [h1] at h
  exact good_dropEnd (good_dropStart h2 h) rfl h3

theorem trimStart_blank {w s : Str} (hw : Blank w) : trimStart (w ++ s) = trimStart s := by
  induction w with
  | nil => rfl
  | cons c w ih =>
    unfold trimStart
    rw [List.cons_append, List.dropWhile_cons_of_pos (hw c (by simp))]
    exact ih (fun x hx => hw x (by simp [hx]))

theorem trim_blankStart {w s : Str} (hw : Blank w) : trim (w ++ s) = trim s := by
  unfold trim
  rw [trimStart_blank hw]

theorem trimEnd_blank {w s : Str} (hw : Blank w) : trimEnd (s ++ w) = trimEnd s := by
  unfold trimEnd
  rw [List.reverse_append]
  have := trimStart_blank (w := w.reverse) (s := s.reverse) (fun c hc => hw c (by simpa using hc))
  unfold trimStart at this
  rw [this]

theorem trimStart_appendBlank {s w : Str} (hw : Blank w) : trimStart (s ++ w) = trimStart s ++ w ∨ (Blank s ∧ trimStart (s ++ w) = []) := by
  induction s with
  | nil => right; exact ⟨fun c hc => by simp at hc, by
      have := trimStart_blank (w := w) (s := []) hw
      simpa [trimStart] using this⟩
  | cons c s ih =>
    by_cases hc : isWs c = true
    · have e1 : trimStart (c :: s ++ w) = trimStart (s ++ w) := by
        unfold trimStart; rw [List.cons_append, List.dropWhile_cons_of_pos hc]
      have e2 : trimStart (c :: s) = trimStart s := by
        unfold trimStart; rw [List.dropWhile_cons_of_pos hc]
      rw [e1, e2]
      rcases ih with h | ⟨h, h'⟩
      · exact .inl h
      · exact .inr ⟨fun x hx => by rcases List.mem_cons.1 hx with rfl | hx
                                   · exact hc
                                   · exact h x hx, h'⟩
    · left
      have : isWs c = false := by simpa using hc
      unfold trimStart
      rw [List.cons_append, List.dropWhile_cons_of_neg (by simp [this]), List.dropWhile_cons_of_neg (by simp [this])]
      rfl

theorem trim_blankEnd {w s : Str} (hw : Blank w) : trim (s ++ w) = trim s := by
  unfold trim
  rcases trimStart_appendBlank (s := s) hw with h | ⟨h, h'⟩
  · rw [h, trimEnd_blank hw]
  · rw [h']
    have : trimStart s = [] := by
      have := trimStart_blank (w := s) (s := []) h
      simpa [trimStart] using this
    rw [this]

theorem trim_outer {w1 w2 s : Str} (h1 : Blank w1) (h2 : Blank w2) : trim (w1 ++ (s ++ w2)) = trim s := by
  rw [trim_blankStart h1, trim_blankEnd h2]

/-- Evaluating without the white space at the start. -/
theorem produces_dropStart {env : Env} {R : Rec} {only : Str} {sh sh' : Shared} {inh inh' : Inherit} :
    ∀ {w s y : Str}, Blank w → Produces env R only (w ++ s) sh inh true y sh' inh' →
      ∃ z, y = w ++ z ∧ Produces env R only s sh inh true z sh' inh'
  | [], _, y, _, h => ⟨y, rfl, h⟩
  | c :: w, s, y, hw, h => by
    have hc : ¬ c!"{:" <+: c :: (w ++ s) := by
      rw [pair_prefix]
      rintro ⟨rfl, _⟩
      exact absurd (hw '{' (by simp)) (by decide)
    rcases produces_chr hc h with ⟨_, _, h3, _⟩ | ⟨_, z, rfl, hz⟩
    · simp at h3
    · obtain ⟨z', rfl, h'⟩ := produces_dropStart (fun x hx => hw x (by simp [hx])) hz
      exact ⟨z', rfl, h'⟩

theorem comment_shape {b : Str} (h : IsComment b) : ∃ x, b = c!"{:" ++ x ++ c!":}" := by
  obtain ⟨x, rfl, _⟩ := h
  exact ⟨c!"*" ++ x ++ c!"*", by simp⟩

theorem bif_shape {b : Str} (h : IsBif b) : ∃ x, b = c!"{:" ++ x ++ c!":}" := by
  obtain ⟨x, rfl, _⟩ := h
  exact ⟨x, rfl⟩

/-- Evaluating without the white space at the end. -/
theorem produces_dropEnd {env : Env} {R : Rec} {only s y : Str} {sh sh' : Shared} {inh inh' : Inherit} {e : Bool}
    (h : Produces env R only s sh inh e y sh' inh') : e = true → ∀ {a w : Str}, s = a ++ w → Blank w →
      ∃ z, y = z ++ w ∧ Produces env R only a sh inh true z sh' inh' := by
  induction h with
  | nil sh inh =>
    intro _ a w he _
    have : a = [] ∧ w = [] := List.append_eq_nil_iff.1 he.symm
    obtain ⟨rfl, rfl⟩ := this
    exact ⟨[], rfl, .nil _ _⟩
  | stop => intro he; simp at he
  | @chr s y sh sh' inh inh' e c h1 h2 h3 ih =>
    intro ht a w he hw
    cases a with
    | nil =>
      obtain rfl : c :: s = w := he
      subst ht
      obtain ⟨z, hz, hp⟩ := produces_dropStart hw (s := []) (by simpa using Produces.chr c h1 h2 h3)
      obtain ⟨_, rfl, rfl, rfl⟩ := produces_nil hp
      exact ⟨[], by simpa using hz, .nil _ _⟩
    | cons d a =>
      injection he with e1 e2
      subst e1; subst e2
      obtain ⟨z, rfl, hp⟩ := ih ht rfl hw
      refine ⟨c :: z, rfl, .chr c ?_ ?_ hp⟩
      · exact fun hx => h1 (hx.trans ⟨w, rfl⟩)
      · exact fun hx => h2 ⟨hx.1, hx.2.trans ⟨[], w, by simp⟩⟩
  | @comment b s y sh sh' inh inh' e h1 h2 h3 ih =>
    intro ht a w he hw
    obtain ⟨x, rfl⟩ := comment_shape h2
    obtain ⟨a', rfl, h4⟩ := block_blank hw he
    obtain ⟨z, rfl, hp⟩ := ih ht h4 hw
    exact ⟨z, rfl, .comment h1 h2 hp⟩
  | @skipped b s y sh sh' inh inh' e h1 h2 h3 h4 h5 ih =>
    intro ht a w he hw
    obtain ⟨x, rfl⟩ := bif_shape h2
    obtain ⟨a', rfl, h6⟩ := block_blank hw he
    obtain ⟨z, rfl, hp⟩ := ih ht h6 hw
    exact ⟨z, rfl, .skipped h1 h2 h3 h4 hp⟩
  | @evaluated b s x y sh sh1 sh' inh inh1 inh' e h1 h2 h3 h4 h5 ih =>
    intro ht a w he hw
    obtain ⟨x', rfl⟩ := bif_shape h2
    obtain ⟨a', rfl, h6⟩ := block_blank hw he
    obtain ⟨z, rfl, hp⟩ := ih ht h6 hw
    exact ⟨x ++ z, by simp, .evaluated h1 h2 h3 h4 hp⟩

/-- Evaluating a text or its trimmed form gives the same, up to the outer white space. -/
theorem produces_trim {env : Env} {R : Rec} {only s y : Str} {sh sh' : Shared} {inh inh' : Inherit}
    (h : Produces env R only s sh inh true y sh' inh') :
    ∃ z, Produces env R only (trim s) sh inh true z sh' inh' ∧ trim z = trim y := by
  obtain ⟨w1, w2, h1, h2, h3⟩ := trim_parts s
  rw [h1] at h
  obtain ⟨z1, rfl, hp⟩ := produces_dropStart h2 h
  obtain ⟨z, rfl, hp'⟩ := produces_dropEnd hp rfl rfl h3
  exact ⟨z, hp', (trim_outer h2 h3).symm⟩

end Nts
