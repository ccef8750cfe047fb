import Verif.Model.Cost
import Verif.Props.Allow
import Mathlib.Tactic.Ring
/-
C98: how long matching a word with wild cards takes.
-/
set_option autoImplicit false
namespace Nts

/-- How often a character is in a pattern. -/
abbrev Spec.times (c : Char) (p : Str) : Nat := p.count c

open Spec

theorem starCost_eq (rest : Str → Bool × Nat) (f : Str → Bool) (h : ∀ t, (rest t).1 = f t) (t : Str) :
    (starCost rest t).1 = starMatch f t := by
  induction t with
  | nil => simp only [starCost, starMatch, h]; try simp
  | cons c cs ih =>
    simp only [starCost, starMatch]
    rw [← h, ← ih]
    cases (rest (c :: cs)).1 <;> simp

theorem matchCost_eq : ∀ (p t : Str), (matchCost p t).1 = matchRec p t
  | [], t => by simp [matchCost, matchRec]
  | p :: rest, t => by
    have ih := matchCost_eq rest
    unfold matchCost matchRec
    split
    · cases rest with
      | nil => rfl
      | cons e rest' =>
        cases t with
        | nil => rfl
        | cons c cs => simp only [matchCost_eq rest' cs]
    · split
      · rw [← ih t]
        cases t with
        | nil => dsimp only; cases h : (matchCost rest []).1 <;> simp
        | cons c cs => dsimp only; rw [← ih cs]; cases h : (matchCost rest (c :: cs)).1 <;> simp
      · split
        · cases t with
          | nil => rfl
          | cons c cs => exact ih cs
        · split
          · exact starCost_eq _ _ ih t
          · split
            · rfl
            · cases t with
              | nil => rfl
              | cons c cs =>
                dsimp only
                split
                · rfl
                · exact ih cs

theorem starCost_le (rest : Str → Bool × Nat) (B : Nat) (t : Str) (h : ∀ s, s <:+ t → (rest s).2 ≤ B) :
    (starCost rest t).2 ≤ (t.length + 1) * (B + 1) := by
  induction t with
  | nil => simp only [starCost]; have := h [] (List.suffix_refl _); simp; omega
  | cons c cs ih =>
    have h1 := h (c :: cs) (List.suffix_refl _)
    have h2 := ih (fun s hs => h s (hs.trans (List.suffix_cons c cs)))
    have e : ((c :: cs).length + 1) * (B + 1) = (cs.length + 1) * (B + 1) + (B + 1) := by simp; ring
    simp only [starCost]
    rw [e]
    split
    · have : 0 ≤ (cs.length + 1) * (B + 1) := Nat.zero_le _
      simp only
      omega
    · simp only
      omega

/-- The bound. -/
def bound (p : Str) (n : Nat) : Nat := (p.length + 1) * (n + 1) ^ p.count '*' * 2 ^ p.count '.'

theorem bound_pos (p : Str) (n : Nat) : 1 ≤ (n + 1) ^ p.count '*' * 2 ^ p.count '.' :=
  Nat.mul_pos (Nat.pow_pos (Nat.succ_pos n)) (Nat.pow_pos (by decide))

theorem bound_mono (p : Str) {m n : Nat} (h : m ≤ n) : bound p m ≤ bound p n := by
  unfold bound
  exact Nat.mul_le_mul_right _ (Nat.mul_le_mul_left _ (Nat.pow_le_pow_left (by omega) _))

/-- A longer pattern with one call more. -/
theorem bound_cons (c : Char) (p : Str) (n : Nat) : bound p n + 1 ≤ bound (c :: p) n := by
  have h1 := bound_pos p n
  unfold bound
  have e1 : (n + 1) ^ p.count '*' ≤ (n + 1) ^ (c :: p).count '*' :=
    Nat.pow_le_pow_right (by omega) (List.count_le_count_cons ..)
  have e2 : 2 ^ p.count '.' ≤ 2 ^ (c :: p).count '.' := Nat.pow_le_pow_right (by omega) (List.count_le_count_cons ..)
  have e3 := Nat.mul_le_mul e1 e2
  have e4 := Nat.mul_le_mul_left (p.length + 2) e3
  have : (c :: p).length + 1 = p.length + 2 := by simp
  rw [this]
  calc (p.length + 1) * (n + 1) ^ p.count '*' * 2 ^ p.count '.' + 1
      ≤ (p.length + 1) * ((n + 1) ^ p.count '*' * 2 ^ p.count '.') + (n + 1) ^ p.count '*' * 2 ^ p.count '.' := by
        rw [Nat.mul_assoc]; omega
    _ = (p.length + 2) * ((n + 1) ^ p.count '*' * 2 ^ p.count '.') := by ring
    _ ≤ (p.length + 2) * ((n + 1) ^ (c :: p).count '*' * 2 ^ (c :: p).count '.') := e4
    _ = _ := by ring

theorem bound_ge_one (p : Str) (n : Nat) : 1 ≤ bound p n := by
  unfold bound
  rw [Nat.mul_assoc]
  exact Nat.mul_pos (Nat.succ_pos _) (bound_pos p n)

theorem cost_le : ∀ (p t : Str), (matchCost p t).2 ≤ bound p t.length
  | [], t => by simp [matchCost, bound]
  | p :: rest, t => by
    have ih := cost_le rest
    have hone : ∀ q n, 1 ≤ bound q n := bound_ge_one
    unfold matchCost
    split
    · cases rest with
      | nil => exact hone _ _
      | cons e rest' =>
        cases t with
        | nil => exact hone _ _
        | cons c cs =>
          dsimp only
          have h1 := cost_le rest' cs
          have h2 := bound_cons e rest' cs.length
          have h3 := bound_cons p (e :: rest') cs.length
          have h4 := bound_mono (p :: e :: rest') (m := cs.length) (n := (c :: cs).length) (by simp)
          omega
    · split
      · next _ hp =>
        subst hp
        have hdot : ∀ n, 2 * bound rest n + 1 ≤ bound ('.' :: rest) n := by
          intro n
          have h1 := bound_pos rest n
          have e1 : ('.' :: rest).count '*' = rest.count '*' := by simp
          have e2 : ('.' :: rest).count '.' = rest.count '.' + 1 := by simp
          unfold bound
          rw [e1, e2, Nat.pow_succ]
          have : ('.' :: rest).length + 1 = rest.length + 2 := by simp
          rw [this]
          have : (rest.length + 2) * (n + 1) ^ rest.count '*' * (2 ^ rest.count '.' * 2) =
              2 * ((rest.length + 1) * (n + 1) ^ rest.count '*' * 2 ^ rest.count '.') +
                2 * ((n + 1) ^ rest.count '*' * 2 ^ rest.count '.') := by ring
          rw [this]
          omega
        have h1 := ih t
        have h2 := hdot t.length
        dsimp only
        split
        · simp only; omega
        · cases t with
          | nil => simp only at *; omega
          | cons c cs =>
            have h3 := ih cs
            have h4 := bound_mono rest (m := cs.length) (n := (c :: cs).length) (by simp)
            simp only at *
            omega
      · split
        · cases t with
          | nil => exact hone _ _
          | cons c cs =>
            dsimp only
            have h1 := ih cs
            have h2 := bound_cons p rest cs.length
            have h4 := bound_mono (p :: rest) (m := cs.length) (n := (c :: cs).length) (by simp)
            omega
        · split
          · next _ _ _ hp =>
            subst hp
            have h1 := starCost_le (matchCost rest) (bound rest t.length) t (fun s hs =>
              Nat.le_trans (ih s) (bound_mono rest hs.length_le))
            refine Nat.le_trans h1 ?_
            have h2 := bound_pos rest t.length
            have e1 : ('*' :: rest).count '*' = rest.count '*' + 1 := by simp
            have e2 : ('*' :: rest).count '.' = rest.count '.' := by simp
            unfold bound
            rw [e1, e2, Nat.pow_succ]
            have : ('*' :: rest).length + 1 = rest.length + 2 := by simp
            rw [this]
            have e3 : (rest.length + 2) * ((t.length + 1) ^ rest.count '*' * (t.length + 1)) * 2 ^ rest.count '.' =
                (t.length + 1) * ((rest.length + 1) * (t.length + 1) ^ rest.count '*' * 2 ^ rest.count '.' +
                  (t.length + 1) ^ rest.count '*' * 2 ^ rest.count '.') := by ring
            rw [e3]
            exact Nat.mul_le_mul_left _ (by omega)
          · split
            · exact hone _ _
            · cases t with
              | nil => exact hone _ _
              | cons c cs =>
                dsimp only
                split
                · exact hone _ _
                · have h1 := ih cs
                  have h2 := bound_cons p rest cs.length
                  have h4 := bound_mono (p :: rest) (m := cs.length) (n := (c :: cs).length) (by simp)
                  dsimp only
                  omega

/-- **C98 (the time of a match).** Deciding whether a text matches a pattern takes at most
`(|pattern| + 1) · (|text| + 1) ^ (number of *) · 2 ^ (number of .)` calls: for a given pattern a polynomial in the length of the
text.  (The counted recursion gives the same answers as `wildcard_match`.) -/
theorem C98_bound (p t : Str) : (matchCost p t).1 = wildcardMatch t p ∧
    (matchCost p t).2 ≤ (p.length + 1) * (t.length + 1) ^ times '*' p * 2 ^ times '.' p :=
  ⟨matchCost_eq p t, cost_le p t⟩

/-- **C98 (without `*` and `.`).** Then the time is linear in the pattern, whatever the text. -/
theorem C98_linear (p t : Str) (h : '*' ∉ p) (h' : '.' ∉ p) : (matchCost p t).2 ≤ p.length + 1 := by
  have := cost_le p t
  unfold bound at this
  rw [List.count_eq_zero.2 h, List.count_eq_zero.2 h'] at this
  simpa using this

/-! ### it is exponential in the pattern -/

theorem cost_star (rest t : Str) : matchCost ('*' :: rest) t = starCost (matchCost rest) t := by
  unfold matchCost
  rw [if_neg (by decide), if_neg (by decide), if_neg (by decide), if_pos rfl]

/-- `n` stars and a letter that is not in the text. -/
def stars (n : Nat) : Str := List.replicate n '*' ++ c!"b"

theorem stars_cost (n : Nat) : ∀ m, n ≤ m →
    (matchCost (stars n) (List.replicate m 'a')).1 = false ∧ 2 ^ n ≤ (matchCost (stars n) (List.replicate m 'a')).2 := by
  have hfalse : ∀ n m, (matchCost (stars n) (List.replicate m 'a')).1 = false := by
    intro n
    induction n with
    | zero => intro m; cases m <;> simp [stars, matchCost, List.replicate_succ]
    | succ n ih =>
      intro m
      have e : stars (n + 1) = '*' :: stars n := by simp [stars, List.replicate_succ]
      rw [e, cost_star]
      induction m with
      | zero => simp only [List.replicate_zero, starCost]; exact ih 0
      | succ m ihm =>
        have h := ih (m + 1)
        rw [List.replicate_succ] at h ⊢
        simp only [starCost, h, Bool.false_eq_true, if_false]
        exact ihm
  have hstep : ∀ n m, (matchCost (stars (n + 1)) (List.replicate (m + 1) 'a')).2 =
      (matchCost (stars n) (List.replicate (m + 1) 'a')).2 + (matchCost (stars (n + 1)) (List.replicate m 'a')).2 + 1 := by
    intro n m
    have e : stars (n + 1) = '*' :: stars n := by simp [stars, List.replicate_succ]
    have h := hfalse n (m + 1)
    rw [e, cost_star, cost_star]
    rw [List.replicate_succ] at h ⊢
    simp only [starCost, h, Bool.false_eq_true, if_false]
  have hone : ∀ n m, (matchCost (stars n) (List.replicate m 'a')).2 ≤ (matchCost (stars (n + 1)) (List.replicate m 'a')).2 := by
    intro n m
    have e : stars (n + 1) = '*' :: stars n := by simp [stars, List.replicate_succ]
    cases m with
    | zero =>
      rw [e, cost_star]
      simp only [List.replicate_zero, starCost]
      omega
    | succ m => rw [hstep]; omega
  induction n with
  | zero => intro m _; refine ⟨hfalse 0 m, ?_⟩; cases m <;> simp [stars, matchCost, List.replicate_succ]
  | succ n ih =>
    intro m hm
    obtain ⟨m, rfl⟩ : ∃ k, m = k + 1 := ⟨m - 1, by omega⟩
    refine ⟨hfalse _ _, ?_⟩
    rw [hstep, Nat.pow_succ]
    have h1 := (ih (m + 1) (by omega)).2
    have h2 := (ih m (by omega)).2
    have h3 := hone n m
    omega

/-- **C98 (refuted: a polynomial in the length of both).** For every `n` there is a pattern of `n + 1` characters and a text of `n`
characters for which deciding the match takes at least `2 ^ n` calls. -/
theorem C98_exponential_refuted (n : Nat) : ∃ p t : Str, p.length = n + 1 ∧ t.length = n ∧ 2 ^ n ≤ (matchCost p t).2 :=
  ⟨stars n, List.replicate n 'a', by simp [stars], by simp, (stars_cost n n (Nat.le_refl n)).2⟩

/-- The bound of `C98_bound` for a pattern with a star and a text: 7 · 6 · 1. -/
example : (matchCost c!"a*b?~c" c!"axxbx").2 ≤ 42 := (C98_bound c!"a*b?~c" c!"axxbx").2

end Nts
