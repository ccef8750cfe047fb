import Verif.Model.Str
/-
Printing and parsing of decimal numbers.
-/
set_option autoImplicit false
namespace Nts

theorem digitVal?_digitChar (n : Nat) (h : n < 10) : digitVal? (digitChar n) = some n := by
  have : ∀ m : Fin 10, digitVal? (digitChar m.1) = some m.1 := by decide
  exact this ⟨n, h⟩

theorem parseDigits_append (acc : Nat) (a b : Str) :
    parseDigits acc (a ++ b) = (parseDigits acc a).bind (fun n => parseDigits n b) := by
  induction a generalizing acc with
  | nil => rfl
  | cons c cs ih =>
    simp only [List.cons_append, parseDigits]
    cases digitVal? c with
    | none => rfl
    | some d => exact ih _

theorem parseDigits_digitsGo (f n : Nat) (acc : Str) (h : n < 10 ^ f) (hf : 0 < f) :
    parseDigits 0 (digitsGo f n acc) = parseDigits n acc := by
  induction f generalizing n acc with
  | zero => omega
  | succ f ih =>
    simp only [digitsGo]
    split
    · next h0 =>
      have hn : n < 10 := by omega
      have : n % 10 = n := Nat.mod_eq_of_lt hn
      simp [parseDigits, this, digitVal?_digitChar n hn]
    · next h0 =>
      have hf' : 0 < f := by
        rcases Nat.eq_zero_or_pos f with rfl | h'
        · simp at h; omega
        · exact h'
      rw [ih (n / 10) _ (by rw [Nat.pow_succ] at h; omega) hf']
      simp only [parseDigits, digitVal?_digitChar _ (Nat.mod_lt n (by decide : 10 > 0))]
      congr 1; omega

theorem lt_pow_succ (n : Nat) : n < 10 ^ (n + 1) := by
  induction n with
  | zero => decide
  | succ n ih => rw [Nat.pow_succ]; omega

theorem parseDigits_showNat (n : Nat) : parseDigits 0 (showNat n) = some n := by
  unfold showNat
  rw [parseDigits_digitsGo _ _ _ (lt_pow_succ n) (by omega)]; rfl

theorem digitsGo_ne_nil (f n : Nat) (acc : Str) (hf : 0 < f) : digitsGo f n acc ≠ [] := by
  induction f generalizing n acc with
  | zero => omega
  | succ f ih =>
    simp only [digitsGo]
    split
    · simp
    · rcases Nat.eq_zero_or_pos f with rfl | h
      · simp [digitsGo]
      · exact ih _ _ h

theorem showNat_ne_nil (n : Nat) : showNat n ≠ [] := digitsGo_ne_nil _ _ _ (by omega)

theorem parseNat1_showNat (n : Nat) : parseNat1 (showNat n) = some n := by
  unfold parseNat1
  have := showNat_ne_nil n
  cases h : showNat n with
  | nil => exact absurd h this
  | cons c cs => simp only [List.isEmpty_cons, Bool.false_eq_true, if_false]; rw [← h]; exact parseDigits_showNat n

theorem digitChar_isDigit (n : Nat) (h : n < 10) : digitChar n ∈ c!"0123456789" := by
  have : ∀ m : Fin 10, digitChar m.1 ∈ c!"0123456789" := by decide
  exact this ⟨n, h⟩

theorem digitsGo_digits (f n : Nat) (acc : Str) (hacc : ∀ c ∈ acc, c ∈ c!"0123456789") :
    ∀ c ∈ digitsGo f n acc, c ∈ c!"0123456789" := by
  induction f generalizing n acc with
  | zero => exact hacc
  | succ f ih =>
    simp only [digitsGo]
    have h1 : ∀ c ∈ digitChar (n % 10) :: acc, c ∈ c!"0123456789" := by
      intro c hc
      rcases List.mem_cons.1 hc with rfl | hc
      · exact digitChar_isDigit _ (Nat.mod_lt _ (by decide))
      · exact hacc c hc
    split
    · exact h1
    · exact ih _ _ h1

theorem showNat_digits (n : Nat) : ∀ c ∈ showNat n, c ∈ c!"0123456789" :=
  digitsGo_digits _ _ _ (by simp)

theorem parseU64_showNat (n : Nat) (h : n < 2 ^ 64) : parseU64 (showNat n) = some n := by
  unfold parseU64
  dsimp only
  cases hs : showNat n with
  | nil => exact absurd hs (showNat_ne_nil n)
  | cons c cs =>
    have : c ∈ c!"0123456789" := showNat_digits n c (by rw [hs]; simp)
    have hc : c ≠ '+' := by rintro rfl; revert this; decide
    simp only [hc, if_false]
    rw [← hs, parseNat1_showNat]
    simp [h]

theorem showNat_inj {a b : Nat} (h : showNat a = showNat b) : a = b := by
  have := parseDigits_showNat a
  rw [h, parseDigits_showNat] at this
  exact (Option.some.inj this).symm

theorem digitsGo_fuel (f g n : Nat) (acc : Str) (hf : n < 10 ^ f) (hg : n < 10 ^ g) (hf0 : 0 < f) (hg0 : 0 < g) :
    digitsGo f n acc = digitsGo g n acc := by
  induction f generalizing g n acc with
  | zero => omega
  | succ f ih =>
    cases g with
    | zero => omega
    | succ g =>
      simp only [digitsGo]
      split
      · rfl
      · rename_i h
        rw [Nat.pow_succ] at hf hg
        have h1 : 0 < f := by
          rcases Nat.eq_zero_or_pos f with rfl | h1
          · simp at hf; omega
          · exact h1
        have h2 : 0 < g := by
          rcases Nat.eq_zero_or_pos g with rfl | h2
          · simp at hg; omega
          · exact h2
        exact ih g (n / 10) _ (by omega) (by omega) h1 h2

theorem digitsGo_acc (f n : Nat) (acc : Str) : digitsGo f n acc = digitsGo f n [] ++ acc := by
  induction f generalizing n acc with
  | zero => rfl
  | succ f ih =>
    simp only [digitsGo]
    split
    · rfl
    · rw [ih (n / 10) (digitChar (n % 10) :: acc), ih (n / 10) [digitChar (n % 10)]]
      simp

theorem showNat_step (a d : Nat) (ha : 0 < a) (hd : d < 10) : showNat (a * 10 + d) = showNat a ++ [digitChar d] := by
  unfold showNat
  rw [digitsGo, if_neg (by omega), digitsGo_acc]
  have h1 : (a * 10 + d) / 10 = a := by omega
  have h2 : (a * 10 + d) % 10 = d := by omega
  rw [h1, h2]
  congr 1
  refine digitsGo_fuel _ _ _ _ ?_ (lt_pow_succ a) (by omega) (by omega)
  exact Nat.lt_of_lt_of_le (lt_pow_succ a) (Nat.pow_le_pow_right (by decide) (by omega))

theorem digitVal_char {c : Char} {d : Nat} (h : digitVal? c = some d) : d < 10 ∧ c = digitChar d := by
  unfold digitVal? at h
  dsimp only at h
  split at h
  · rename_i hc
    rw [Bool.and_eq_true, decide_eq_true_eq, decide_eq_true_eq] at hc
    injection h with h
    have key : ∀ m : Fin 10, Char.ofNat (48 + m.1) = digitChar m.1 := by decide
    refine ⟨by omega, ?_⟩
    have := key ⟨d, by omega⟩
    rw [← this]
    have h2 : 48 + d = c.toNat := by omega
    show c = Char.ofNat (48 + d)
    rw [h2, Char.ofNat_toNat]
  · exact absurd h (by simp)

theorem showNat_parse (s : Str) (a n : Nat) (ha : 0 < a) (h : parseDigits a s = some n) : showNat n = showNat a ++ s := by
  induction s generalizing a with
  | nil =>
    injection h with h
    rw [h, List.append_nil]
  | cons c s ih =>
    simp only [parseDigits] at h
    cases hd : digitVal? c with
    | none => rw [hd] at h; exact absurd h (by simp)
    | some d =>
      rw [hd] at h
      obtain ⟨h10, hc⟩ := digitVal_char hd
      rw [ih (a * 10 + d) (by omega) h, showNat_step a d ha h10, hc]
      simp

/-- Decimal texts without leading zeros are the ones that numbers are shown as. -/
theorem parse_canonical {s : Str} {n : Nat} (h : parseNat1 s = some n) (h0 : ¬ (c!"0" <+: s ∧ s.length ≠ 1)) : s = showNat n := by
  unfold parseNat1 at h
  cases s with
  | nil => exact absurd h (by simp)
  | cons c s =>
    simp only [List.isEmpty_cons, Bool.false_eq_true, if_false, parseDigits] at h
    cases hd : digitVal? c with
    | none => rw [hd] at h; exact absurd h (by simp)
    | some d =>
      rw [hd] at h
      obtain ⟨h10, hc⟩ := digitVal_char hd
      simp only [Nat.zero_mul, Nat.zero_add] at h
      have hsd : showNat d = [digitChar d] := by
        have : ∀ m : Fin 10, showNat m.1 = [digitChar m.1] := by decide
        exact this ⟨d, h10⟩
      rcases Nat.eq_zero_or_pos d with rfl | hp
      · cases s with
        | nil =>
          injection h with h
          rw [← h, hsd, hc]
        | cons b s =>
          refine absurd ⟨?_, by simp⟩ h0
          rw [hc]
          exact ⟨b :: s, rfl⟩
      · rw [showNat_parse s d n hp h, hsd, hc]
        rfl

theorem parseI32_showInt (i : Int) (h : -(2 ^ 31) ≤ i ∧ i < 2 ^ 31) : parseI32 (showInt i) = some i := by
  unfold parseI32 showInt
  by_cases hi : i < 0
  · simp only [hi, if_true, parseNat1_showNat, Option.map_some]
    have : -((i.natAbs : Int)) = i := by omega
    rw [this, if_pos h]
  · simp only [hi, if_false]
    cases hs : showNat i.natAbs with
    | nil => exact absurd hs (showNat_ne_nil _)
    | cons c cs =>
      have hc : c ∈ c!"0123456789" := showNat_digits i.natAbs c (by rw [hs]; simp)
      have h1 : c ≠ '+' := by rintro rfl; revert hc; decide
      have h2 : c ≠ '-' := by rintro rfl; revert hc; decide
      simp only [h1, h2, if_false]
      rw [← hs, parseNat1_showNat]
      have : (i.natAbs : Int) = i := by omega
      simp only [Option.map_some, this]
      rw [if_pos h]

theorem showInt_inj {a b : Int} (h : showInt a = showInt b) : a = b := by
  unfold showInt at h
  have key : ∀ n (s : Str), showNat n ≠ '-' :: s := by
    intro n s hs
    have : '-' ∈ c!"0123456789" := showNat_digits n '-' (by rw [hs]; simp)
    revert this; decide
  by_cases ha : a < 0 <;> by_cases hb : b < 0 <;> simp only [ha, hb, if_true, if_false] at h
  · have := showNat_inj (List.cons.inj h).2; omega
  · exact absurd h.symm (key _ _)
  · exact absurd h (key _ _)
  · have := showNat_inj h; omega

end Nts
