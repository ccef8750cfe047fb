import Verif.Model.Bytes
import Verif.Lemmas.Str
/-
UTF-8: where the bytes of a character can be confused with those of another one (nowhere).
-/
set_option autoImplicit false
namespace Nts.B

/-- Number of bytes. -/
def bl (s : Str) : Nat := (utf8 s).length

@[simp] theorem utf8_nil : utf8 [] = [] := rfl
theorem utf8_cons (c : Char) (s : Str) : utf8 (c :: s) = String.utf8EncodeChar c ++ utf8 s := rfl
@[simp] theorem utf8_append (a b : Str) : utf8 (a ++ b) = utf8 a ++ utf8 b := by simp [utf8]
@[simp] theorem bl_nil : bl [] = 0 := rfl
@[simp] theorem bl_append (a b : Str) : bl (a ++ b) = bl a + bl b := by simp [bl]

theorem byteLen_eq (s : Str) : byteLen s = bl s := by
  induction s with
  | nil => rfl
  | cons c s ih =>
    simp only [byteLen, bl, utf8_cons, List.map_cons, List.sum_cons, List.length_append, String.length_utf8EncodeChar] at *
    omega

/-- A character below 128 is one byte, of the same value. -/
theorem enc_ascii {c : Char} (h : c.toNat < 128) : ∃ b, String.utf8EncodeChar c = [b] ∧ b.toNat = c.toNat := by
  refine ⟨UInt8.ofNat c.toNat, ?_, ?_⟩
  · unfold String.utf8EncodeChar
    exact if_pos (by show c.toNat ≤ 127; omega)
  · simp; omega

/-- Any other one is a first byte of at least 192 and continuation bytes. -/
theorem enc_multi {c : Char} (h : 128 ≤ c.toNat) : ∃ b bs, String.utf8EncodeChar c = b :: bs ∧ 192 ≤ b.toNat ∧ bs ≠ [] ∧
    ∀ x ∈ bs, 128 ≤ x.toNat ∧ x.toNat < 192 := by
  unfold String.utf8EncodeChar
  have hv : c.val.toNat = c.toNat := rfl
  simp only [hv]
  rw [if_neg (by omega)]
  split
  · refine ⟨_, _, rfl, ?_, by simp, ?_⟩
    · simp; omega
    · intro x hx; simp at hx; subst hx; simp; omega
  · split
    · refine ⟨_, _, rfl, ?_, by simp, ?_⟩
      · simp; omega
      · intro x hx; simp at hx; rcases hx with hx | hx <;> subst hx <;> simp <;> omega
    · refine ⟨_, _, rfl, ?_, by simp, ?_⟩
      · simp; omega
      · intro x hx; simp at hx; rcases hx with hx | hx | hx <;> subst hx <;> simp <;> omega

/-- First byte and the rest. -/
theorem enc_shape (c : Char) : ∃ b bs, String.utf8EncodeChar c = b :: bs ∧ (b.toNat < 128 ∨ 192 ≤ b.toNat) ∧
    (∀ x ∈ bs, 128 ≤ x.toNat ∧ x.toNat < 192) ∧ (c.toNat < 128 → bs = [] ∧ b.toNat = c.toNat) ∧
    (128 ≤ c.toNat → 192 ≤ b.toNat ∧ bs ≠ []) := by
  by_cases h : c.toNat < 128
  · obtain ⟨b, h1, h2⟩ := enc_ascii h
    exact ⟨b, [], h1, .inl (by omega), by simp, fun _ => ⟨rfl, h2⟩, fun h' => absurd h (by omega)⟩
  · obtain ⟨b, bs, h1, h2, h3, h4⟩ := enc_multi (by omega : 128 ≤ c.toNat)
    exact ⟨b, bs, h1, .inr h2, h4, fun h' => absurd h' h, fun _ => ⟨h2, h3⟩⟩

/-- UTF-8 is prefix free. -/
theorem enc_inj {c d : Char} {x y : Bytes} (h : String.utf8EncodeChar c ++ x = String.utf8EncodeChar d ++ y) :
    c = d ∧ x = y := by
  have h1 := congrArg List.toByteArray h
  rw [List.toByteArray_append, List.toByteArray_append] at h1
  have h2 := congrArg (fun b => ByteArray.utf8DecodeChar? b 0) h1
  simp only [ByteArray.utf8DecodeChar?_utf8EncodeChar_append, Option.some.injEq] at h2
  subst h2
  exact ⟨rfl, List.append_cancel_left h⟩

theorem utf8_inj {a b : Str} (h : utf8 a = utf8 b) : a = b := by
  induction a generalizing b with
  | nil =>
    cases b with
    | nil => rfl
    | cons d b =>
      obtain ⟨x, xs, hx, _⟩ := enc_shape d
      rw [utf8_cons, hx] at h; simp at h
  | cons c a ih =>
    cases b with
    | nil =>
      obtain ⟨x, xs, hx, _⟩ := enc_shape c
      rw [utf8_cons, hx] at h; simp at h
    | cons d b =>
      rw [utf8_cons, utf8_cons] at h
      obtain ⟨h1, h2⟩ := enc_inj h
      rw [h1, ih h2]

/-- Prefixes of bytes are prefixes of characters. -/
theorem utf8_prefix {p s : Str} : utf8 p <+: utf8 s ↔ p <+: s := by
  constructor
  · intro h
    induction p generalizing s with
    | nil => exact List.nil_prefix
    | cons c p ih =>
      obtain ⟨t, ht⟩ := h
      cases s with
      | nil =>
        obtain ⟨x, xs, hx, _⟩ := enc_shape c
        rw [utf8_cons, hx] at ht; simp at ht
      | cons d s =>
        rw [utf8_cons, utf8_cons, List.append_assoc] at ht
        obtain ⟨h1, h2⟩ := enc_inj ht
        subst h1
        obtain ⟨u, hu⟩ := ih ⟨t, h2⟩
        exact ⟨u, by rw [← hu]; rfl⟩
  · rintro ⟨t, rfl⟩
    exact ⟨utf8 t, (utf8_append p t).symm⟩

/-- A pattern does not occur inside a character. -/
theorem findB_cont {p : Str} (hp : p ≠ []) (r : Bytes) : ∀ (xs : Bytes), (∀ x ∈ xs, 128 ≤ x.toNat ∧ x.toNat < 192) →
    findB (utf8 p) (xs ++ r) = (findB (utf8 p) r).map (· + xs.length) := by
  intro xs
  induction xs with
  | nil => intro _; simp
  | cons x xs ih =>
    intro h
    obtain ⟨c, p', rfl⟩ := List.exists_cons_of_ne_nil hp
    obtain ⟨b, bs, hb, hc, _⟩ := enc_shape c
    have hx := h x (by simp)
    have : ¬ (utf8 (c :: p') <+: x :: (xs ++ r)) := by
      rw [utf8_cons, hb]
      rintro ⟨t, ht⟩
      simp only [List.cons_append, List.cons.injEq] at ht
      rw [ht.1] at hc
      omega
    rw [List.cons_append, findB, if_neg this, ih (fun y hy => h y (by simp [hy]))]
    cases findB (utf8 (c :: p')) r <;> simp
    omega

/-- `str::find` on bytes is `find` on characters. -/
theorem findB_eq {p : Str} (hp : p ≠ []) (s : Str) : findB (utf8 p) (utf8 s) = (find p s).map (fun n => bl (s.take n)) := by
  induction s with
  | nil =>
    have : utf8 p ≠ [] := by
      intro h
      exact hp (utf8_inj (b := []) h)
    have h2 : find p [] = none := by
      unfold find splitOnce; rw [if_neg hp]; rfl
    rw [h2]
    simp only [utf8_nil, findB, if_neg this]; rfl
  | cons c s ih =>
    by_cases h : p <+: c :: s
    · have h1 : find p (c :: s) = some 0 := by
        obtain ⟨t, ht⟩ := h
        unfold find splitOnce
        rw [← ht, stripPrefix?_append]; rfl
      obtain ⟨b, bs, hb, _⟩ := enc_shape c
      have h2 := utf8_prefix.2 h
      rw [h1, utf8_cons, hb, List.cons_append]
      rw [utf8_cons, hb, List.cons_append] at h2
      rw [findB, if_pos h2]; rfl
    · have h1 : find p (c :: s) = (find p s).map (· + 1) := by
        unfold find
        conv => lhs; unfold splitOnce
        rw [stripPrefix?_eq_none.2 h]
        dsimp only
        cases splitOnce p s <;> simp
      obtain ⟨b, bs, hb, _, hcont, _⟩ := enc_shape c
      have h2 : ¬ utf8 p <+: utf8 (c :: s) := fun h' => h (utf8_prefix.1 h')
      have hlen : bl [c] = bs.length + 1 := by simp [bl, utf8, hb]
      rw [h1]
      rw [utf8_cons, hb, List.cons_append] at h2 ⊢
      rw [findB, if_neg h2, findB_cont hp _ bs hcont, ih]
      cases find p s with
      | none => rfl
      | some n =>
        simp only [Option.map_some, List.take_succ_cons, Option.some.injEq]
        have : bl (c :: s.take n) = bl [c] + bl (s.take n) := bl_append [c] _
        rw [this, hlen]; omega

/-! ### positions -/

theorem drop_bl (a b : Str) : (utf8 (a ++ b)).drop (bl a) = utf8 b := by
  rw [utf8_append, bl, List.drop_left]

theorem take_bl (a b : Str) : (utf8 (a ++ b)).take (bl a) = utf8 a := by
  rw [utf8_append, bl, List.take_left]

theorem bl_pos {a : Str} (h : a ≠ []) : 0 < bl a := by
  obtain ⟨c, r, rfl⟩ := List.exists_cons_of_ne_nil h
  obtain ⟨b, bs, hb, _⟩ := enc_shape c
  simp [bl, utf8_cons, hb]

/-- The byte after a prefix is the first byte of the next character. -/
theorem get_first (a : Str) (c : Char) (r : Str) : ∃ b, (utf8 (a ++ c :: r))[bl a]? = some b ∧ (b.toNat < 128 ∨ 192 ≤ b.toNat) ∧
    ∀ d : Char, d.toNat < 128 → (b.toNat = d.toNat ↔ c = d) := by
  obtain ⟨b, bs, hb, hc, _, h1, h2⟩ := enc_shape c
  refine ⟨b, ?_, hc, ?_⟩
  · rw [utf8_append, bl, List.getElem?_append_right (by omega), utf8_cons, hb]; simp
  · intro d hd
    constructor
    · intro h
      by_cases hc : c.toNat < 128
      · have := (h1 hc).2
        exact Char.ext (UInt32.toNat_inj.1 (by show c.toNat = d.toNat; omega))
      · have := (h2 (by omega)).1; omega
    · intro h; subst h; exact (h1 hd).2

/-- The byte before a position is the last byte of the character before it. -/
theorem get_last (a : Str) (c : Char) (r : Str) : ∃ b, (utf8 (a ++ c :: r))[bl (a ++ [c]) - 1]? = some b ∧
    ∀ d : Char, d.toNat < 128 → (b.toNat = d.toNat ↔ c = d) := by
  obtain ⟨b, bs, hb, hc, hcont, h1, h2⟩ := enc_shape c
  have hlen : bl (a ++ [c]) = bl a + (bs.length + 1) := by simp [bl, utf8_cons, hb]
  have hidx : bl (a ++ [c]) - 1 = bl a + bs.length := by omega
  have hget : ∀ k, (utf8 (a ++ c :: r))[bl a + k]? = ((b :: bs) ++ utf8 r)[k]? := by
    intro k
    rw [utf8_append, bl, List.getElem?_append_right (by omega), utf8_cons, hb]
    congr 1; omega
  by_cases hca : c.toNat < 128
  · obtain ⟨hbs, hbc⟩ := h1 hca
    refine ⟨b, ?_, ?_⟩
    · rw [hidx, hget, hbs]; rfl
    · intro d hd
      constructor
      · intro h
        exact Char.ext (UInt32.toNat_inj.1 (by show c.toNat = d.toNat; omega))
      · intro h; subst h; exact hbc
  · obtain ⟨h3, h4⟩ := h2 (by omega)
    have hlast := List.getLast_mem h4
    refine ⟨bs.getLast h4, ?_, ?_⟩
    · rw [hidx, hget, List.getElem?_append_left (by simp), List.getLast_eq_getElem]
      have : bs.length ≠ 0 := by simpa using h4
      obtain ⟨m, hm⟩ : ∃ m, bs.length = m + 1 := ⟨bs.length - 1, by omega⟩
      simp only [hm, List.getElem?_cons_succ]
      rw [List.getElem?_eq_getElem (by omega)]; rfl
    · intro d hd
      have := hcont _ hlast
      constructor
      · intro h; omega
      · intro h; subst h; omega

theorem isBoundary_bl (a b : Str) : isBoundary (utf8 (a ++ b)) (bl a) = true := by
  cases ha : a with
  | nil => rfl
  | cons x xs =>
    rw [← ha]
    have hp : 0 < bl a := bl_pos (by rw [ha]; simp)
    obtain ⟨n, hn⟩ : ∃ n, bl a = n + 1 := ⟨bl a - 1, by omega⟩
    have : isBoundary (utf8 (a ++ b)) (bl a) = (match (utf8 (a ++ b))[bl a]? with
      | some x => decide (x.toNat < 128) || decide (192 ≤ x.toNat)
      | none => bl a == (utf8 (a ++ b)).length) := by
      rw [hn]; rfl
    rw [this]
    cases hb : b with
    | nil =>
      have : (utf8 (a ++ []))[bl a]? = none := by
        rw [List.getElem?_eq_none_iff]; simp [bl]
      rw [this]; simp [bl]
    | cons c r =>
      obtain ⟨y, hy, hyc, _⟩ := get_first a c r
      rw [hy]; simpa using hyc

theorem sliceFrom_bl (a b : Str) : sliceFrom (utf8 (a ++ b)) (bl a) = .ok (utf8 b) := by
  unfold sliceFrom; rw [if_pos (isBoundary_bl a b), drop_bl]

theorem sliceB_bl (a b c : Str) : sliceB (utf8 (a ++ b ++ c)) (bl a) (bl (a ++ b)) = .ok (utf8 b) := by
  unfold sliceB
  rw [if_pos]
  · rw [List.append_assoc, drop_bl]
    have : bl (a ++ b) - bl a = bl b := by simp
    rw [this, take_bl]
  · simp only [Bool.and_eq_true, decide_eq_true_eq]
    refine ⟨⟨by simp, ?_⟩, isBoundary_bl _ _⟩
    rw [List.append_assoc]; exact isBoundary_bl _ _

theorem byteAt_first (a : Str) (c : Char) (r : Str) : ∃ b, byteAt (utf8 (a ++ c :: r)) (bl a) = .ok b ∧
    ∀ d : Char, d.toNat < 128 → (b.toNat = d.toNat ↔ c = d) := by
  obtain ⟨b, h1, _, h2⟩ := get_first a c r
  exact ⟨b, by rw [byteAt, h1], h2⟩

theorem byteAt_last (a : Str) (c : Char) (r : Str) : ∃ b, byteAt (utf8 (a ++ c :: r)) (bl (a ++ [c]) - 1) = .ok b ∧
    ∀ d : Char, d.toNat < 128 → (b.toNat = d.toNat ↔ c = d) := by
  obtain ⟨b, h1, h2⟩ := get_last a c r
  exact ⟨b, by rw [byteAt, h1], h2⟩

theorem byteAt_end (s : Str) : byteAt (utf8 s) (bl s) = .error .panic := by
  unfold byteAt
  have : (utf8 s)[bl s]? = none := by rw [List.getElem?_eq_none_iff]; exact Nat.le_refl _
  rw [this]

/-- A character below 128 takes one byte. -/
theorem bl_ascii {c : Char} (h : c.toNat < 128) : bl [c] = 1 := by
  obtain ⟨b, h1, _⟩ := enc_ascii h
  simp [bl, utf8, h1]

end Nts.B
