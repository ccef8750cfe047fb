import Verif.Lemmas.Str
import Verif.Lemmas.Num
import Verif.Spec.Clean
/-
C95: the script that removes old entries of the cache removes those, and nothing else.
-/
set_option autoImplicit false
namespace Nts.Clean
open Spec

/-! ### Characters and names -/

theorem hex_iff (c : Char) : hex c = true ↔ c ∈ c!"0123456789abcdefABCDEF" := by
  constructor
  · intro h
    have h' : (48 ≤ c.toNat ∧ c.toNat ≤ 57) ∨ (97 ≤ c.toNat ∧ c.toNat ≤ 102) ∨ (65 ≤ c.toNat ∧ c.toNat ≤ 70) := by
      simp only [hex, Bool.or_eq_true, Bool.and_eq_true, decide_eq_true_eq, Char.le_def, UInt32.le_iff_toNat_le] at h
      have e : ∀ x : Char, x.val.toNat = x.toNat := fun _ => rfl
      simp only [e] at h
      rcases h with (h | h) | h
      · exact .inl h
      · exact .inr (.inl h)
      · exact .inr (.inr h)
    have hc : c = Char.ofNat c.toNat := (Char.ofNat_toNat c).symm
    generalize c.toNat = n at h' hc
    subst hc
    rcases h' with ⟨a, b⟩ | ⟨a, b⟩ | ⟨a, b⟩
    · exact (by decide : ∀ n < 58, 48 ≤ n → Char.ofNat n ∈ c!"0123456789abcdefABCDEF") n (by omega) a
    · exact (by decide : ∀ n < 103, 97 ≤ n → Char.ofNat n ∈ c!"0123456789abcdefABCDEF") n (by omega) a
    · exact (by decide : ∀ n < 71, 65 ≤ n → Char.ofNat n ∈ c!"0123456789abcdefABCDEF") n (by omega) a
  · exact (by decide : ∀ c ∈ c!"0123456789abcdefABCDEF", hex c = true) c

theorem dec_iff (c : Char) : dec c = true ↔ c ∈ c!"0123456789" := by
  constructor
  · intro h
    have h' : 48 ≤ c.toNat ∧ c.toNat ≤ 57 := by
      simp only [dec, Bool.and_eq_true, decide_eq_true_eq, Char.le_def, UInt32.le_iff_toNat_le] at h
      exact h
    have hc : c = Char.ofNat c.toNat := (Char.ofNat_toNat c).symm
    generalize c.toNat = n at h' hc
    subst hc
    obtain ⟨a, b⟩ := h'
    exact (by decide : ∀ n < 58, 48 ≤ n → Char.ofNat n ∈ c!"0123456789") n (by omega) a
  · exact (by decide : ∀ c ∈ c!"0123456789", dec c = true) c

theorem oct_iff (c : Char) : (decide ('0' ≤ c) && decide (c ≤ '7')) = true ↔ c ∈ c!"01234567" := by
  constructor
  · intro h
    have h' : 48 ≤ c.toNat ∧ c.toNat ≤ 55 := by
      simp only [Bool.and_eq_true, decide_eq_true_eq, Char.le_def, UInt32.le_iff_toNat_le] at h
      exact h
    have hc : c = Char.ofNat c.toNat := (Char.ofNat_toNat c).symm
    generalize c.toNat = n at h' hc
    subst hc
    obtain ⟨a, b⟩ := h'
    exact (by decide : ∀ n < 56, 48 ≤ n → Char.ofNat n ∈ c!"01234567") n (by omega) a
  · exact (by decide : ∀ c ∈ c!"01234567", (decide ('0' ≤ c) && decide (c ≤ '7')) = true) c

theorem all_hex (s : Str) : s.all hex = true ↔ Hexes s := by simp only [List.all_eq_true, hex_iff, Hexes]

theorem all_dec (s : Str) : s.all dec = true ↔ Decs s := by simp only [List.all_eq_true, dec_iff, Decs]

theorem isHex3_iff (n : Str) : isHex3 n = true ↔ DirName n := by
  simp only [isHex3, Bool.and_eq_true, beq_iff_eq, all_hex, DirName]

theorem lifeOf_iff (n d : Str) : lifeOf n = some d ↔ EntryName n d := by
  unfold lifeOf
  constructor
  · intro h
    split at h
    · cases h
    · next a b hs =>
      split at h
      · next hc =>
        injection h with h
        subst h
        simp only [Bool.and_eq_true, Bool.not_eq_true', List.isEmpty_eq_false_iff, all_hex, all_dec] at hc
        exact ⟨a, ((splitOnce_eq_some (by decide)).1 hs).1, hc.1.1.1, hc.1.1.2, hc.1.2, hc.2⟩
      · cases h
  · rintro ⟨h, rfl, h1, h2, h3, h4⟩
    have hs : splitOnce c!"-" (h ++ c!"-" ++ d) = some (h, d) := by
      rw [splitOnce_eq_some (by decide)]
      refine ⟨rfl, fun a' b' e => ?_⟩
      apply Nat.le_of_not_lt
      intro hlt
      have : (h ++ c!"-" ++ d)[a'.length]? = some '-' := by rw [e]; simp
      rw [List.append_assoc, List.getElem?_append_left hlt] at this
      have := h2 '-' (List.mem_of_getElem? this)
      exact absurd this (by decide)
    rw [hs]
    dsimp only
    rw [if_pos]
    simp only [Bool.and_eq_true, Bool.not_eq_true', List.isEmpty_eq_false_iff, all_hex, all_dec]
    exact ⟨⟨⟨h1, h2⟩, h3⟩, h4⟩

/-! ### Numbers -/

theorem valueIn_go (base : Nat) : ∀ (d : Str) (n : Nat),
    d.foldl (fun n c => n * base + (c.toNat - 48)) n = n * base ^ d.length + worth base d := by
  intro d
  induction d with
  | nil => intro n; simp [worth]
  | cons c r ih =>
    intro n
    rw [List.foldl_cons, ih]
    simp only [worth, List.length_cons, Nat.pow_succ]
    have : '0'.toNat = 48 := rfl
    rw [this, Nat.add_mul, Nat.mul_assoc, Nat.mul_comm base, Nat.add_assoc]

theorem valueIn_eq (base : Nat) (d : Str) : valueIn base d = worth base d := by
  unfold valueIn
  rw [valueIn_go]
  simp

theorem wraps_wrap (n : Nat) (i : Int) : Wraps n i ↔ wrap n = i := by
  unfold Wraps wrap
  have hm : n % 2 ^ 64 < 2 ^ 64 := Nat.mod_lt _ (by decide)
  have hd : (n : Int) = ((n % 2 ^ 64 : Nat) : Int) + ((n / 2 ^ 64 : Nat) : Int) * 2 ^ 64 := by
    have := Nat.mod_add_div n (2 ^ 64)
    omega
  constructor
  · rintro ⟨h1, h2, k, hk⟩
    split <;> omega
  · rintro rfl
    split
    · refine ⟨by omega, by omega, ((n / 2 ^ 64 : Nat) : Int), by omega⟩
    · refine ⟨by omega, by omega, ((n / 2 ^ 64 : Nat) : Int) + 1, by omega⟩

theorem bashNum_iff (d : Str) (i : Int) : bashNum d = some i ↔ Reads d i := by
  unfold bashNum Reads
  split
  · simp only [List.all_eq_true, oct_iff, wraps_wrap, valueIn_eq]
    split
    · next h => simp only [Option.some.injEq]; exact ⟨fun e => ⟨h, e⟩, fun e => e.2⟩
    · next h => constructor
                · intro e; cases e
                · intro e; exact absurd e.1 h
  · simp only [wraps_wrap, valueIn_eq, Option.some.injEq]

/-- The test of the script. -/
theorem isExpired_iff (T : Int) (n content : Str) (mtime : Int) : isExpired T n mtime = true ↔ Over T n (.file content mtime) := by
  unfold isExpired Over
  constructor
  · intro h
    split at h
    · cases h
    · next d hd =>
      split at h
      · cases h
      · next v hv =>
        exact ⟨content, mtime, d, v, rfl, (lifeOf_iff _ _).1 hd, (bashNum_iff _ _).1 hv, of_decide_eq_true h⟩
  · rintro ⟨c', m', d, v, e, h1, h2, h3⟩
    injection e with e1 e2
    subst e2
    rw [(lifeOf_iff _ _).2 h1]
    dsimp only
    rw [(bashNum_iff _ _).2 h2]
    exact decide_eq_true h3

theorem over_mono {a b : Int} {n : Str} {i : Item} (hab : a ≤ b) (h : Over a n i) : Over b n i := by
  obtain ⟨c, m, d, v, e, h1, h2, h3⟩ := h
  exact ⟨c, m, d, v, e, h1, h2, by omega⟩

theorem entry_visible {n d : Str} (h : EntryName n d) : visible n = true := by
  obtain ⟨x, rfl, h1, h2, _⟩ := h
  cases x with
  | nil => exact absurd rfl h1
  | cons c r =>
    have hc := h2 c (by simp)
    unfold visible
    simp only [List.cons_append, List.head?_cons, bne_iff_ne, ne_eq, Option.some.injEq]
    rintro rfl
    exact absurd hc (by decide)

theorem dir_visible {n : Str} (h : DirName n) : visible n = true := by
  cases n with
  | nil => exact absurd h.1 (by decide)
  | cons c r =>
    have hc := h.2 c (by simp)
    unfold visible
    simp only [List.head?_cons, bne_iff_ne, ne_eq, Option.some.injEq]
    rintro rfl
    exact absurd hc (by decide)

/-! ### One directory -/

theorem sweep_sub (S : Sys) (path : Str) : ∀ (l : List (Str × Item)) (t : Nat), (sweep S path t l).1.Sublist l := by
  intro l
  induction l with
  | nil => intro t; exact List.Sublist.refl _
  | cons x l ih =>
    intro t
    obtain ⟨n, i⟩ := x
    cases i with
    | file c m =>
      simp only [sweep]
      split
      · split
        · split
          · exact (ih _).cons _
          · exact (ih _).cons_cons _
        · exact (ih _).cons_cons _
      · exact (ih _).cons_cons _
    | dir d => exact (ih _).cons_cons _
    | other => exact (ih _).cons_cons _

theorem sweep_gone (S : Sys) (path : Str) {a b : Int} (hT : Between S a b) : ∀ (l : List (Str × Item)) (t : Nat) (x : Str × Item),
    x ∈ l → x ∉ (sweep S path t l).1 → Over b x.1 x.2 ∧ S.rm (path ++ c!"/" ++ x.1) = true := by
  intro l
  induction l with
  | nil => intro t x hx; cases hx
  | cons y l ih =>
    intro t x hx hn
    obtain ⟨n, i⟩ := y
    cases i with
    | file c m =>
      simp only [sweep] at hn
      split at hn
      · split at hn
        · next hv he =>
          split at hn
          · next hr =>
            rcases List.mem_cons.1 hx with rfl | hx'
            · exact ⟨over_mono (hT t).2 ((isExpired_iff _ _ c _).1 he), hr⟩
            · exact ih _ x hx' hn
          · rcases List.mem_cons.1 hx with rfl | hx'
            · exact absurd (List.mem_cons_self ..) hn
            · exact ih _ x hx' (fun h => hn (List.mem_cons_of_mem _ h))
        · rcases List.mem_cons.1 hx with rfl | hx'
          · exact absurd (List.mem_cons_self ..) hn
          · exact ih _ x hx' (fun h => hn (List.mem_cons_of_mem _ h))
      · rcases List.mem_cons.1 hx with rfl | hx'
        · exact absurd (List.mem_cons_self ..) hn
        · exact ih _ x hx' (fun h => hn (List.mem_cons_of_mem _ h))
    | dir d =>
      rcases List.mem_cons.1 hx with rfl | hx'
      · exact absurd (List.mem_cons_self ..) hn
      · exact ih _ x hx' (fun h => hn (List.mem_cons_of_mem _ h))
    | other =>
      rcases List.mem_cons.1 hx with rfl | hx'
      · exact absurd (List.mem_cons_self ..) hn
      · exact ih _ x hx' (fun h => hn (List.mem_cons_of_mem _ h))

theorem names_cons {x : Str × Item} {l : List (Str × Item)} (h : Names (x :: l)) : Names l ∧ ∀ y ∈ l, y.1 ≠ x.1 := by
  unfold Names at *
  rw [List.map_cons, List.nodup_cons] at h
  exact ⟨h.2, fun y hy e => h.1 (List.mem_map.2 ⟨y, hy, e⟩)⟩

theorem sweep_goes (S : Sys) (path : Str) {a b : Int} (hT : Between S a b) : ∀ (l : List (Str × Item)) (t : Nat) (x : Str × Item),
    Names l → x ∈ l → Over a x.1 x.2 → S.rm (path ++ c!"/" ++ x.1) = true → ∀ y ∈ (sweep S path t l).1, y.1 ≠ x.1 := by
  intro l
  induction l with
  | nil => intro t x _ hx; cases hx
  | cons z l ih =>
    intro t x hN hx ho hr y hy
    obtain ⟨hN', hne⟩ := names_cons hN
    have rest : ∀ t', x ∈ l → y ∈ (sweep S path t' l).1 → y.1 ≠ x.1 := fun t' h h' => ih t' x hN' h ho hr y h'
    have other : ∀ t', x ∈ l → (y = z ∨ y ∈ (sweep S path t' l).1) → y.1 ≠ x.1 := by
      intro t' h h'
      rcases h' with rfl | h'
      · exact fun e => hne x h e.symm
      · exact rest t' h h'
    obtain ⟨n, i⟩ := z
    rcases List.mem_cons.1 hx with rfl | hx'
    · have tail : ∀ t', y ∈ (sweep S path t' l).1 → y.1 ≠ n := fun t' h => hne y ((sweep_sub S path l t').subset h)
      obtain ⟨c, m, d, v, e, h1, h2, h3⟩ := ho
      dsimp only at e h1
      subst e
      simp only [sweep] at hy
      rw [if_pos (entry_visible h1), if_pos ((isExpired_iff _ _ c _).2 (over_mono (hT t).1 ⟨c, m, d, v, rfl, h1, h2, h3⟩)), if_pos hr] at hy
      exact tail _ hy
    · cases i with
      | file c m =>
        simp only [sweep] at hy
        split at hy
        · split at hy
          · split at hy
            · exact rest _ hx' hy
            · exact other _ hx' (List.mem_cons.1 hy)
          · exact other _ hx' (List.mem_cons.1 hy)
        · exact other _ hx' (List.mem_cons.1 hy)
      | dir d => exact other _ hx' (List.mem_cons.1 hy)
      | other => exact other _ hx' (List.mem_cons.1 hy)

/-- The lines say what was found expired. -/
theorem sweep_lines (S : Sys) (path : Str) {a b : Int} (hT : Between S a b) : ∀ (l : List (Str × Item)) (t : Nat),
    (∀ x ∈ l, Over a x.1 x.2 → (c!"Expired file deleted: " ++ path ++ c!"/" ++ x.1) ∈ (sweep S path t l).2.2) ∧
    (∀ s ∈ (sweep S path t l).2.2, ∃ x ∈ l, Over b x.1 x.2 ∧ s = c!"Expired file deleted: " ++ path ++ c!"/" ++ x.1) := by
  intro l
  induction l with
  | nil => intro t; exact ⟨fun x hx => (by cases hx), fun s hs => (by cases hs)⟩
  | cons y l ih =>
    intro t
    have up : ∀ t', ∀ s ∈ (sweep S path t' l).2.2, ∃ x ∈ y :: l, Over b x.1 x.2 ∧ s = c!"Expired file deleted: " ++ path ++ c!"/" ++ x.1 := by
      intro t' s hs
      obtain ⟨x, h1, h2⟩ := (ih t').2 s hs
      exact ⟨x, List.mem_cons_of_mem _ h1, h2⟩
    obtain ⟨n, i⟩ := y
    cases i with
    | file c m =>
      simp only [sweep]
      split
      · split
        · next hv he =>
          refine ⟨fun x hx ho => ?_, fun s hs => ?_⟩
          · rcases List.mem_cons.1 hx with rfl | hx'
            · exact List.mem_cons_self ..
            · exact List.mem_cons_of_mem _ ((ih _).1 x hx' ho)
          · rcases List.mem_cons.1 hs with rfl | hs'
            · exact ⟨_, List.mem_cons_self .., over_mono (hT t).2 ((isExpired_iff _ _ c _).1 he), rfl⟩
            · exact up _ s hs'
        · next hv he =>
          refine ⟨fun x hx ho => ?_, up _⟩
          rcases List.mem_cons.1 hx with rfl | hx'
          · exact absurd ((isExpired_iff _ _ c _).2 (over_mono (hT t).1 ho)) he
          · exact (ih _).1 x hx' ho
      · next hv =>
        refine ⟨fun x hx ho => ?_, up _⟩
        rcases List.mem_cons.1 hx with rfl | hx'
        · obtain ⟨_, _, d, _, _, h1, _⟩ := ho
          exact absurd (entry_visible h1) hv
        · exact (ih _).1 x hx' ho
    | dir d =>
      refine ⟨fun x hx ho => ?_, up _⟩
      rcases List.mem_cons.1 hx with rfl | hx'
      · obtain ⟨_, _, _, _, e, _⟩ := ho
        cases e
      · exact (ih _).1 x hx' ho
    | other =>
      refine ⟨fun x hx ho => ?_, up _⟩
      rcases List.mem_cons.1 hx with rfl | hx'
      · obtain ⟨_, _, _, _, e, _⟩ := ho
        cases e
      · exact (ih _).1 x hx' ho

/-! ### The cache -/

/-- What is left of a directory of the cache. -/
theorem outer_sub (S : Sys) (base : Str) : ∀ (l : List (Str × Item)) (t : Nat), ∀ x ∈ (outer S base t l).1, x ∈ l ∨
    ∃ sub sub', x.2 = .dir sub' ∧ (x.1, .dir sub) ∈ l ∧ sub'.Sublist sub ∧ DirName x.1 := by
  intro l
  induction l with
  | nil => intro t x hx; cases hx
  | cons y l ih =>
    intro t x hx
    have up : ∀ t', x ∈ (outer S base t' l).1 → x ∈ y :: l ∨
        ∃ sub sub', x.2 = .dir sub' ∧ (x.1, .dir sub) ∈ y :: l ∧ sub'.Sublist sub ∧ DirName x.1 := by
      intro t' h
      rcases ih t' x h with h | ⟨sub, sub', h1, h2, h3⟩
      · exact .inl (List.mem_cons_of_mem _ h)
      · exact .inr ⟨sub, sub', h1, List.mem_cons_of_mem _ h2, h3⟩
    obtain ⟨n, i⟩ := y
    have same : ∀ t', x ∈ (n, i) :: (outer S base t' l).1 → x ∈ (n, i) :: l ∨
        ∃ sub sub', x.2 = .dir sub' ∧ (x.1, .dir sub) ∈ (n, i) :: l ∧ sub'.Sublist sub ∧ DirName x.1 := by
      intro t' h
      rcases List.mem_cons.1 h with rfl | h
      · exact .inl (List.mem_cons_self ..)
      · exact up t' h
    cases i with
    | file c m => exact same _ hx
    | other => exact same _ hx
    | dir sub =>
      simp only [outer] at hx
      split at hx
      · next hv =>
        have hd : DirName n := (isHex3_iff n).1 (by simp only [Bool.and_eq_true] at hv; exact hv.2)
        split at hx
        · split at hx
          · exact up _ hx
          · rcases List.mem_cons.1 hx with rfl | h
            · exact .inr ⟨sub, [], rfl, List.mem_cons_self .., List.nil_sublist _, hd⟩
            · exact up _ h
        · rcases List.mem_cons.1 hx with rfl | h
          · exact .inr ⟨sub, _, rfl, List.mem_cons_self .., sweep_sub _ _ _ _, hd⟩
          · exact up _ h
      · exact same _ hx

theorem outer_other (S : Sys) (base : Str) : ∀ (l : List (Str × Item)) (t : Nat), ∀ x ∈ l, ¬ (DirName x.1 ∧ ∃ sub, x.2 = .dir sub) →
    x ∈ (outer S base t l).1 := by
  intro l
  induction l with
  | nil => intro t x hx; cases hx
  | cons y l ih =>
    intro t x hx hn
    obtain ⟨n, i⟩ := y
    have same : ∀ t', x ∈ (n, i) :: (outer S base t' l).1 := by
      intro t'
      rcases List.mem_cons.1 hx with rfl | hx'
      · exact List.mem_cons_self ..
      · exact List.mem_cons_of_mem _ (ih t' x hx' hn)
    cases i with
    | file c m => exact same _
    | other => exact same _
    | dir sub =>
      simp only [outer]
      split
      · next hv =>
        have hd : DirName n := (isHex3_iff n).1 (by simp only [Bool.and_eq_true] at hv; exact hv.2)
        rcases List.mem_cons.1 hx with rfl | hx'
        · exact absurd ⟨hd, _, rfl⟩ hn
        · split
          · split
            · exact ih _ x hx' hn
            · exact List.mem_cons_of_mem _ (ih _ x hx' hn)
          · exact List.mem_cons_of_mem _ (ih _ x hx' hn)
      · exact same _

theorem outer_kept (S : Sys) (base : Str) {a b : Int} (hT : Between S a b) : ∀ (l : List (Str × Item)) (t : Nat) (n : Str) (sub : List (Str × Item))
    (x : Str × Item), (n, .dir sub) ∈ l → x ∈ sub → ¬ (Over b x.1 x.2 ∧ S.rm (base ++ c!"/" ++ n ++ c!"/" ++ x.1) = true) →
    ∃ sub', (n, .dir sub') ∈ (outer S base t l).1 ∧ x ∈ sub' := by
  intro l
  induction l with
  | nil => intro t n sub x h; cases h
  | cons y l ih =>
    intro t n sub x h hx hn
    obtain ⟨k, i⟩ := y
    have same : ∀ t', ∃ sub', (n, .dir sub') ∈ (k, i) :: (outer S base t' l).1 ∧ x ∈ sub' := by
      intro t'
      rcases List.mem_cons.1 h with e | h'
      · cases e; exact ⟨sub, List.mem_cons_self .., hx⟩
      · obtain ⟨s', h1, h2⟩ := ih t' n sub x h' hx hn
        exact ⟨s', List.mem_cons_of_mem _ h1, h2⟩
    cases i with
    | file c m => exact same _
    | other => exact same _
    | dir d =>
      simp only [outer]
      split
      · rcases List.mem_cons.1 h with e | h'
        · cases e
          have hmem : x ∈ (sweep S (base ++ c!"/" ++ n) t sub).1 := by
            apply Classical.byContradiction
            intro hc
            exact hn (sweep_gone S _ hT sub t x hx hc)
          rw [if_neg (by intro he; rw [List.isEmpty_iff.1 he] at hmem; cases hmem)]
          exact ⟨_, List.mem_cons_self .., hmem⟩
        · split
          · split
            · exact ih _ n sub x h' hx hn
            · obtain ⟨s', h1, h2⟩ := ih (sweep S (base ++ c!"/" ++ k) t d).2.1 n sub x h' hx hn
              exact ⟨s', List.mem_cons_of_mem _ h1, h2⟩
          · obtain ⟨s', h1, h2⟩ := ih (sweep S (base ++ c!"/" ++ k) t d).2.1 n sub x h' hx hn
            exact ⟨s', List.mem_cons_of_mem _ h1, h2⟩
      · exact same _

theorem outer_names (S : Sys) (base : Str) (l : List (Str × Item)) (t : Nat) (x : Str × Item) (hx : x ∈ (outer S base t l).1) :
    ∃ y ∈ l, y.1 = x.1 := by
  rcases outer_sub S base l t x hx with h | ⟨sub, _, _, h, _⟩
  · exact ⟨x, h, rfl⟩
  · exact ⟨_, h, rfl⟩

theorem outer_goes (S : Sys) (base : Str) {a b : Int} (hT : Between S a b) : ∀ (l : List (Str × Item)) (t : Nat) (n : Str) (sub : List (Str × Item))
    (x : Str × Item), Names l → Names sub → (n, .dir sub) ∈ l → DirName n → x ∈ sub → Over a x.1 x.2 →
    S.rm (base ++ c!"/" ++ n ++ c!"/" ++ x.1) = true →
    ∀ sub', (n, .dir sub') ∈ (outer S base t l).1 → ∀ y ∈ sub', y.1 ≠ x.1 := by
  intro l
  induction l with
  | nil => intro t n sub x _ _ h; cases h
  | cons z l ih =>
    intro t n sub x hN hN2 h hd hx ho hr sub' hs y hy
    obtain ⟨hN', hne⟩ := names_cons hN
    have tail : ∀ t', n = z.1 → (n, Item.dir sub') ∈ (outer S base t' l).1 → False := by
      intro t' e h'
      obtain ⟨w, h1, h2⟩ := outer_names S base l t' _ h'
      exact hne w h1 (h2.trans e)
    obtain ⟨k, i⟩ := z
    rcases List.mem_cons.1 h with e | h'
    · cases e
      simp only [outer] at hs
      rw [if_pos (by simp only [Bool.and_eq_true]; exact ⟨dir_visible hd, (isHex3_iff n).2 hd⟩)] at hs
      split at hs
      · split at hs
        · exact absurd hs (tail _ rfl)
        · rcases List.mem_cons.1 hs with e | h'
          · cases e; cases hy
          · exact absurd h' (tail _ rfl)
      · rcases List.mem_cons.1 hs with e | h'
        · cases e
          exact sweep_goes S _ hT sub t x hN2 hx ho hr y hy
        · exact absurd h' (tail _ rfl)
    · have hk : n ≠ k := hne _ h'
      have other : ∀ t' i', (n, Item.dir sub') ∈ (k, i') :: (outer S base t' l).1 → y.1 ≠ x.1 := by
        intro t' i' hm
        rcases List.mem_cons.1 hm with e | hm
        · cases e; exact absurd rfl hk
        · exact ih t' n sub x hN' hN2 h' hd hx ho hr sub' hm y hy
      cases i with
      | file c m => exact other _ _ hs
      | other => exact other _ _ hs
      | dir d =>
        simp only [outer] at hs
        split at hs
        · split at hs
          · split at hs
            · exact ih _ n sub x hN' hN2 h' hd hx ho hr sub' hs y hy
            · exact other _ _ hs
          · exact other _ _ hs
        · exact other _ _ hs

theorem outer_empty (S : Sys) (base : Str) {a b : Int} (hT : Between S a b) : ∀ (l : List (Str × Item)) (t : Nat) (n : Str) (sub : List (Str × Item)),
    Names l → Names sub → (n, .dir sub) ∈ l → DirName n →
    (∀ x ∈ sub, Over a x.1 x.2 ∧ S.rm (base ++ c!"/" ++ n ++ c!"/" ++ x.1) = true) → S.rmdir (base ++ c!"/" ++ n) = true →
    ∀ y ∈ (outer S base t l).1, y.1 ≠ n := by
  intro l
  induction l with
  | nil => intro t n sub _ _ h; cases h
  | cons z l ih =>
    intro t n sub hN hN2 h hd hall hr y hy
    obtain ⟨hN', hne⟩ := names_cons hN
    have tail : ∀ t', n = z.1 → y ∈ (outer S base t' l).1 → y.1 ≠ n := by
      intro t' e h'
      obtain ⟨w, h1, h2⟩ := outer_names S base l t' _ h'
      rw [e, ← h2]
      exact hne w h1
    obtain ⟨k, i⟩ := z
    rcases List.mem_cons.1 h with e | h'
    · cases e
      simp only [outer] at hy
      rw [if_pos (by simp only [Bool.and_eq_true]; exact ⟨dir_visible hd, (isHex3_iff n).2 hd⟩)] at hy
      have he : (sweep S (base ++ c!"/" ++ n) t sub).1 = [] := by
        cases hs : (sweep S (base ++ c!"/" ++ n) t sub).1 with
        | nil => rfl
        | cons v vs =>
          have hv : v ∈ (sweep S (base ++ c!"/" ++ n) t sub).1 := by rw [hs]; exact List.mem_cons_self ..
          have hv' := (sweep_sub S _ sub t).subset hv
          exact absurd rfl (sweep_goes S _ hT sub t v hN2 hv' (hall v hv').1 (hall v hv').2 v hv)
      simp only [he, List.isEmpty_nil, if_true] at hy
      rw [if_pos hr] at hy
      exact tail _ rfl hy
    · have hk : n ≠ k := hne _ h'
      have other : ∀ t' i', y ∈ (k, i') :: (outer S base t' l).1 → y.1 ≠ n := by
        intro t' i' hm
        rcases List.mem_cons.1 hm with rfl | hm
        · exact fun e => hk e.symm
        · exact ih t' n sub hN' hN2 h' hd hall hr y hm
      cases i with
      | file c m => exact other _ _ hy
      | other => exact other _ _ hy
      | dir d =>
        simp only [outer] at hy
        split at hy
        · split at hy
          · split at hy
            · exact ih _ n sub hN' hN2 h' hd hall hr y hy
            · exact other _ _ hy
          · exact other _ _ hy
        · exact other _ _ hy

theorem outer_lines (S : Sys) (base : Str) {a b : Int} (hT : Between S a b) : ∀ (l : List (Str × Item)) (t : Nat),
    (∀ n sub x, (n, .dir sub) ∈ l → DirName n → x ∈ sub → Over a x.1 x.2 →
      (c!"Expired file deleted: " ++ (base ++ c!"/" ++ n) ++ c!"/" ++ x.1) ∈ (outer S base t l).2.2) ∧
    (∀ s ∈ (outer S base t l).2.2, ∃ n sub, (n, .dir sub) ∈ l ∧ DirName n ∧
      (s = c!"Empty subdirectory deleted: " ++ (base ++ c!"/" ++ n) ∨
       ∃ x ∈ sub, Over b x.1 x.2 ∧ s = c!"Expired file deleted: " ++ (base ++ c!"/" ++ n) ++ c!"/" ++ x.1)) := by
  intro l
  induction l with
  | nil => intro t; exact ⟨fun _ _ _ h => (by cases h), fun _ h => (by cases h)⟩
  | cons y l ih =>
    intro t
    have up : ∀ t', ∀ s ∈ (outer S base t' l).2.2, ∃ n sub, (n, .dir sub) ∈ y :: l ∧ DirName n ∧
        (s = c!"Empty subdirectory deleted: " ++ (base ++ c!"/" ++ n) ∨
         ∃ x ∈ sub, Over b x.1 x.2 ∧ s = c!"Expired file deleted: " ++ (base ++ c!"/" ++ n) ++ c!"/" ++ x.1) := by
      intro t' s hs
      obtain ⟨n, sub, h1, h2⟩ := (ih t').2 s hs
      exact ⟨n, sub, List.mem_cons_of_mem _ h1, h2⟩
    obtain ⟨k, i⟩ := y
    cases i with
    | file c m =>
      refine ⟨fun n sub x h hd hx ho => ?_, up _⟩
      rcases List.mem_cons.1 h with e | h
      · cases e
      · exact (ih _).1 n sub x h hd hx ho
    | other =>
      refine ⟨fun n sub x h hd hx ho => ?_, up _⟩
      rcases List.mem_cons.1 h with e | h
      · cases e
      · exact (ih _).1 n sub x h hd hx ho
    | dir d =>
      simp only [outer]
      split
      · next hv =>
        have hk : DirName k := (isHex3_iff k).1 (by simp only [Bool.and_eq_true] at hv; exact hv.2)
        have hsw := sweep_lines S (base ++ c!"/" ++ k) hT d t
        split
        · refine ⟨fun n sub x h hd hx ho => ?_, fun s hs => ?_⟩
          · rcases List.mem_cons.1 h with e | h
            · cases e
              exact List.mem_append.2 (.inl (hsw.1 x hx ho))
            · exact List.mem_append.2 (.inr (List.mem_cons_of_mem _ ((ih _).1 n sub x h hd hx ho)))
          · rcases List.mem_append.1 hs with hs | hs
            · obtain ⟨x, h1, h2, h3⟩ := hsw.2 s hs
              exact ⟨k, d, List.mem_cons_self .., hk, .inr ⟨x, h1, h2, h3⟩⟩
            · rcases List.mem_cons.1 hs with rfl | hs
              · exact ⟨k, d, List.mem_cons_self .., hk, .inl rfl⟩
              · exact up _ s hs
        · refine ⟨fun n sub x h hd hx ho => ?_, fun s hs => ?_⟩
          · rcases List.mem_cons.1 h with e | h
            · cases e
              exact List.mem_append.2 (.inl (hsw.1 x hx ho))
            · exact List.mem_append.2 (.inr ((ih _).1 n sub x h hd hx ho))
          · rcases List.mem_append.1 hs with hs | hs
            · obtain ⟨x, h1, h2, h3⟩ := hsw.2 s hs
              exact ⟨k, d, List.mem_cons_self .., hk, .inr ⟨x, h1, h2, h3⟩⟩
            · exact up _ s hs
      · next hv =>
        refine ⟨fun n sub x h hd hx ho => ?_, up _⟩
        rcases List.mem_cons.1 h with e | h
        · cases e
          exact absurd (by simp only [Bool.and_eq_true]; exact ⟨dir_visible hd, (isHex3_iff _).2 hd⟩) hv
        · exact (ih _).1 n sub x h hd hx ho

/-! ### The script -/

theorem noSlash_parts (arg : Str) : ∃ w, arg = noSlash arg ++ w ∧ ∀ c ∈ w, c = '/' := by
  refine ⟨(arg.reverse.takeWhile (· == '/')).reverse, ?_, fun c hc => ?_⟩
  · unfold noSlash
    rw [← List.reverse_append, List.takeWhile_append_dropWhile, List.reverse_reverse]
  · have := List.mem_reverse.1 hc
    have h : ∀ (l : List Char), ∀ c ∈ l.takeWhile (· == '/'), c = '/' := by
      intro l
      induction l with
      | nil => intro c h; cases h
      | cons x l ih =>
        intro c h
        rw [List.takeWhile_cons] at h
        split at h
        · next hx =>
          rcases List.mem_cons.1 h with rfl | h
          · exact beq_iff_eq.1 hx
          · exact ih c h
        · cases h
    exact h _ c this

/-- The text is looked for in the whole path. -/
theorem noSlash_contains (arg : Str) : contains c!"neutral-cache" (noSlash arg) = true ↔ c!"neutral-cache" <:+: arg := by
  rw [contains_iff (by decide)]
  obtain ⟨w, e, hw⟩ := noSlash_parts arg
  constructor
  · rintro ⟨a, b, h⟩
    refine ⟨a, b ++ w, ?_⟩
    have : arg = (a ++ c!"neutral-cache" ++ b) ++ w := by rw [h]; exact e
    rw [this]
    simp only [List.append_assoc]
  · rintro ⟨a, b, h⟩
    generalize noSlash arg = x at e ⊢
    rw [e] at h
    have hlen : (a ++ c!"neutral-cache").length ≤ x.length := by
      apply Nat.le_of_not_lt
      intro hlt
      have h1 : (x ++ w)[(a ++ c!"neutral-cache").length - 1]? = some 'e' := by
        rw [← h, List.getElem?_append_left (by simp)]
        simp [List.getElem?_append_right]
      rw [List.getElem?_append_right (by omega)] at h1
      exact absurd (hw 'e' (List.mem_of_getElem? h1)) (by decide)
    have := List.append_eq_append_iff.1 h
    rcases this with ⟨v, e1, e2⟩ | ⟨v, e1, e2⟩
    · exact ⟨a, v, e1.symm⟩
    · have hv : v = [] := by
        have := congrArg List.length e1
        simp only [List.length_append] at this hlen
        exact List.eq_nil_of_length_eq_zero (by omega)
      rw [hv, List.append_nil] at e1
      exact ⟨a, [], by rw [List.append_nil]; exact e1⟩

theorem run_eq {S : Sys} {arg : Str} {items : List (Str × Item)} (h : c!"neutral-cache" <:+: arg) :
    (run S arg items).left = (outer S (noSlash arg) 0 items).1 ∧ (run S arg items).status = 0 := by
  unfold run
  dsimp only
  rw [(noSlash_contains arg).2 h]
  exact ⟨rfl, rfl⟩

/-- **C95, other directories.** Without `neutral-cache` in the path nothing is removed, and the script fails. -/
theorem C95_refuses (S : Sys) (arg : Str) (items : List (Str × Item)) (h : ¬ c!"neutral-cache" <:+: arg) :
    (run S arg items).left = items ∧ (run S arg items).status = 1 := by
  unfold run
  dsimp only
  cases hc : contains c!"neutral-cache" (noSlash arg) with
  | true => exact absurd ((noSlash_contains arg).1 hc) h
  | false => exact ⟨rfl, rfl⟩

/-- **C95, nothing else.** What is not a directory named by three hexadecimal digits is left; in those directories everything is
left but files named as entries, of an age (at the end of the run) of at least the seconds in their name.  Nothing is new. -/
theorem C95_only (S : Sys) (arg : Str) (items : List (Str × Item)) (start stop : Int) (hT : Between S start stop) :
    (∀ x ∈ items, ¬ (DirName x.1 ∧ ∃ sub, x.2 = .dir sub) → x ∈ (run S arg items).left) ∧
    (∀ n sub x, (n, .dir sub) ∈ items → x ∈ sub → ¬ Over stop x.1 x.2 → ∃ sub', (n, .dir sub') ∈ (run S arg items).left ∧ x ∈ sub') ∧
    (∀ x ∈ (run S arg items).left, x ∈ items ∨
      ∃ sub sub', x.2 = .dir sub' ∧ (x.1, .dir sub) ∈ items ∧ sub'.Sublist sub ∧ DirName x.1) := by
  by_cases h : c!"neutral-cache" <:+: arg
  · rw [(run_eq h).1]
    refine ⟨fun x hx hn => outer_other S _ items 0 x hx hn, fun n sub x h1 h2 h3 => ?_, fun x hx => outer_sub S _ items 0 x hx⟩
    exact outer_kept S _ hT items 0 n sub x h1 h2 (fun hc => h3 hc.1)
  · rw [(C95_refuses S arg items h).1]
    exact ⟨fun x hx _ => hx, fun n sub x h1 h2 _ => ⟨sub, h1, h2⟩, fun x hx => .inl hx⟩

/-- **C95, all of them.** An entry whose lifetime is over when the script starts is removed, and a directory of the cache in which
every entry is, with them, as far as the system lets it. -/
theorem C95_removes (S : Sys) (arg : Str) (items : List (Str × Item)) (start stop : Int) (hT : Between S start stop)
    (harg : c!"neutral-cache" <:+: arg) (hN : Names items) (hrm : ∀ p, S.rm p = true) (n : Str) (sub : List (Str × Item)) (hNs : Names sub)
    (hin : (n, .dir sub) ∈ items) (hd : DirName n) :
    (∀ x ∈ sub, Over start x.1 x.2 → ∀ sub', (n, .dir sub') ∈ (run S arg items).left → ∀ y ∈ sub', y.1 ≠ x.1) ∧
    ((∀ x ∈ sub, Over start x.1 x.2) → (∀ p, S.rmdir p = true) → ∀ y ∈ (run S arg items).left, y.1 ≠ n) := by
  rw [(run_eq harg).1]
  refine ⟨fun x hx ho sub' hs y hy => ?_, fun hall hr y hy => ?_⟩
  · exact outer_goes S _ hT items 0 n sub x hN hNs hin hd hx ho (hrm _) sub' hs y hy
  · exact outer_empty S _ hT items 0 n sub hN hNs hin hd (fun x hx => ⟨hall x hx, hrm _⟩) (hr _) y hy

/-- **C95, the report.** Every entry that is over at the start is reported as deleted, and what is reported is a directory of the
cache, or an entry over at the end. -/
theorem C95_report (S : Sys) (arg : Str) (items : List (Str × Item)) (start stop : Int) (hT : Between S start stop)
    (harg : c!"neutral-cache" <:+: arg) :
    (∀ n sub x, (n, .dir sub) ∈ items → DirName n → x ∈ sub → Over start x.1 x.2 →
      (c!"Expired file deleted: " ++ (noSlash arg ++ c!"/" ++ n) ++ c!"/" ++ x.1) ∈ (run S arg items).lines) ∧
    (∀ s ∈ (run S arg items).lines, s = c!"clean-cache start" ∨ s = c!"clean-cache end" ∨ ∃ n sub, (n, .dir sub) ∈ items ∧ DirName n ∧
      (s = c!"Empty subdirectory deleted: " ++ (noSlash arg ++ c!"/" ++ n) ∨
       ∃ x ∈ sub, Over stop x.1 x.2 ∧ s = c!"Expired file deleted: " ++ (noSlash arg ++ c!"/" ++ n) ++ c!"/" ++ x.1)) := by
  have h := outer_lines S (noSlash arg) hT items 0
  have hl : (run S arg items).lines = c!"clean-cache start" :: (outer S (noSlash arg) 0 items).2.2 ++ [c!"clean-cache end"] := by
    unfold run
    dsimp only
    rw [(noSlash_contains arg).2 harg]
    rfl
  rw [hl]
  refine ⟨fun n sub x h1 hd hx ho => ?_, fun s hs => ?_⟩
  · exact List.mem_append.2 (.inl (List.mem_cons_of_mem _ (h.1 n sub x h1 hd hx ho)))
  · rcases List.mem_append.1 hs with hs | hs
    · rcases List.mem_cons.1 hs with rfl | hs
      · exact .inl rfl
      · exact .inr (.inr (h.2 s hs))
    · exact .inr (.inl (List.mem_singleton.1 hs))

/-- **C95, the report is wrong when a removal fails**: the file is reported as deleted and is still there. -/
theorem C95_report_refuted : ∃ (S : Sys) (items : List (Str × Item)), Between S 9 9 ∧
    (run S c!"neutral-cache" items).left = items ∧
    c!"Expired file deleted: neutral-cache/abc/a-1" ∈ (run S c!"neutral-cache" items).lines ∧ (run S c!"neutral-cache" items).status = 0 :=
  ⟨⟨fun _ => 9, fun _ => false, fun _ => false⟩, [(c!"abc", .dir [(c!"a-1", .file [] 0)])], fun _ => ⟨Int.le_refl _, Int.le_refl _⟩,
    rfl, by decide, rfl⟩

/-! ### The premises are met -/

/-- A cache: at the time 1000, the entry of 100 seconds is over, the entry of 2000 is not; other things have other names. -/
def Sample.cache : List (Str × Item) := [
  (c!"0af", .dir [(c!"0af9-100", .file c!"old" 850), (c!"0aff-2000", .file c!"new" 850), (c!"0afa-x", .file c!"?" 0), (c!".keep", .file [] 0)]),
  (c!"1bC", .dir [(c!"1bc-0", .file c!"old" 850)]),
  (c!"abcd", .dir [(c!"0-0", .file c!"mine" 0)]),
  (c!"fff", .file c!"a file" 0)]

/-- A system at the time 1000. -/
def Sample.at1000 : Sys := ⟨fun _ => 1000, fun _ => true, fun _ => true⟩

/-- What is left. -/
example : (run Sample.at1000 c!"/tmp/neutral-cache/" Sample.cache).left = [
    (c!"0af", .dir [(c!"0aff-2000", .file c!"new" 850), (c!"0afa-x", .file c!"?" 0), (c!".keep", .file [] 0)]),
    (c!"abcd", .dir [(c!"0-0", .file c!"mine" 0)]),
    (c!"fff", .file c!"a file" 0)] ∧
  (run Sample.at1000 c!"/tmp/neutral-cache/" Sample.cache).lines = [c!"clean-cache start",
    c!"Expired file deleted: /tmp/neutral-cache/0af/0af9-100", c!"Expired file deleted: /tmp/neutral-cache/1bC/1bc-0",
    c!"Empty subdirectory deleted: /tmp/neutral-cache/1bC", c!"clean-cache end"] ∧
  (run Sample.at1000 c!"/tmp/cache" Sample.cache).status = 1 := ⟨rfl, rfl, rfl⟩

/-- The entry of 100 seconds is over at 1000; the clock and the names are as required. -/
example : Over 1000 c!"0af9-100" (.file c!"old" 850) ∧ DirName c!"0af" ∧ Names Sample.cache ∧ Between Sample.at1000 1000 1000 ∧
    ¬ Over 1000 c!"0aff-2000" (.file c!"new" 850) := by
  refine ⟨(isExpired_iff _ _ _ _).1 rfl, (isHex3_iff _).1 rfl, by unfold Names; decide, fun t => ⟨Int.le_refl _, Int.le_refl _⟩, ?_⟩
  intro h
  exact absurd ((isExpired_iff _ _ _ _).2 h) (by decide)

end Nts.Clean
