import Verif.Lemmas.Utf8
import Verif.Props.Comments
import Verif.Model.Template
import Verif.Model.FastCgi
/-
C86: the code addresses templates by byte positions, the model by characters.
-/
set_option autoImplicit false
namespace Nts.B
open Spec

/-- The byte position of the character number `n`. -/
def bytePos (s : Str) (n : Nat) : Nat := (utf8 (s.take n)).length

theorem _root_.Nts.byteLen_ge' (s : Str) : s.length ≤ (utf8 s).length := by
  induction s with
  | nil => exact Nat.le_refl _
  | cons c s ih =>
    obtain ⟨b, bs, hb, _⟩ := enc_shape c
    rw [utf8_cons, hb]; simp; omega

theorem bytePos_append (a b : Str) : bytePos (a ++ b) a.length = bl a := by simp [bytePos, bl]

theorem bytePos_of {s a b : Str} {n : Nat} (h : s = a ++ b) (hn : n = a.length) : bytePos s n = bl a := by
  subst h; subst hn; exact bytePos_append a b

/-! ### searching -/

theorem find_first (p : Str) (hp : p ≠ []) (s : Str) :
    (¬ p <:+: s ∧ findB (utf8 p) (utf8 s) = none) ∨
    ∃ a r, s = a ++ p ++ r ∧ findB (utf8 p) (utf8 s) = some (bl a) ∧ ∀ i, i < a.length → ¬ p <+: s.drop i := by
  rw [findB_eq hp]
  cases h : find p s with
  | none => exact .inl ⟨(find_eq_none hp).1 h, rfl⟩
  | some n =>
    right
    obtain ⟨⟨a, b, h1, h2⟩, h3⟩ := (find_eq_some hp).1 h
    refine ⟨a, b, h1, ?_, ?_⟩
    · subst h1; subst h2; simp [List.append_assoc]
    · rintro i hi ⟨t, ht⟩
      have := h3 (s.take i) t (by
        calc s = s.take i ++ s.drop i := (List.take_append_drop i s).symm
          _ = s.take i ++ p ++ t := by rw [← ht, List.append_assoc])
      have : (s.take i).length ≤ i := by simp; omega
      omega

theorem find_colon (s : Str) :
    (':' ∉ s ∧ findB (utf8 c!":") (utf8 s) = none) ∨
    ∃ a r, s = a ++ ':' :: r ∧ findB (utf8 c!":") (utf8 s) = some (bl a) ∧ ':' ∉ a := by
  rcases find_first c!":" (by simp) s with ⟨h1, h2⟩ | ⟨a, r, h1, h2, h3⟩
  · left
    refine ⟨?_, h2⟩
    intro h
    obtain ⟨x, y, hxy⟩ := List.append_of_mem h
    exact h1 ⟨x, y, by rw [hxy]; simp⟩
  · right
    refine ⟨a, r, by rw [h1]; simp, h2, ?_⟩
    intro h
    obtain ⟨x, y, hxy⟩ := List.append_of_mem h
    refine h3 x.length (by rw [hxy]; simp) ⟨y ++ c!":" ++ r, ?_⟩
    rw [h1, hxy]; simp

/-! ### extract_blocks -/

/-- The last character of a text, or `d`. -/
def lastOr (d : Char) : Str → Char
  | [] => d
  | c :: r => lastOr c r

theorem lastOr_append (d : Char) (a : Str) (c : Char) : lastOr d (a ++ [c]) = c := by
  induction a generalizing d with
  | nil => rfl
  | cons x a ih => exact ih x

theorem last_split (d : Char) (pre a : Str) : ∃ x, pre ++ [d] ++ a = x ++ [lastOr d a] := by
  induction a generalizing pre d with
  | nil => exact ⟨pre, by simp [lastOr]⟩
  | cons c a ih =>
    obtain ⟨x, hx⟩ := ih c (pre ++ [d])
    exact ⟨x, by rw [lastOr, ← hx]; simp⟩

theorem scanBif_text (n : Nat) {a : Str} (ha : ':' ∉ a) (r : Str) : ∀ (prev : Char) (pos : Nat),
    scanBif prev n pos (a ++ ':' :: r) = scanBif (lastOr prev a) n (pos + a.length) (':' :: r) := by
  induction a with
  | nil => intro prev pos; rfl
  | cons c a ih =>
    intro prev pos
    rw [List.cons_append, scanBif_chr (by intro h; exact ha (by simp [h])) (by simp), ih (by intro h; exact ha (by simp [h]))]
    simp only [lastOr, List.length_cons]; congr 1; omega

theorem scanBif_none (n : Nat) {a : Str} (ha : ':' ∉ a) : ∀ (prev : Char) (pos : Nat), scanBif prev n pos a = none := by
  induction a with
  | nil => intro prev pos; rfl
  | cons c a ih =>
    intro prev pos
    cases a with
    | nil => rfl
    | cons d a =>
      rw [scanBif_chr (by intro h; exact ha (by simp [h])) (by simp)]
      exact ih (by intro h; exact ha (by simp [h])) _ _

theorem scanComment_text (n : Nat) {a : Str} (ha : ':' ∉ a) (r : Str) : ∀ (prev : Char) (pos : Nat),
    scanComment prev n pos (a ++ ':' :: r) = scanComment (lastOr prev a) n (pos + a.length) (':' :: r) := by
  induction a with
  | nil => intro prev pos; rfl
  | cons c a ih =>
    intro prev pos
    rw [List.cons_append, scanComment_chr (by intro h; exact ha (by simp [h])) (by simp), ih (by intro h; exact ha (by simp [h]))]
    simp only [lastOr, List.length_cons]; congr 1; omega

theorem scanComment_none (n : Nat) {a : Str} (ha : ':' ∉ a) : ∀ (prev : Char) (pos : Nat), scanComment prev n pos a = none := by
  induction a with
  | nil => intro prev pos; rfl
  | cons c a ih =>
    intro prev pos
    cases a with
    | nil => rfl
    | cons d a =>
      rw [scanComment_chr (by intro h; exact ha (by simp [h])) (by simp)]
      exact ih (by intro h; exact ha (by simp [h])) _ _

theorem bl_colon (a : Str) : bl (a ++ [':']) = bl a + 1 := by
  rw [bl_append, bl_ascii (by decide)]

/-- What the loops read around a `:`: the byte before it and the byte after it. -/
theorem around (pre : Str) (prev : Char) (a : Str) (d : Char) (r : Str) :
    ∃ x y, byteAt (utf8 (pre ++ [prev] ++ a ++ ':' :: d :: r)) (bl (pre ++ [prev] ++ a) - 1) = .ok x ∧
      byteAt (utf8 (pre ++ [prev] ++ a ++ ':' :: d :: r)) (bl (pre ++ [prev] ++ a) + 1) = .ok y ∧
      (∀ k : Char, k.toNat < 128 → (x.toNat = k.toNat ↔ lastOr prev a = k)) ∧
      (∀ k : Char, k.toNat < 128 → (y.toNat = k.toNat ↔ d = k)) := by
  obtain ⟨z, hz⟩ := last_split prev pre a
  obtain ⟨x, hx1, hx2⟩ := byteAt_last z (lastOr prev a) (':' :: d :: r)
  obtain ⟨y, hy1, hy2⟩ := byteAt_first (pre ++ [prev] ++ a ++ [':']) d r
  refine ⟨x, y, ?_, ?_, hx2, hy2⟩
  · rw [hz, List.append_assoc]; exact hx1
  · rw [bl_colon] at hy1
    rw [← hy1]; congr 1; simp

theorem bif_loop (f : Nat) : ∀ (n : Nat) (pre : Str) (prev : Char) (rest : Str), rest.length < f →
    bifLoop (utf8 (pre ++ [prev] ++ rest)) f n (bl (pre ++ [prev])) =
      .ok ((scanBif prev n (pre.length + 1) rest).map (bytePos (pre ++ [prev] ++ rest))) := by
  induction f with
  | zero => intro n pre prev rest h; exact absurd h (by omega)
  | succ f ih =>
    intro n pre prev rest hf
    unfold bifLoop
    rw [sliceFrom_bl]
    rcases find_colon rest with ⟨h1, h2⟩ | ⟨a, r, h1, h2, h3⟩
    · simp only [h2, bind, Except.bind]
      rw [scanBif_none n h1]; rfl
    · simp only [h2, bind, Except.bind]
      subst h1
      rw [scanBif_text n h3]
      have hpos : 0 < bl (pre ++ [prev]) + bl a := by
        have := bl_pos (a := pre ++ [prev]) (by simp)
        omega
      have hd : bl (pre ++ [prev]) + bl a = bl (pre ++ [prev] ++ a) := (bl_append _ _).symm
      have hlen : (utf8 (pre ++ [prev] ++ (a ++ ':' :: r))).length = bl (pre ++ [prev] ++ a) + 1 + bl r := by
        show bl (pre ++ [prev] ++ (a ++ ':' :: r)) = _
        have : pre ++ [prev] ++ (a ++ ':' :: r) = pre ++ [prev] ++ a ++ [':'] ++ r := by simp
        rw [this, bl_append, bl_colon]
      have next : ∀ m, bifLoop (utf8 (pre ++ [prev] ++ (a ++ ':' :: r))) f m (bl (pre ++ [prev] ++ a) + 1) =
          .ok ((scanBif ':' m (pre.length + 1 + a.length + 1) r).map (bytePos (pre ++ [prev] ++ (a ++ ':' :: r)))) := by
        intro m
        have := ih m (pre ++ [prev] ++ a) ':' r (by simp at hf; omega)
        rw [bl_colon] at this
        have e : pre ++ [prev] ++ a ++ [':'] ++ r = pre ++ [prev] ++ (a ++ ':' :: r) := by simp
        rw [e] at this
        rw [this]; simp only [List.length_append, List.length_cons, List.length_nil]
      rw [hd] at hpos ⊢
      cases r with
      | nil =>
        rw [if_neg (by rw [hlen]; simp), next]
        rfl
      | cons d r =>
        have hdl := bl_pos (a := d :: r) (by simp)
        rw [if_pos ⟨hpos, by rw [hlen]; omega⟩]
        obtain ⟨x, y, hx, hy, hx', hy'⟩ := around pre prev a d r
        have e : pre ++ [prev] ++ (a ++ ':' :: d :: r) = pre ++ [prev] ++ a ++ ':' :: d :: r := by simp
        rw [← e] at hx hy
        rw [hx, hy]
        dsimp only
        rw [scanBif]
        by_cases k1 : lastOr prev a = '{'
        · rw [if_pos ((hx' '{' (by decide)).2 k1), if_pos rfl, if_pos k1, next]
        · rw [if_neg (fun h => k1 ((hx' '{' (by decide)).1 h)), if_pos rfl, if_neg k1]
          by_cases k2 : d = '}'
          · rw [if_pos k2]
            by_cases k3 : 0 < n
            · rw [if_pos ⟨k3, (hy' '}' (by decide)).2 k2⟩, if_pos k3, next]
            · rw [if_neg (fun h => k3 h.1), if_pos ((hy' '}' (by decide)).2 k2), if_neg k3]
              have : bytePos (pre ++ [prev] ++ (a ++ ':' :: d :: r)) (pre.length + 1 + a.length + 2)
                  = bl (pre ++ [prev] ++ a) + 2 := by
                rw [bytePos_of (a := pre ++ [prev] ++ a ++ [':'] ++ [d]) (b := r) (by simp) (by simp; omega)]
                rw [bl_append, bl_colon, bl_ascii (by rw [k2]; decide)]
              simp only [Option.map_some, this]
          · rw [if_neg (fun h => k2 ((hy' '}' (by decide)).1 h.2)), if_neg (fun h => k2 ((hy' '}' (by decide)).1 h)), if_neg k2, next]

theorem comment_loop (f : Nat) : ∀ (n : Nat) (pre : Str) (prev : Char) (rest : Str), rest.length < f →
    commentLoop (utf8 (pre ++ [prev] ++ rest)) f n (bl (pre ++ [prev])) =
      .ok ((scanComment prev n (pre.length + 1) rest).map (bytePos (pre ++ [prev] ++ rest))) := by
  induction f with
  | zero => intro n pre prev rest h; exact absurd h (by omega)
  | succ f ih =>
    intro n pre prev rest hf
    unfold commentLoop
    rw [sliceFrom_bl]
    rcases find_colon rest with ⟨h1, h2⟩ | ⟨a, r, h1, h2, h3⟩
    · simp only [h2, bind, Except.bind]
      rw [scanComment_none n h1]; rfl
    · simp only [h2, bind, Except.bind]
      subst h1
      rw [scanComment_text n h3]
      have hpos : 0 < bl (pre ++ [prev]) + bl a := by
        have := bl_pos (a := pre ++ [prev]) (by simp)
        omega
      have hd : bl (pre ++ [prev]) + bl a = bl (pre ++ [prev] ++ a) := (bl_append _ _).symm
      have hlen : (utf8 (pre ++ [prev] ++ (a ++ ':' :: r))).length = bl (pre ++ [prev] ++ a) + 1 + bl r := by
        show bl (pre ++ [prev] ++ (a ++ ':' :: r)) = _
        have : pre ++ [prev] ++ (a ++ ':' :: r) = pre ++ [prev] ++ a ++ [':'] ++ r := by simp
        rw [this, bl_append, bl_colon]
      have next : ∀ m, commentLoop (utf8 (pre ++ [prev] ++ (a ++ ':' :: r))) f m (bl (pre ++ [prev] ++ a) + 1) =
          .ok ((scanComment ':' m (pre.length + 1 + a.length + 1) r).map (bytePos (pre ++ [prev] ++ (a ++ ':' :: r)))) := by
        intro m
        have := ih m (pre ++ [prev] ++ a) ':' r (by simp at hf; omega)
        rw [bl_colon] at this
        have e : pre ++ [prev] ++ a ++ [':'] ++ r = pre ++ [prev] ++ (a ++ ':' :: r) := by simp
        rw [e] at this
        rw [this]; simp only [List.length_append, List.length_cons, List.length_nil]
      rw [hd] at hpos ⊢
      cases r with
      | nil =>
        rw [if_neg (by rw [hlen]; simp), next]
        rfl
      | cons d r =>
        have hdl := bl_pos (a := d :: r) (by simp)
        rw [if_pos ⟨hpos, by rw [hlen]; omega⟩]
        obtain ⟨x, y, hx, hy, hx', hy'⟩ := around pre prev a d r
        have e : pre ++ [prev] ++ (a ++ ':' :: d :: r) = pre ++ [prev] ++ a ++ ':' :: d :: r := by simp
        rw [← e] at hx hy
        rw [hx, hy]
        dsimp only
        rw [scanComment]
        simp only [hx' '{' (by decide), hx' '*' (by decide), hy' '*' (by decide), hy' '}' (by decide), if_true]
        by_cases k1 : lastOr prev a = '{' ∧ d = '*'
        · rw [if_pos k1, if_pos k1, next]
        · rw [if_neg k1, if_neg k1]
          by_cases k2 : lastOr prev a = '*' ∧ d = '}'
          · by_cases k3 : 0 < n
            · rw [if_pos ⟨k3, k2⟩, if_pos k3, next, if_pos k2]
            · rw [if_neg (fun h => k3 h.1), if_neg k3, if_pos k2, if_pos k2]
              have : bytePos (pre ++ [prev] ++ (a ++ ':' :: d :: r)) (pre.length + 1 + a.length + 2)
                  = bl (pre ++ [prev] ++ a) + 2 := by
                rw [bytePos_of (a := pre ++ [prev] ++ a ++ [':'] ++ [d]) (b := r) (by simp) (by simp; omega)]
                rw [bl_append, bl_colon, bl_ascii (by rw [k2.2]; decide)]
              simp only [Option.map_some, this]
          · rw [if_neg (fun h => k2 h.2), if_neg k2, if_neg k2, next]

theorem scanBlock_loop (pre body : Str) :
    blockLoop (utf8 (pre ++ c!"{:" ++ body)) (bl (pre ++ c!"{:")) =
    .ok ((scanBlock (pre.length + 2) body).map (bytePos (pre ++ c!"{:" ++ body))) := by
  have hlen : (utf8 (pre ++ c!"{:" ++ body)).length = bl (pre ++ c!"{:") + bl body := bl_append _ _
  have hstar : isStar (utf8 (pre ++ c!"{:" ++ body)) (bl (pre ++ c!"{:")) = .ok (decide (body.head? = some '*')) := by
    unfold isStar
    cases body with
    | nil => rw [if_neg (by rw [hlen]; simp)]; rfl
    | cons c r =>
      have := bl_pos (a := c :: r) (by simp)
      rw [if_pos (by rw [hlen]; omega)]
      obtain ⟨x, hx, hx'⟩ := byteAt_first (pre ++ c!"{:") c r
      rw [hx]
      show Except.ok _ = _
      congr 1
      simp only [hx' '*' (by decide), List.head?_cons, Option.some.injEq]
  unfold blockLoop
  rw [hstar]
  simp only [bind, Except.bind, decide_eq_true_eq]
  clear hstar hlen
  have hle : ∀ s : Str, s.length ≤ (utf8 s).length := by
    intro s
    have := Nts.byteLen_ge' s
    exact this
  have hb : body.length < (utf8 (pre ++ c!"{:" ++ body)).length + 1 := by
    have := hle (pre ++ c!"{:" ++ body)
    simp only [List.length_append, List.length_cons, List.length_nil] at this ⊢
    omega
  have e : pre ++ c!"{:" = pre ++ c!"{" ++ [':'] := by simp
  rw [e]
  rw [e] at hb
  have h1 := comment_loop _ 0 (pre ++ c!"{") ':' body hb
  have h2 := bif_loop _ 0 (pre ++ c!"{") ':' body hb
  have hl : (pre ++ c!"{").length + 1 = pre.length + 2 := by simp
  rw [hl] at h1 h2
  rw [h1, h2]
  cases body with
  | nil => rfl
  | cons c r =>
    by_cases h : c = '*'
    · subst h; rfl
    · have : scanBlock (pre.length + 2) (c :: r) = scanBif ':' 0 (pre.length + 2) (c :: r) := by
        unfold scanBlock
        split
        · next heq => injection heq with h1 _; exact absurd h1 h
        · rfl
      rw [this, if_neg (by simpa using h)]

theorem scanBlocks_text {a rest : Str} (h : ∀ i, i < a.length → ¬ c!"{:" <+: (a ++ rest).drop i) : ∀ pos,
    scanBlocks pos 0 (a ++ rest) = scanBlocks (pos + a.length) 0 rest := by
  induction a with
  | nil => intro pos; rfl
  | cons c a ih =>
    intro pos
    rw [List.cons_append, scanBlocks]
    have h0 := h 0 (by simp)
    rw [stripPrefix?_eq_none.2 (by simpa using h0)]
    dsimp only
    rw [ih (fun i hi => by have := h (i + 1) (by simp; omega); simpa using this)]
    congr 1; simp only [List.length_cons]; omega

theorem scanBlocks_none {s : Str} (h : ¬ c!"{:" <:+: s) (pos : Nat) : scanBlocks pos 0 s = [] := by
  have := scanBlocks_text (a := s) (rest := []) (fun i _ hp => h (by
    rw [List.append_nil] at hp
    exact hp.isInfix.trans (List.drop_suffix i s).isInfix)) pos
  rw [List.append_nil] at this
  rw [this]; rfl

/-- The blocks at their byte positions. -/
def bytesOf (s : Str) (l : List (Nat × Nat)) : List (Nat × Nat) := l.map (fun p => (bytePos s p.1, bytePos s p.2))

theorem blocks_loop (f : Nat) : ∀ (pre rest : Str), rest.length < f →
    blocksLoop (utf8 (pre ++ rest)) f (bl pre) = .ok (bytesOf (pre ++ rest) (scanBlocks pre.length 0 rest)) := by
  induction f with
  | zero => intro pre rest h; exact absurd h (by omega)
  | succ f ih =>
    intro pre rest hf
    unfold blocksLoop
    rw [sliceFrom_bl]
    rcases find_first c!"{:" (by simp) rest with ⟨h1, h2⟩ | ⟨a, body, h1, h2, h3⟩
    · simp only [h2, bind, Except.bind]
      rw [scanBlocks_none h1]; rfl
    · simp only [h2, bind, Except.bind]
      subst h1
      have hd : bl pre + bl a = bl (pre ++ a) := (bl_append _ _).symm
      have h2' : bl (pre ++ a) + 2 = bl (pre ++ a ++ c!"{:") := by
        rw [bl_append (pre ++ a)]; rfl
      have e : pre ++ (a ++ c!"{:" ++ body) = pre ++ a ++ c!"{:" ++ body := by simp
      rw [hd, h2', e]
      have hloop := scanBlock_loop (pre ++ a) body
      rw [hloop]
      dsimp only
      have hscan : scanBlocks pre.length 0 (a ++ c!"{:" ++ body) =
          scanBlocks (pre ++ a).length 0 (c!"{:" ++ body) := by
        rw [List.append_assoc, scanBlocks_text (by rw [← List.append_assoc]; exact h3)]
        simp
      rw [hscan]
      have hcons : c!"{:" ++ body = '{' :: (':' :: body) := rfl
      rw [hcons, scanBlocks]
      have hsp : stripPrefix? c!"{:" ('{' :: ':' :: body) = some body := stripPrefix?_append c!"{:" body
      rw [hsp]
      dsimp only
      cases hs : scanBlock ((pre ++ a).length + 2) body with
      | none =>
        dsimp only [Option.map_none]
        have := ih (pre ++ a ++ c!"{:") body (by simp at hf; omega)
        rw [this]
        have e2 : scanBlocks ((pre ++ a).length + 1) 1 (':' :: body) = scanBlocks ((pre ++ a).length + 1 + 1) 0 body :=
          scanBlocks_skip [':'] body _
        have hl : (pre ++ a ++ c!"{:").length = (pre ++ a).length + 1 + 1 := by simp; omega
        rw [e2, hl]
      | some e' =>
        dsimp only [Option.map_some]
        obtain ⟨x, r, h4, h5⟩ := scanBlock_some hs
        have hb : bytePos (pre ++ a ++ c!"{:" ++ body) e' = bl (pre ++ a ++ c!"{:" ++ x ++ c!":}") :=
          bytePos_of (b := r) (by rw [h4]; simp) (by rw [h5]; simp; omega)
        have hfull : pre ++ a ++ c!"{:" ++ body = pre ++ a ++ c!"{:" ++ x ++ c!":}" ++ r := by rw [h4]; simp
        have := ih (pre ++ a ++ c!"{:" ++ x ++ c!":}") r (by rw [h4] at hf; simp at hf; omega)
        rw [hb, hfull, this]
        dsimp only [pure, Except.pure]
        have e2 : scanBlocks ((pre ++ a).length + 1) (e' - (pre ++ a).length - 1) (':' :: body) =
            scanBlocks (pre ++ a ++ c!"{:" ++ x ++ c!":}").length 0 r := by
          have hk : ':' :: body = (':' :: x ++ c!":}") ++ r := by rw [h4]; simp
          have hn : e' - (pre ++ a).length - 1 = (':' :: x ++ c!":}").length := by
            rw [h5]; simp only [List.length_append, List.length_cons, List.length_nil]; omega
          rw [hk, hn, scanBlocks_skip]
          congr 1
          simp only [List.length_append, List.length_cons, List.length_nil]; omega
        rw [e2, bytesOf, bytesOf, List.map_cons]
        congr 3
        · rw [← hfull]
          exact (bytePos_of (a := pre ++ a) (b := c!"{:" ++ body) (by simp) rfl).symm
        · rw [← hfull, hb]

/-! ### slices -/

/-- **C86 (slices).** A slice between two characters never panics, and is the text between them. -/
theorem C86_slice (s : Str) (a b : Nat) (h : a ≤ b) :
    sliceB (utf8 s) (bytePos s a) (bytePos s b) = .ok (utf8 (slice s a b)) := by
  have e : s = s.take a ++ (s.drop a).take (b - a) ++ s.drop b := by
    have h1 : s.take b = s.take a ++ (s.drop a).take (b - a) := by
      conv => lhs; rw [show b = a + (b - a) by omega, List.take_add]
    rw [← h1, List.take_append_drop]
  have h2 : s.take b = s.take a ++ (s.drop a).take (b - a) := by
    conv => lhs; rw [show b = a + (b - a) by omega, List.take_add]
  have := sliceB_bl (s.take a) ((s.drop a).take (b - a)) (s.drop b)
  rw [← e, ← h2] at this
  exact this

/-- **C86 (rest).** The rest of a string from a character on. -/
theorem C86_rest (s : Str) (a : Nat) : sliceFrom (utf8 s) (bytePos s a) = .ok (utf8 (s.drop a)) := by
  have := sliceFrom_bl (s.take a) (s.drop a)
  rw [List.take_append_drop] at this
  exact this

theorem bytePos_add (s : Str) (a n : Nat) : bytePos s a + bytePos (s.drop a) n = bytePos s (a + n) := by
  have : s.take (a + n) = s.take a ++ (s.drop a).take n := List.take_add
  show bl _ + bl _ = bl _
  rw [this, bl_append]

theorem bytePos_slice (s : Str) (a b n : Nat) (h : n ≤ b - a) : bytePos (slice s a b) n = bytePos (s.drop a) n := by
  unfold bytePos slice
  rw [List.take_take, Nat.min_eq_left h]

theorem gaps_loop (s : Str) (l : List (Nat × Nat)) : ∀ p, Ordered s p l →
    gapsLoop (utf8 s) (bytePos s p) (bytesOf s l) = .ok ((checkGaps s p l).map (bytePos s)) := by
  induction l with
  | nil =>
    intro p _
    simp only [bytesOf, List.map_nil, gapsLoop, C86_rest, bind, Except.bind, checkGaps]
    rw [findB_eq (by simp)]
    cases find c!":}" (s.drop p) with
    | none => rfl
    | some n => exact congrArg (fun x => Except.ok (some x)) (bytePos_add s p n)
  | cons x r ih =>
    obtain ⟨a, e⟩ := x
    intro p ho
    obtain ⟨h1, h2, h3, _, _, h6⟩ := ho
    simp only [bytesOf, List.map_cons, gapsLoop, C86_slice s p a h1, bind, Except.bind, checkGaps]
    rw [findB_eq (by simp)]
    cases hf : find c!":}" (slice s p a) with
    | none => exact ih e h6
    | some n =>
      simp only [Option.map_some]
      obtain ⟨⟨x, y, hxy, hn⟩, _⟩ := (find_eq_some (by simp)).1 hf
      have hlen : n ≤ a - p := by
        have := congrArg List.length hxy
        simp [slice] at this
        omega
      have : bl ((slice s p a).take n) = bytePos (slice s p a) n := rfl
      rw [this, bytePos_slice s p a n hlen, bytePos_add]

theorem bytePos_zero (s : Str) : bytePos s 0 = 0 := rfl

/-- **C86 (extract_blocks).** On every source the byte scanner of the code ends without a panic, and finds the blocks of
the model: the positions it reports, of blocks and of an unmatched `:}`, are the byte positions of those characters. -/
theorem C86_blocks (s : Str) : extractBlocks (utf8 s) = .ok (match Nts.extractBlocks s with
    | .ok l => .ok (bytesOf s l)
    | .error p => .error (bytePos s p)) := by
  have hb := blocks_loop ((utf8 s).length + 1) [] s (by have := Nts.byteLen_ge' s; omega)
  simp only [List.nil_append, bl_nil, List.length_nil] at hb
  have ho := scanBlocks_ordered s s 0 0 rfl (by omega)
  have hg := gaps_loop s _ 0 ho
  unfold extractBlocks Nts.extractBlocks
  rw [bytePos_zero] at hg
  simp only [hb, bind, Except.bind, hg]
  cases checkGaps s 0 (scanBlocks 0 0 s) <;> rfl

/-! ### remove_comments -/

theorem scanRC_text (n : Nat) {a : Str} (ha : ':' ∉ a) (r : Str) : ∀ (prev : Char) (cur pos : Nat),
    scanRC prev n cur pos (a ++ ':' :: r) = scanRC (lastOr prev a) n cur (pos + a.length) (':' :: r) := by
  induction a with
  | nil => intro prev cur pos; rfl
  | cons c a ih =>
    intro prev cur pos
    rw [List.cons_append, scanRC_chr (by intro h; exact ha (by simp [h])) (by simp), ih (by intro h; exact ha (by simp [h]))]
    simp only [lastOr, List.length_cons]; congr 1; omega

theorem scanRC_none (n : Nat) {a : Str} (ha : ':' ∉ a) : ∀ (prev : Char) (cur pos : Nat),
    scanRC prev n cur pos a = .unclosed n cur := by
  induction a with
  | nil => intro prev cur pos; rfl
  | cons c a ih =>
    intro prev cur pos
    cases a with
    | nil =>
      have : c ≠ ':' := by intro h; exact ha (by simp [h])
      simp [scanRC, this]
    | cons d a =>
      rw [scanRC_chr (by intro h; exact ha (by simp [h])) (by simp)]
      exact ih (by intro h; exact ha (by simp [h])) _ _ _

/-- What the loop of the code gives for a result of the model. -/
def rcRes (s : Str) : RC → M (Nat × Nat × Bool)
  | .panic => .error .panic
  | .closed n e => .ok (n, bytePos s e, true)
  | .unclosed n e => .ok (n, bytePos s e, false)

theorem rc_loop (f : Nat) : ∀ (n : Nat) (pre : Str) (prev : Char) (rest : Str), rest.length < f →
    rcLoop (utf8 (pre ++ [prev] ++ rest)) f n (bl (pre ++ [prev])) =
      rcRes (pre ++ [prev] ++ rest) (scanRC prev n (pre.length + 1) (pre.length + 1) rest) := by
  induction f with
  | zero => intro n pre prev rest h; exact absurd h (by omega)
  | succ f ih =>
    intro n pre prev rest hf
    unfold rcLoop
    rw [sliceFrom_bl]
    rcases find_colon rest with ⟨h1, h2⟩ | ⟨a, r, h1, h2, h3⟩
    · simp only [h2, bind, Except.bind]
      rw [scanRC_none n h1]
      show _ = Except.ok (n, bytePos (pre ++ [prev] ++ rest) (pre.length + 1), false)
      rw [bytePos_of (a := pre ++ [prev]) (b := rest) rfl (by simp)]
    · simp only [h2, bind, Except.bind]
      subst h1
      rw [scanRC_text n h3]
      have hd : bl (pre ++ [prev]) + bl a = bl (pre ++ [prev] ++ a) := (bl_append _ _).symm
      have hlen : (utf8 (pre ++ [prev] ++ (a ++ ':' :: r))).length = bl (pre ++ [prev] ++ a) + 1 + bl r := by
        show bl (pre ++ [prev] ++ (a ++ ':' :: r)) = _
        have : pre ++ [prev] ++ (a ++ ':' :: r) = pre ++ [prev] ++ a ++ [':'] ++ r := by simp
        rw [this, bl_append, bl_colon]
      have next : ∀ m, rcLoop (utf8 (pre ++ [prev] ++ (a ++ ':' :: r))) f m (bl (pre ++ [prev] ++ a) + 1) =
          rcRes (pre ++ [prev] ++ (a ++ ':' :: r))
            (scanRC ':' m (pre.length + 1 + a.length + 1) (pre.length + 1 + a.length + 1) r) := by
        intro m
        have := ih m (pre ++ [prev] ++ a) ':' r (by simp at hf; omega)
        rw [bl_colon] at this
        have e : pre ++ [prev] ++ a ++ [':'] ++ r = pre ++ [prev] ++ (a ++ ':' :: r) := by simp
        rw [e] at this
        rw [this]; simp only [List.length_append, List.length_cons, List.length_nil]
      rw [hd]
      rw [if_neg (by rw [hlen]; omega)]
      cases r with
      | nil =>
        obtain ⟨z, hz⟩ := last_split prev pre a
        obtain ⟨x, hx1, hx2⟩ := byteAt_last z (lastOr prev a) [':']
        have e : pre ++ [prev] ++ (a ++ [':']) = z ++ lastOr prev a :: [':'] := by
          have : pre ++ [prev] ++ (a ++ [':']) = (pre ++ [prev] ++ a) ++ [':'] := by simp
          rw [this, hz]; simp
        rw [← hz, ← e] at hx1
        have hy : byteAt (utf8 (pre ++ [prev] ++ (a ++ [':']))) (bl (pre ++ [prev] ++ a) + 1) = .error .panic := by
          have := byteAt_end (pre ++ [prev] ++ a ++ [':'])
          rw [bl_colon] at this
          have e : pre ++ [prev] ++ a ++ [':'] = pre ++ [prev] ++ (a ++ [':']) := by simp
          rw [e] at this
          exact this
        have hc : closesAt (utf8 (pre ++ [prev] ++ (a ++ [':']))) (bl (pre ++ [prev] ++ a)) = .error .panic := by
          unfold closesAt
          rw [hy]; rfl
        have hres : scanRC (lastOr prev a) n (pre.length + 1) (pre.length + 1 + a.length) [':'] = .panic := by
          simp [scanRC]
        rw [hres]
        unfold opensAt
        simp only [hx1, bind, Except.bind, hx2 '{' (by decide)]
        by_cases k : lastOr prev a = '{'
        · rw [if_pos k, hy]; rfl
        · rw [if_neg k]
          simp only [pure, Except.pure, innerAt]
          by_cases k2 : 0 < n
          · rw [if_pos k2, hc]; rfl
          · rw [if_neg k2, hc]; rfl
      | cons d r =>
        obtain ⟨x, y, hx, hy, hx', hy'⟩ := around pre prev a d r
        have e : pre ++ [prev] ++ (a ++ ':' :: d :: r) = pre ++ [prev] ++ a ++ ':' :: d :: r := by simp
        rw [← e] at hx hy
        have ho : opensAt (utf8 (pre ++ [prev] ++ (a ++ ':' :: d :: r))) (bl (pre ++ [prev] ++ a)) =
            .ok (decide (lastOr prev a = '{' ∧ d = '*')) := by
          unfold opensAt
          simp only [hx, hy, bind, Except.bind, pure, Except.pure, hx' '{' (by decide), hy' '*' (by decide)]
          by_cases k : lastOr prev a = '{' <;> simp [k]
        have hc : closesAt (utf8 (pre ++ [prev] ++ (a ++ ':' :: d :: r))) (bl (pre ++ [prev] ++ a)) =
            .ok (decide (lastOr prev a = '*' ∧ d = '}')) := by
          unfold closesAt
          simp only [hx, hy, bind, Except.bind, pure, Except.pure, hx' '*' (by decide), hy' '}' (by decide)]
          by_cases k : d = '}' <;> simp [k]
        rw [ho, hc]
        unfold innerAt
        rw [hc]
        dsimp only
        rw [scanRC]
        simp only [decide_eq_true_eq, if_true]
        by_cases k1 : lastOr prev a = '{' ∧ d = '*'
        · rw [if_pos k1, if_pos k1, next]
        · rw [if_neg k1, if_neg k1]
          by_cases k2 : lastOr prev a = '*' ∧ d = '}'
          · rw [if_pos k2]
            by_cases k3 : 0 < n
            · rw [if_pos k3, if_pos k3, decide_eq_true k2]
              dsimp only
              rw [if_pos rfl, next, if_pos k2]
            · rw [if_neg k3, if_neg k3, if_pos k2]
              simp only [pure, Except.pure, if_false, Bool.false_eq_true]
              show _ = Except.ok (n, bytePos (pre ++ [prev] ++ (a ++ ':' :: d :: r)) (pre.length + 1 + a.length + 2), true)
              have : bytePos (pre ++ [prev] ++ (a ++ ':' :: d :: r)) (pre.length + 1 + a.length + 2)
                  = bl (pre ++ [prev] ++ a) + 2 := by
                rw [bytePos_of (a := pre ++ [prev] ++ a ++ [':'] ++ [d]) (b := r) (by simp) (by simp; omega)]
                rw [bl_append, bl_colon, bl_ascii (by rw [k2.2]; decide)]
              rw [this]
          · rw [if_neg k2]
            have hi : (if 0 < n then Except.ok (decide (lastOr prev a = '*' ∧ d = '}')) else pure false : M Bool) = .ok false := by
              by_cases k3 : 0 < n
              · rw [if_pos k3]; simp [k2]
              · rw [if_neg k3]; rfl
            rw [hi]
            simp only [k2, decide_false, if_false, Bool.false_eq_true]
            exact next n

theorem scanRC_bounds (s : Str) : ∀ (prev : Char) (n cur pos : Nat),
    (∀ m e, scanRC prev n cur pos s = .closed m e → pos + 2 ≤ e ∧ e ≤ pos + s.length) ∧
    (∀ m e, scanRC prev n cur pos s = .unclosed m e → e = cur ∨ (pos ≤ e ∧ e ≤ pos + s.length)) := by
  induction s with
  | nil =>
    intro prev n cur pos
    refine ⟨fun m e h => ?_, fun m e h => ?_⟩
    · simp [scanRC] at h
    · simp [scanRC] at h; exact .inl h.2.symm
  | cons c t ih =>
    intro prev n cur pos
    cases t with
    | nil =>
      refine ⟨fun m e h => ?_, fun m e h => ?_⟩
      · simp only [scanRC] at h; split at h <;> simp at h
      · simp only [scanRC] at h
        split at h
        · simp at h
        · simp at h; exact .inl h.2.symm
    | cons d r =>
      have step : ∀ k cur', (∀ m e, scanRC c k cur' (pos + 1) (d :: r) = .closed m e → pos + 2 ≤ e ∧ e ≤ pos + (c :: d :: r).length) := by
        intro k cur' m e h
        have := (ih c k cur' (pos + 1)).1 m e h
        simp only [List.length_cons] at this ⊢; omega
      have step2 : ∀ k, (∀ m e, scanRC c k (pos + 1) (pos + 1) (d :: r) = .unclosed m e → e = cur ∨ (pos ≤ e ∧ e ≤ pos + (c :: d :: r).length)) := by
        intro k m e h
        have := (ih c k (pos + 1) (pos + 1)).2 m e h
        simp only [List.length_cons] at this ⊢; omega
      have step3 : ∀ k, (∀ m e, scanRC c k cur (pos + 1) (d :: r) = .unclosed m e → e = cur ∨ (pos ≤ e ∧ e ≤ pos + (c :: d :: r).length)) := by
        intro k m e h
        have := (ih c k cur (pos + 1)).2 m e h
        simp only [List.length_cons] at this ⊢; omega
      refine ⟨fun m e h => ?_, fun m e h => ?_⟩
      · rw [scanRC] at h
        split at h
        · split at h
          · exact step _ _ m e h
          · split at h
            · split at h
              · exact step _ _ m e h
              · simp at h; simp only [List.length_cons]; omega
            · exact step _ _ m e h
        · exact step _ _ m e h
      · rw [scanRC] at h
        split at h
        · split at h
          · exact step2 _ m e h
          · split at h
            · split at h
              · exact step2 _ m e h
              · simp at h
            · exact step2 _ m e h
        · exact step3 _ m e h

/-- Positions in order. -/
def Asc : Nat → List (Nat × Nat) → Prop
  | _, [] => True
  | p, (a, e) :: r => p ≤ a ∧ a ≤ e ∧ Asc e r

theorem Asc.mono {l : List (Nat × Nat)} {p q : Nat} (h : Asc q l) (hpq : p ≤ q) : Asc p l := by
  cases l with
  | nil => trivial
  | cons x r => exact ⟨Nat.le_trans hpq h.1, h.2⟩

theorem scanRCs_text {a rest : Str} (h : ∀ i, i < a.length → ¬ c!"{:*" <+: (a ++ rest).drop i) : ∀ n cur pos,
    scanRCs n cur pos 0 (a ++ rest) = scanRCs n cur (pos + a.length) 0 rest := by
  induction a with
  | nil => intro n cur pos; rfl
  | cons c a ih =>
    intro n cur pos
    rw [List.cons_append, scanRCs]
    have h0 := h 0 (by simp)
    rw [stripPrefix?_eq_none.2 (by simpa using h0)]
    dsimp only
    rw [ih (fun i hi => by have := h (i + 1) (by simp; omega); simpa using this)]
    congr 1; simp only [List.length_cons]; omega

theorem scanRCs_none {s : Str} (h : ¬ c!"{:*" <:+: s) (n cur pos : Nat) : scanRCs n cur pos 0 s = some ([], cur) := by
  have := scanRCs_text (a := s) (rest := []) (fun i _ hp => h (by
    rw [List.append_nil] at hp
    exact hp.isInfix.trans (List.drop_suffix i s).isInfix)) n cur pos
  rw [List.append_nil] at this
  rw [this]; rfl

/-- What the outer loop of the code gives for a result of the model. -/
def rcsRes (s : Str) : Option (List (Nat × Nat) × Nat) → M (List (Nat × Nat) × Nat)
  | none => .error .panic
  | some (l, c) => .ok (bytesOf s l, bytePos s c)

theorem rcs_loop (f : Nat) : ∀ (n : Nat) (pre rest : Str), rest.length < f →
    rcsLoop (utf8 (pre ++ rest)) f n (bl pre) = rcsRes (pre ++ rest) (scanRCs n pre.length pre.length 0 rest) ∧
    ∀ l c, scanRCs n pre.length pre.length 0 rest = some (l, c) → Asc pre.length l := by
  induction f with
  | zero => intro n pre rest h; exact absurd h (by omega)
  | succ f ih =>
    intro n pre rest hf
    unfold rcsLoop
    rw [sliceFrom_bl]
    rcases find_first c!"{:*" (by simp) rest with ⟨h1, h2⟩ | ⟨a, body, h1, h2, h3⟩
    · simp only [h2, bind, Except.bind]
      rw [scanRCs_none h1]
      refine ⟨?_, ?_⟩
      · show _ = Except.ok (_, bytePos (pre ++ rest) pre.length)
        rw [bytePos_append]; rfl
      · intro l c h; injection h with h; injection h with h _; subst h; trivial
    · simp only [h2, bind, Except.bind]
      subst h1
      have hd : bl pre + bl a = bl (pre ++ a) := (bl_append _ _).symm
      have h2' : bl (pre ++ a) + 3 = bl (pre ++ a ++ c!"{:*") := by
        rw [bl_append (pre ++ a)]; rfl
      have e : pre ++ (a ++ c!"{:*" ++ body) = pre ++ a ++ c!"{:*" ++ body := by simp
      rw [hd, h2', e]
      have hb : body.length < (utf8 (pre ++ a ++ c!"{:*" ++ body)).length + 1 := by
        have := Nts.byteLen_ge' (pre ++ a ++ c!"{:*" ++ body)
        simp only [List.length_append, List.length_cons, List.length_nil] at this ⊢
        omega
      have hloop := rc_loop _ n (pre ++ a ++ c!"{:") '*' body (by
        have e : pre ++ a ++ c!"{:*" = pre ++ a ++ c!"{:" ++ ['*'] := by simp
        rw [e] at hb; exact hb)
      have e2 : pre ++ a ++ c!"{:" ++ ['*'] = pre ++ a ++ c!"{:*" := by simp
      have e3 : (pre ++ a ++ c!"{:").length + 1 = (pre ++ a).length + 3 := by simp; omega
      rw [e2, e3] at hloop
      rw [hloop]
      have hscan : scanRCs n pre.length pre.length 0 (a ++ c!"{:*" ++ body) =
          scanRCs n pre.length (pre ++ a).length 0 (c!"{:*" ++ body) := by
        rw [List.append_assoc, scanRCs_text (by rw [← List.append_assoc]; exact h3)]
        simp
      rw [hscan]
      have hcons : c!"{:*" ++ body = '{' :: (':' :: '*' :: body) := rfl
      rw [hcons, scanRCs]
      have hsp : stripPrefix? c!"{:*" ('{' :: ':' :: '*' :: body) = some body := stripPrefix?_append c!"{:*" body
      rw [hsp]
      dsimp only
      have hbnd := scanRC_bounds body '*' n ((pre ++ a).length + 3) ((pre ++ a).length + 3)
      have jump : ∀ m e', (pre ++ a).length + 3 ≤ e' → e' ≤ (pre ++ a).length + 3 + body.length →
          ∃ x r, body = x ++ r ∧ e' = (pre ++ a ++ c!"{:*" ++ x).length ∧
            bytePos (pre ++ a ++ c!"{:*" ++ body) e' = bl (pre ++ a ++ c!"{:*" ++ x) ∧
            scanRCs m e' ((pre ++ a).length + 1) (e' - (pre ++ a).length - 1) (':' :: '*' :: body) =
              scanRCs m (pre ++ a ++ c!"{:*" ++ x).length (pre ++ a ++ c!"{:*" ++ x).length 0 r := by
        intro m e' hlo hhi
        have hx : body = body.take (e' - ((pre ++ a).length + 3)) ++ body.drop (e' - ((pre ++ a).length + 3)) :=
          (List.take_append_drop _ _).symm
        have hl : (body.take (e' - ((pre ++ a).length + 3))).length = e' - ((pre ++ a).length + 3) := by
          rw [List.length_take]; omega
        generalize body.take (e' - ((pre ++ a).length + 3)) = x at hx hl
        generalize body.drop (e' - ((pre ++ a).length + 3)) = r at hx
        have he : e' = (pre ++ a ++ c!"{:*" ++ x).length := by
          simp only [List.length_append, List.length_cons, List.length_nil] at hl hlo ⊢; omega
        refine ⟨x, r, hx, he, bytePos_of (b := r) (by rw [hx]; simp) he, ?_⟩
        have hk : ':' :: '*' :: body = (':' :: '*' :: x) ++ r := by rw [hx]; simp
        have hn : e' - (pre ++ a).length - 1 = (':' :: '*' :: x).length := by
          simp only [List.length_append, List.length_cons, List.length_nil] at he hl hlo ⊢; omega
        rw [hk, hn, scanRCs_skip]
        congr 1
        simp only [List.length_append, List.length_cons, List.length_nil] at he hl hlo ⊢; omega
      cases hs : scanRC '*' n ((pre ++ a).length + 3) ((pre ++ a).length + 3) body with
      | panic => exact ⟨rfl, fun l c h => by cases h⟩
      | closed m e' =>
        have hb := hbnd.1 m e' hs
        obtain ⟨x, r, hx, he, hp, hsc⟩ := jump m e' (by omega) (by omega)
        dsimp only [rcRes]
        rw [hsc, hp, if_pos rfl]
        have hfull : pre ++ a ++ c!"{:*" ++ body = pre ++ a ++ c!"{:*" ++ x ++ r := by rw [hx]; simp
        have hi := ih m (pre ++ a ++ c!"{:*" ++ x) r (by rw [hx] at hf; simp at hf; omega)
        rw [hfull, hi.1]
        cases hr : scanRCs m (pre ++ a ++ c!"{:*" ++ x).length (pre ++ a ++ c!"{:*" ++ x).length 0 r with
        | none => exact ⟨rfl, fun l c h => by cases h⟩
        | some lc =>
          obtain ⟨l, c⟩ := lc
          refine ⟨?_, ?_⟩
          · show Except.ok _ = Except.ok _
            dsimp only [Option.map_some]
            rw [bytesOf, bytesOf, List.map_cons]
            congr 3
            · congr 1
              · rw [← hfull]
                exact (bytePos_of (a := pre ++ a) (b := c!"{:*" ++ body) (by simp) rfl).symm
              · rw [← hfull, hp]
          · intro l' c' h
            simp only [Option.map_some, Option.some.injEq, Prod.mk.injEq] at h
            rw [← h.1]
            refine ⟨by simp, by omega, ?_⟩
            rw [he]
            exact hi.2 l c hr
      | unclosed m e' =>
        have hb := hbnd.2 m e' hs
        obtain ⟨x, r, hx, he, hp, hsc⟩ := jump m e' (by omega) (by omega)
        dsimp only [rcRes]
        rw [hsc, hp, if_neg (by simp)]
        have hfull : pre ++ a ++ c!"{:*" ++ body = pre ++ a ++ c!"{:*" ++ x ++ r := by rw [hx]; simp
        have hi := ih m (pre ++ a ++ c!"{:*" ++ x) r (by rw [hx] at hf; simp at hf; omega)
        rw [hfull, hi.1]
        exact ⟨rfl, fun l c h => (hi.2 l c h).mono (by simp)⟩

theorem kept_loop (s : Str) (l : List (Nat × Nat)) : ∀ p, Asc p l →
    keptLoop (utf8 s) (bytePos s p) (bytesOf s l) = .ok (utf8 (gapsText s p l)) := by
  induction l with
  | nil => intro p _; rfl
  | cons x r ih =>
    obtain ⟨a, e⟩ := x
    intro p h
    have := ih e h.2.2
    simp only [bytesOf, List.map_cons, keptLoop, C86_slice s p a h.1, bind, Except.bind, gapsText, utf8_append]
    simp only [bytesOf] at this
    rw [this]; rfl

/-- **C86 (remove_comments).** On every source the byte scanner of the code gives the text of the model, and panics exactly
when the model does. -/
theorem C86_comments (s : Str) : removeComments (utf8 s) = (match Nts.removeComments s with
    | some t => .ok (utf8 t)
    | none => .error .panic) := by
  have h := rcs_loop ((utf8 s).length + 1) 0 [] s (by have := Nts.byteLen_ge' s; omega)
  simp only [List.nil_append, bl_nil, List.length_nil] at h
  unfold removeComments Nts.removeComments
  rw [h.1]
  cases hr : scanRCs 0 0 0 0 s with
  | none => rfl
  | some lc =>
    obtain ⟨l, c⟩ := lc
    have hk := kept_loop s l 0 (h.2 l c hr)
    rw [bytePos_zero] at hk
    show (do
      let x ← keptLoop (utf8 s) 0 (bytesOf s l)
      let y ← sliceFrom (utf8 s) (bytePos s c)
      pure (x ++ y)) = _
    rw [hk, C86_rest]
    show Except.ok _ = Except.ok _
    rw [utf8_append]

/-! ### get_code_position -/

theorem codeLoop_end (src : Bytes) (f : Nat) (L : Int) {i : Nat} (h : src.length ≤ i + 1) :
    codeLoop src (f + 1) L i = .ok none := by
  unfold codeLoop
  rw [if_neg (by omega)]

theorem codeLoop_cont (src : Bytes) (L : Int) (A bs C : Bytes) (hs : src = A ++ bs ++ C)
    (hb : ∀ x ∈ bs, 128 ≤ x.toNat) : ∀ f,
    codeLoop src (f + bs.length + 1) L A.length = codeLoop src (f + 1) L (A.length + bs.length) := by
  induction bs generalizing A with
  | nil => intro f; rfl
  | cons x bs ih =>
    intro f
    have hx := hb x (by simp)
    have hi := ih (A ++ [x]) (by rw [hs]; simp) (fun y hy => hb y (by simp [hy])) f
    have e1 : (A ++ [x]).length + bs.length = A.length + (x :: bs).length := by simp; omega
    rw [e1] at hi
    by_cases h : A.length + 1 < src.length
    · have h0 : byteAt src A.length = .ok x := by
        unfold byteAt; rw [hs]; simp
      obtain ⟨y, hy⟩ : ∃ y, byteAt src (A.length + 1) = .ok y := by
        unfold byteAt; rw [List.getElem?_eq_getElem h]; exact ⟨_, rfl⟩
      rw [← hi]
      rw [codeLoop, if_pos h, h0]
      simp only [hy, bind, Except.bind]
      have n1 : x.toNat ≠ '{'.toNat := by have : '{'.toNat < 128 := by decide
                                          omega
      have n2 : x.toNat ≠ ':'.toNat := by have : ':'.toNat < 128 := by decide
                                          omega
      have n3 : x.toNat ≠ '>'.toNat := by have : '>'.toNat < 128 := by decide
                                          omega
      rw [if_neg (fun h => n1 h.1), if_neg (fun h => n2 h.1), if_neg (fun h => n3 h.1)]
      congr 1; simp
    · rw [codeLoop_end _ _ _ (by omega), codeLoop_end _ _ _ (by omega)]

theorem code_loop (k : Nat) : ∀ (rest : Str), rest.length < k → ∀ (L : Int) (pre : Str) (f : Nat), bl rest ≤ f →
    codeLoop (utf8 (pre ++ rest)) (f + 1) L (bl pre) = .ok ((codePosGo L pre.length false rest).map (bytePos (pre ++ rest))) := by
  induction k with
  | zero => intro rest h; exact absurd h (by omega)
  | succ k ih =>
    intro rest hk L pre f hf
    cases rest with
    | nil => rw [codeLoop_end _ _ _ (by show bl _ ≤ _; rw [bl_append]; simp)]; rfl
    | cons c r =>
      have split : bl (c :: r) = bl [c] + bl r := bl_append [c] r
      have full : pre ++ [c] ++ r = pre ++ c :: r := by simp
      have hpos : (pre ++ [c]).length = pre.length + 1 := by simp
      by_cases hc : c.toNat < 128
      · have h1 := bl_ascii hc
        cases r with
        | nil =>
          rw [codeLoop_end _ _ _ (by show bl _ ≤ _; rw [bl_append, h1]; exact Nat.le_refl _)]; rfl
        | cons d r =>
          have hdp := bl_pos (a := d :: r) (by simp)
          have hlen : (utf8 (pre ++ c :: d :: r)).length = bl pre + 1 + bl (d :: r) := by
            show bl _ = _
            rw [bl_append, split, h1]; omega
          obtain ⟨x, hx, hx'⟩ := byteAt_first pre c (d :: r)
          obtain ⟨y, hy, hy'⟩ := byteAt_first (pre ++ [c]) d r
          rw [bl_append, h1, full] at hy
          obtain ⟨g, hg⟩ : ∃ g, f = g + 1 := ⟨f - 1, by omega⟩
          have one : ∀ M, codeLoop (utf8 (pre ++ c :: d :: r)) f M (bl pre + 1) =
              .ok ((codePosGo M (pre.length + 1) false (d :: r)).map (bytePos (pre ++ c :: d :: r))) := by
            intro M
            have := ih (d :: r) (by simp at hk ⊢; omega) M (pre ++ [c]) g (by omega)
            rw [bl_append, h1, full, hpos] at this
            rw [hg]; exact this
          have two : d.toNat < 128 → ∀ M, codeLoop (utf8 (pre ++ c :: d :: r)) f M (bl pre + 2) =
              .ok ((codePosGo M (pre.length + 1) true (d :: r)).map (bytePos (pre ++ c :: d :: r))) := by
            intro hd M
            have sp2 : bl (d :: r) = bl [d] + bl r := bl_append [d] r
            have h2 := bl_ascii hd
            obtain ⟨g, hg⟩ : ∃ g, f = g + 1 := ⟨f - 1, by omega⟩
            have := ih r (by simp at hk ⊢; omega) M (pre ++ [c] ++ [d]) g (by omega)
            have e : pre ++ [c] ++ [d] ++ r = pre ++ c :: d :: r := by simp
            rw [bl_append, bl_append, h1, h2, e] at this
            rw [hg, this, codePosGo_skip]
            simp
          rw [codeLoop, if_pos (by omega), hx]
          simp only [hy, bind, Except.bind, hx' '{' (by decide), hx' ':' (by decide), hx' '>' (by decide),
            hy' ':' (by decide), hy' '}' (by decide), hy' '>' (by decide)]
          rw [codePosGo]
          simp only [Bool.false_eq_true, if_false]
          by_cases k1 : c = '{' ∧ d = ':'
          · rw [if_pos k1, if_pos k1, two (by rw [k1.2]; decide)]
          · rw [if_neg k1, if_neg k1]
            by_cases k2 : c = ':' ∧ d = '}'
            · rw [if_pos k2, if_pos k2, two (by rw [k2.2]; decide)]
            · rw [if_neg k2, if_neg k2]
              by_cases k3 : c = '>' ∧ d = '>'
              · rw [if_pos k3, if_pos k3]
                by_cases k4 : L = 0
                · rw [if_pos k4, if_pos k4]
                  simp only [Option.map_some, bytePos_append]
                · rw [if_neg k4, if_neg k4, two (by rw [k3.2]; decide)]
              · rw [if_neg k3, if_neg k3, one]
      · obtain ⟨b, bs, hb, hb1, hb2, hb3⟩ := enc_multi (c := c) (by omega)
        have hbl : bl [c] = (b :: bs).length := by simp [bl, utf8, hb]
        have hbytes : utf8 (pre ++ c :: r) = utf8 pre ++ (b :: bs) ++ utf8 r := by
          rw [utf8_append, utf8_cons, hb]; simp
        have hcont := codeLoop_cont (utf8 (pre ++ c :: r)) L (utf8 pre) (b :: bs) (utf8 r) hbytes (by
          intro x hx
          rcases List.mem_cons.1 hx with rfl | hx
          · omega
          · exact (hb3 x hx).1) (f - bl [c])
        have ef : f - bl [c] + (b :: bs).length + 1 = f + 1 := by rw [← hbl]; omega
        rw [ef, ← hbl] at hcont
        have := ih r (by simp at hk; omega) L (pre ++ [c]) (f - bl [c]) (by omega)
        rw [bl_append, full, hpos] at this
        show codeLoop _ _ _ (utf8 pre).length = _
        rw [hcont]
        show codeLoop _ _ _ (bl pre + bl [c]) = _
        rw [this]
        cases r with
        | nil => rfl
        | cons d r =>
          have n1 : c ≠ '{' := by intro h; subst h; exact hc (by decide)
          have n2 : c ≠ ':' := by intro h; subst h; exact hc (by decide)
          have n3 : c ≠ '>' := by intro h; subst h; exact hc (by decide)
          rw [codePosGo]
          simp [n1, n2, n3]

theorem contains_none {p : Str} (hp : p ≠ []) (s : Str) : (findB (utf8 p) (utf8 s)).isNone = !contains p s := by
  rw [findB_eq hp]
  unfold find contains
  cases splitOnce p s <;> rfl

/-- **C86 (get_code_position).** The byte position of the separator is that of the character found by the model. -/
theorem C86_code (s : Str) : getCodePosition (utf8 s) = .ok ((Nts.getCodePosition s).map (bytePos s)) := by
  unfold getCodePosition Nts.getCodePosition
  rw [contains_none (by simp)]
  by_cases h : contains c!">>" s
  · rw [h]
    simp only [Bool.not_true, Bool.false_eq_true, if_false]
    have := code_loop _ s (Nat.lt_succ_self _) 0 [] (utf8 s).length (Nat.le_refl _)
    simpa using this
  · simp only [Bool.not_eq_true] at h
    rw [h]; rfl

theorem codePosGo_at {s : Str} : ∀ {L : Int} {pos : Nat} {skip : Bool} {p : Nat}, codePosGo L pos skip s = some p →
    ∃ a r, s = a ++ c!">>" ++ r ∧ p = pos + a.length := by
  induction s with
  | nil => intro L pos skip p h; simp [codePosGo] at h
  | cons c t ih =>
    intro L pos skip p h
    cases t with
    | nil => simp [codePosGo] at h
    | cons d r =>
      have next : ∀ L' sk, codePosGo L' (pos + 1) sk (d :: r) = some p → ∃ a r', c :: d :: r = a ++ c!">>" ++ r' ∧ p = pos + a.length := by
        intro L' sk h
        obtain ⟨a, r', h1, h2⟩ := ih h
        exact ⟨c :: a, r', by rw [h1]; simp, by rw [h2]; simp; omega⟩
      rw [codePosGo] at h
      split at h
      · exact next _ _ h
      · split at h
        · exact next _ _ h
        · split at h
          · exact next _ _ h
          · split at h
            · split at h
              · next h3 _ =>
                injection h with h
                exact ⟨[], r, by rw [h3.1, h3.2]; rfl, by simp [h]⟩
              · exact next _ _ h
            · exact next _ _ h

/-- **C86 (parameters and code).** The two slices of `extract_params_code` never panic, and are the texts before and after
the separator. -/
theorem C86_split (s : Str) : splitCode (utf8 s) = .ok (match Nts.getCodePosition s with
    | some p => (some (utf8 (s.take p)), utf8 (s.drop (p + 2)))
    | none => (none, utf8 s)) := by
  unfold splitCode
  rw [C86_code]
  cases h : Nts.getCodePosition s with
  | none => rfl
  | some p =>
    have h' : codePosGo 0 0 false s = some p := by
      unfold Nts.getCodePosition at h
      split at h
      · cases h
      · exact h
    obtain ⟨a, r, h1, h2⟩ := codePosGo_at h'
    have hp : bytePos s p + 2 = bytePos s (p + 2) := by
      rw [← bytePos_add s p 2]
      congr 1
      have : s.drop p = c!">>" ++ r := by rw [h1, h2]; simp
      rw [this]; rfl
    show (do
      let a ← sliceB (utf8 s) 0 (bytePos s p)
      let b ← sliceFrom (utf8 s) (bytePos s p + 2)
      pure (some a, b)) = _
    have := C86_slice s 0 p (by omega)
    rw [bytePos_zero] at this
    rw [this, hp, C86_rest]
    simp [slice, bind, Except.bind, pure, Except.pure]

/-! ### set_modifiers -/

theorem isBoundary_inside (a : Str) {c : Char} (hc : ¬ c.toNat < 128) (r : Str) :
    isBoundary (utf8 (a ++ c :: r)) (bl a + 1) = false := by
  obtain ⟨b, bs, hb, _, hne, hcont⟩ := enc_multi (c := c) (by omega)
  obtain ⟨x, xs, rfl⟩ := List.exists_cons_of_ne_nil hne
  have hx := hcont x (by simp)
  have : (utf8 (a ++ c :: r))[bl a + 1]? = some x := by
    rw [utf8_append, bl, List.getElem?_append_right (by omega), utf8_cons, hb]
    have : (utf8 a).length + 1 - (utf8 a).length = 1 := by omega
    rw [this]; rfl
  show (match (utf8 (a ++ c :: r))[bl a + 1]? with
    | some x => decide (x.toNat < 128) || decide (192 ≤ x.toNat)
    | none => bl a + 1 == (utf8 (a ++ c :: r)).length) = false
  rw [this]
  simp; omega

theorem mod_loop (rest : Str) : ∀ (b : BifS) (pre : Str) (f : Nat), rest.length ≤ f →
    match Nts.setModifiers b rest with
    | some (b', r) => ∃ m, rest = m ++ r ∧ modLoop (utf8 (pre ++ rest)) (f + 1) b (bl pre) = .ok (b', bl (pre ++ m))
    | none => modLoop (utf8 (pre ++ rest)) (f + 1) b (bl pre) = .error .panic := by
  induction rest with
  | nil =>
    intro b pre f _
    refine ⟨[], rfl, ?_⟩
    rw [modLoop, if_neg (by show ¬ bl pre < bl _; simp)]; simp
  | cons c r ih =>
    intro b pre f hf
    have hlt : bl pre < (utf8 (pre ++ c :: r)).length := by
      show _ < bl _
      have := bl_pos (a := c :: r) (by simp)
      rw [bl_append]; omega
    by_cases hc : c.toNat < 128
    · have h1 := bl_ascii hc
      have hs : sliceB (utf8 (pre ++ c :: r)) (bl pre) (bl pre + 1) = .ok (utf8 [c]) := by
        have := sliceB_bl pre [c] r
        rw [bl_append, h1] at this
        simpa using this
      have inj : ∀ d : Char, utf8 [c] = utf8 [d] ↔ c = d := fun d =>
        ⟨fun h => by have := utf8_inj h; simpa using this, fun h => by rw [h]⟩
      obtain ⟨g, hg⟩ : ∃ g, f = g + 1 := ⟨f - 1, by simp at hf; omega⟩
      have next : ∀ b1, match Nts.setModifiers b1 r with
          | some (b', r') => ∃ m, c :: r = m ++ r' ∧ modLoop (utf8 (pre ++ c :: r)) f b1 (bl pre + 1) = .ok (b', bl (pre ++ m))
          | none => modLoop (utf8 (pre ++ c :: r)) f b1 (bl pre + 1) = .error .panic := by
        intro b1
        have := ih b1 (pre ++ [c]) g (by simp at hf; omega)
        have e : pre ++ [c] ++ r = pre ++ c :: r := by simp
        rw [e, bl_append, h1] at this
        rw [hg]
        revert this
        cases Nts.setModifiers b1 r with
        | none => exact id
        | some p =>
          obtain ⟨b', r'⟩ := p
          rintro ⟨m, hm1, hm2⟩
          exact ⟨c :: m, by rw [hm1]; rfl, by rw [hm2]; congr 3; simp⟩
      have unf : modLoop (utf8 (pre ++ c :: r)) (f + 1) b (bl pre) =
          if c = '&' then modLoop (utf8 (pre ++ c :: r)) f { b with modFilter := true } (bl pre + 1)
          else if c = '!' then modLoop (utf8 (pre ++ c :: r)) f { b with modNegate := true } (bl pre + 1)
          else if c = '^' then modLoop (utf8 (pre ++ c :: r)) f { b with modUpline := true } (bl pre + 1)
          else if c = '+' then modLoop (utf8 (pre ++ c :: r)) f { b with modScope := true } (bl pre + 1)
          else .ok (b, bl pre) := by
        rw [modLoop, if_pos hlt, hs]
        simp only [bind, Except.bind, inj]
      rw [unf, Nts.setModifiers]
      by_cases k1 : c = '&'
      · simp only [if_pos k1]; exact next _
      by_cases k2 : c = '!'
      · simp only [if_neg k1, if_pos k2]; exact next _
      by_cases k3 : c = '^'
      · simp only [if_neg k1, if_neg k2, if_pos k3]; exact next _
      by_cases k4 : c = '+'
      · simp only [if_neg k1, if_neg k2, if_neg k3, if_pos k4]; exact next _
      simp only [if_neg k1, if_neg k2, if_neg k3, if_neg k4, if_pos hc]
      exact ⟨[], rfl, by simp⟩
    · have n : ∀ d : Char, d.toNat < 128 → c ≠ d := fun d hd h => hc (by rw [h]; exact hd)
      rw [Nts.setModifiers, if_neg (n _ (by decide)), if_neg (n _ (by decide)), if_neg (n _ (by decide)),
        if_neg (n _ (by decide)), if_neg hc]
      dsimp only
      rw [modLoop, if_pos hlt]
      have : sliceB (utf8 (pre ++ c :: r)) (bl pre) (bl pre + 1) = .error .panic := by
        unfold sliceB
        rw [isBoundary_inside pre hc r]
        simp
      rw [this]; rfl

/-- **C86 (modifiers).** `set_modifiers` panics exactly when the model says so, that is when the first character after the
modifiers takes more than one byte; otherwise it gives the same modifiers and the same name. -/
theorem C86_modifiers (b : BifS) (name : Str) : setModifiers b (utf8 name) = (match Nts.setModifiers b name with
    | some (b', r) => .ok (b', utf8 r)
    | none => .error .panic) := by
  have := mod_loop name b [] (utf8 name).length (Nts.byteLen_ge' name)
  unfold setModifiers
  revert this
  cases Nts.setModifiers b name with
  | none =>
    intro h
    simp only [List.nil_append, bl_nil] at h
    rw [h]; rfl
  | some p =>
    obtain ⟨b', r⟩ := p
    rintro ⟨m, hm, h⟩
    simp only [List.nil_append, bl_nil] at h
    rw [h]
    simp only [bind, Except.bind]
    rw [hm, sliceFrom_bl]; rfl

/-! ### resolve_pointer -/

theorem lookupB_eq (o : Obj) (k : Str) : lookupB (utf8 k) o = Obj.get? k o := by
  induction o with
  | nil => rfl
  | cons p r ih =>
    obtain ⟨k', v⟩ := p
    rw [lookupB, Obj.get?, ih]
    by_cases h : k' = k
    · rw [if_pos h, if_pos (by rw [h])]
    · rw [if_neg h, if_neg (fun h' => h (utf8_inj h'))]

theorem digitsB_eq (s : Str) : ∀ acc, digitsB acc (utf8 s) = parseDigits acc s := by
  induction s with
  | nil => intro acc; rfl
  | cons c s ih =>
    intro acc
    obtain ⟨b, bs, hb, hcls, _, h1, h2⟩ := enc_shape c
    rw [utf8_cons, hb, List.cons_append, digitsB, parseDigits]
    unfold digitVal?
    by_cases hc : c.toNat < 128
    · obtain ⟨hbs, hbc⟩ := h1 hc
      rw [hbs, hbc, List.nil_append]
      by_cases hd : 48 ≤ c.toNat ∧ c.toNat ≤ 57
      · rw [if_pos hd, ih]
        simp only [hd.1, hd.2, decide_true, Bool.and_self, if_true]
      · rw [if_neg hd]
        have : (decide (48 ≤ c.toNat) && decide (c.toNat ≤ 57)) = false := by
          simp only [Bool.and_eq_false_iff, decide_eq_false_iff_not]; omega
        simp only [this, Bool.false_eq_true, if_false]
    · have := (h2 (by omega)).1
      rw [if_neg (by omega)]
      have : (decide (48 ≤ c.toNat) && decide (c.toNat ≤ 57)) = false := by
        simp only [Bool.and_eq_false_iff, decide_eq_false_iff_not]; omega
      simp only [this, Bool.false_eq_true, if_false]

theorem utf8_isEmpty (s : Str) : (utf8 s).isEmpty = s.isEmpty := by
  cases s with
  | nil => rfl
  | cons c s => obtain ⟨b, bs, hb, _⟩ := enc_shape c; rw [utf8_cons, hb]; rfl

theorem parseUsizeB_eq (s : Str) : parseUsizeB (utf8 s) = parseU64 s := by
  have body : (match utf8 s with
      | x :: xs => if x.toNat = '+'.toNat then xs else x :: xs
      | [] => []) = utf8 (match s with
      | c :: cs => if c = '+' then cs else c :: cs
      | [] => []) := by
    cases s with
    | nil => rfl
    | cons c cs =>
      obtain ⟨b, bs, hb, hcls, _, h1, h2⟩ := enc_shape c
      rw [utf8_cons, hb]
      dsimp only [List.cons_append]
      by_cases h : c = '+'
      · have hc : c.toNat < 128 := by rw [h]; decide
        obtain ⟨hbs, hbc⟩ := h1 hc
        rw [if_pos h, if_pos (by rw [hbc, h]), hbs]; rfl
      · rw [if_neg h, if_neg, utf8_cons, hb]; rfl
        intro h'
        by_cases hc : c.toNat < 128
        · apply h
          have := (h1 hc).2
          exact Char.ext (UInt32.toNat_inj.1 (by show c.toNat = '+'.toNat; omega))
        · have := (h2 (by omega)).1
          have : '+'.toNat < 128 := by decide
          omega
  have fin : ∀ (B : Bytes) (S : Str), B = utf8 S → (if B.isEmpty then none
      else match digitsB 0 B with
        | some n => if n < 2 ^ 64 then some n else none
        | none => none) = (match parseNat1 S with
        | some n => if n < 2 ^ 64 then some n else none
        | none => none) := by
    intro B S h
    rw [h, utf8_isEmpty, digitsB_eq]
    unfold parseNat1
    split <;> rfl
  exact fin _ _ body

theorem stepB_eq (v : Value) (part : Str) : stepB v (utf8 part) = resolveStep v part := by
  cases v with
  | obj o => exact lookupB_eq o part
  | arr a => show (parseUsizeB _).bind _ = (parseU64 _).bind _; rw [parseUsizeB_eq]
  | _ => rfl

theorem pointerLoop_cont (key : Bytes) (cur : Value) (start : Nat) (A bs C : Bytes) (hs : key = A ++ bs ++ C)
    (hb : ∀ x ∈ bs, 128 ≤ x.toNat) : ∀ f,
    pointerLoop key (f + bs.length + 1) cur start A.length = pointerLoop key (f + 1) cur start (A.length + bs.length) := by
  induction bs generalizing A with
  | nil => intro f; rfl
  | cons x bs ih =>
    intro f
    have hx := hb x (by simp)
    have hi := ih (A ++ [x]) (by rw [hs]; simp) (fun y hy => hb y (by simp [hy])) f
    have e1 : (A ++ [x]).length + bs.length = A.length + (x :: bs).length := by simp; omega
    have e2 : (A ++ [x]).length = A.length + 1 := by simp
    have e3 : f + (x :: bs).length + 1 = f + bs.length + 1 + 1 := by simp; omega
    rw [e1, e2] at hi
    rw [← hi, e3]
    have h0 : byteAt key A.length = .ok x := by
      unfold byteAt; rw [hs]; simp
    have n1 : ¬ x.toNat = '/'.toNat := by
      have : '/'.toNat < 128 := by decide
      omega
    have n2 : ¬ (key.drop A.length).take 2 = utf8 c!"->" := by
      rw [hs, List.append_assoc, List.drop_left, List.cons_append]
      intro h
      have : x = 45 := by
        have := congrArg List.head? h
        simpa [utf8, String.utf8EncodeChar] using this
      rw [this] at hx; exact absurd hx (by decide)
    have hlt : A.length < key.length := by rw [hs]; simp
    conv => lhs; rw [pointerLoop, if_pos hlt, h0]
    simp only [bind, Except.bind, decide_eq_false n1, decide_eq_false n2, Bool.and_false, Bool.or_false, Bool.false_eq_true, if_false]

theorem resolveGo_slash (cur : Value) (part r : Str) : resolveGo cur part ('/' :: r) =
    if part.isEmpty then resolveGo cur [] r else (resolveStep cur part.reverse).bind (fun v => resolveGo v [] r) := by
  rw [resolveGo.eq_def]; rfl

theorem resolveGo_other (cur : Value) (part : Str) (c : Char) (r : Str) (h1 : c ≠ '/') (h2 : ¬ c!"->" <+: c :: r) :
    resolveGo cur part (c :: r) = resolveGo cur (c :: part) r := by
  rw [resolveGo, if_neg h1]
  rintro r' rfl rfl
  exact h2 ⟨r', rfl⟩

theorem pointer_loop (k : Nat) : ∀ (rest : Str), rest.length < k → ∀ (cur : Value) (pre part : Str) (f : Nat), bl rest ≤ f →
    pointerLoop (utf8 (pre ++ part ++ rest)) (f + 1) cur (bl pre) (bl (pre ++ part)) =
      .ok (resolveGo cur part.reverse rest) := by
  induction k with
  | zero => intro rest h; exact absurd h (by omega)
  | succ k ih =>
    intro rest hk cur pre part f hf
    cases rest with
    | nil =>
      rw [pointerLoop, if_neg (by show ¬ _ < bl _; simp), resolveGo]
      simp only [List.append_nil]
      cases part with
      | nil =>
        rw [if_neg (by show ¬ _ < bl _; simp)]; rfl
      | cons p ps =>
        have := bl_pos (a := p :: ps) (by simp)
        rw [if_pos (by show _ < bl _; rw [bl_append]; omega), sliceFrom_bl]
        simp only [bind, Except.bind]
        rw [stepB_eq]
        simp
    | cons c r =>
      have split : bl (c :: r) = bl [c] + bl r := bl_append [c] r
      have hlt : bl (pre ++ part) < (utf8 (pre ++ part ++ c :: r)).length := by
        show _ < bl _
        have := bl_pos (a := c :: r) (by simp)
        rw [bl_append _ (c :: r)]; omega
      have full : pre ++ part ++ [c] ++ r = pre ++ part ++ c :: r := by simp
      have hsl : sliceB (utf8 (pre ++ part ++ c :: r)) (bl pre) (bl (pre ++ part)) = .ok (utf8 part) := sliceB_bl pre part (c :: r)
      have hdrop : (utf8 (pre ++ part ++ c :: r)).drop (bl (pre ++ part)) = utf8 (c :: r) := drop_bl _ _
      obtain ⟨x, hx, hx'⟩ := byteAt_first (pre ++ part) c r
      have arrow : (decide (bl (pre ++ part) + 2 ≤ (utf8 (pre ++ part ++ c :: r)).length) &&
          decide ((utf8 (c :: r)).take 2 = utf8 c!"->")) = decide (c!"->" <+: c :: r) := by
        by_cases h : c!"->" <+: c :: r
        · have h' := utf8_prefix.2 h
          have l : (utf8 c!"->").length = 2 := by decide
          have e := List.prefix_iff_eq_take.1 h'
          rw [l] at e
          have len := h'.length_le
          rw [l] at len
          rw [decide_eq_true h, decide_eq_true e.symm, decide_eq_true]
          · rfl
          · show _ ≤ bl _
            rw [bl_append _ (c :: r)]
            exact Nat.add_le_add_left len _
        · rw [decide_eq_false h]
          simp only [Bool.and_eq_false_iff, decide_eq_false_iff_not]
          right
          intro e
          apply h
          apply utf8_prefix.1
          rw [← e]; exact List.take_prefix _ _
      have next : ∀ (v : Value) (n : Nat) (rest' m : Str), c :: r = m ++ rest' → bl m = n → 0 < n → m.length ≠ 0 →
          pointerLoop (utf8 (pre ++ part ++ c :: r)) f v (bl (pre ++ part) + n) (bl (pre ++ part) + n) = .ok (resolveGo v [] rest') := by
        intro v n rest' m hm hn hn0 hm0
        have hl : (c :: r).length = m.length + rest'.length := by rw [hm]; simp
        have hb : bl (c :: r) = n + bl rest' := by rw [hm, bl_append, hn]
        obtain ⟨g, hg⟩ : ∃ g, f = g + 1 := ⟨f - 1, by omega⟩
        have := ih rest' (by omega) v (pre ++ part ++ m) [] g (by omega)
        rw [List.append_nil, bl_append _ m, hn, List.append_assoc (pre ++ part), ← hm] at this
        rw [hg]; exact this
      have body : pointerLoop (utf8 (pre ++ part ++ c :: r)) (f + 1) cur (bl pre) (bl (pre ++ part)) =
          if c = '/' then (match (if part.isEmpty then some cur else resolveStep cur part) with
            | none => .ok none
            | some v => pointerLoop (utf8 (pre ++ part ++ c :: r)) f v (bl (pre ++ part) + 1) (bl (pre ++ part) + 1))
          else if c!"->" <+: c :: r then (match (if part.isEmpty then some cur else resolveStep cur part) with
            | none => .ok none
            | some v => pointerLoop (utf8 (pre ++ part ++ c :: r)) f v (bl (pre ++ part) + 2) (bl (pre ++ part) + 2))
          else pointerLoop (utf8 (pre ++ part ++ c :: r)) f cur (bl pre) (bl (pre ++ part) + 1) := by
        rw [pointerLoop, if_pos hlt, hx]
        simp only [bind, Except.bind, hdrop, hx' '/' (by decide), hsl, utf8_isEmpty, stepB_eq, Bool.and_assoc, arrow]
        by_cases k1 : c = '/'
        · simp only [decide_eq_true k1, Bool.true_or, if_true, if_pos k1]
          rfl
        · simp only [decide_eq_false k1, Bool.false_or, Bool.not_false, Bool.true_and, if_neg k1, Bool.false_eq_true, if_false]
          by_cases k2 : c!"->" <+: c :: r
          · simp only [decide_eq_true k2, if_true, if_pos k2]
            rfl
          · simp only [decide_eq_false k2, Bool.false_eq_true, if_false, if_neg k2]
      by_cases k1 : c = '/'
      · rw [body, if_pos k1]
        subst k1
        rw [resolveGo_slash]
        simp only [List.isEmpty_reverse, List.reverse_reverse]
        have n1 := fun v => next v 1 r ['/'] rfl (by rfl) (by decide) (by simp)
        by_cases k3 : part.isEmpty
        · simp only [k3, if_true]; exact n1 _
        · simp only [k3, Bool.false_eq_true, if_false]
          cases resolveStep cur part with
          | none => rfl
          | some v => exact n1 v
      · by_cases k2 : c!"->" <+: c :: r
        · rw [body, if_neg k1, if_pos k2]
          obtain ⟨t, ht⟩ := k2
          have e : c = '-' ∧ r = '>' :: t := by
            injection ht with a b; exact ⟨a.symm, b.symm⟩
          obtain ⟨rfl, rfl⟩ := e
          have n1 := fun v => next v 2 t c!"->" rfl (by rfl) (by decide) (by simp)
          rw [resolveGo, if_neg k1]
          simp only [List.isEmpty_reverse, List.reverse_reverse]
          by_cases k3 : part.isEmpty
          · simp only [k3, if_true]; exact n1 _
          · simp only [k3, Bool.false_eq_true, if_false]
            cases resolveStep cur part with
            | none => rfl
            | some v => exact n1 v
        · rw [resolveGo_other _ _ _ _ k1 k2]
          have step := ih r (by simp at hk; omega) cur pre (part ++ [c]) (f - bl [c]) (by omega)
          have e : pre ++ (part ++ [c]) ++ r = pre ++ part ++ c :: r := by simp
          rw [e, ← List.append_assoc, bl_append _ [c], List.reverse_append] at step
          by_cases hc : c.toNat < 128
          · have h1 := bl_ascii hc
            rw [body, if_neg k1, if_neg k2]
            have ef : f - bl [c] + 1 = f := by omega
            rw [ef, h1] at step
            exact step
          · obtain ⟨b, bs, hb, hb1, hb2, hb3⟩ := enc_multi (c := c) (by omega)
            have hbl : bl [c] = (b :: bs).length := by simp [bl, utf8, hb]
            have hbytes : utf8 (pre ++ part ++ c :: r) = utf8 (pre ++ part) ++ (b :: bs) ++ utf8 r := by
              rw [utf8_append _ (c :: r), utf8_cons, hb]; simp
            have hcont := pointerLoop_cont (utf8 (pre ++ part ++ c :: r)) cur (bl pre) (utf8 (pre ++ part)) (b :: bs) (utf8 r) hbytes (by
              intro x hx
              rcases List.mem_cons.1 hx with rfl | hx
              · omega
              · exact (hb3 x hx).1) (f - bl [c])
            have ef : f - bl [c] + (b :: bs).length + 1 = f + 1 := by rw [← hbl]; omega
            rw [ef, ← hbl] at hcont
            show pointerLoop _ _ _ _ (utf8 (pre ++ part)).length = _
            rw [hcont]
            exact step

/-- **C86 (pointers).** `resolve_pointer` never panics on a byte position and finds what the model finds. -/
theorem C86_pointer (v : Value) (key : Str) : resolvePointer v (utf8 key) = .ok (Nts.resolvePointer v key) := by
  unfold resolvePointer Nts.resolvePointer
  rw [contains_none (by simp), contains_none (by simp)]
  split
  · cases v with
    | obj o => simp only [lookupB_eq]; rfl
    | _ => rfl
  · have := pointer_loop _ key (Nat.lt_succ_self _) v [] [] (utf8 key).length (Nat.le_refl _)
    simpa using this

/-! ### find_tag_position -/

/-- **C86 (tags).** `find_tag_position` never panics and its byte position is that of the character found by the model. -/
theorem C86_tag (text tag : Str) (h : tag ≠ []) :
    findTagPosition (utf8 text) (utf8 tag) = .ok ((Nts.findTagPosition text tag).map (bytePos text)) := by
  unfold findTagPosition Nts.findTagPosition
  rw [findB_eq h]
  cases hf : find tag text with
  | none => rfl
  | some p =>
    simp only [Option.map_some]
    have hpre : (!decide (utf8 c!"</" <+: utf8 tag)) = !startsWith c!"</" tag := by
      congr 1
      rw [Bool.eq_iff_iff, decide_eq_true_eq, utf8_prefix, startsWith_iff]
    rw [hpre]
    split
    · have : sliceFrom (utf8 text) (bl (text.take p)) = .ok (utf8 (text.drop p)) := by
        have := sliceFrom_bl (text.take p) (text.drop p)
        rwa [List.take_append_drop] at this
      rw [this]
      simp only [bind, Except.bind]
      rw [findB_eq (by simp)]
      cases hq : find c!">" (text.drop p) with
      | none => rfl
      | some q =>
        simp only [Option.map_some]
        congr 2
        obtain ⟨r, hr⟩ : ∃ r, text.drop p = (text.drop p).take q ++ c!">" ++ r := by
          obtain ⟨⟨a, b, ha, hb⟩, _⟩ := (find_eq_some (by simp)).1 hq
          refine ⟨b, ?_⟩
          rw [← hb, ha]; simp
        have h3 : bytePos text p + bytePos (text.drop p) (q + 1) = bytePos text (p + (q + 1)) := bytePos_add _ _ _
        rw [Nat.add_assoc p q 1, ← h3, Nat.add_assoc]
        congr 1
        have h4 : bytePos (text.drop p) q + bytePos ((text.drop p).drop q) 1 = bytePos (text.drop p) (q + 1) := bytePos_add _ _ _
        rw [← h4]
        congr 1
        have hlen : ((text.drop p).take q).length = q := by
          obtain ⟨⟨a, b, ha, hb⟩, _⟩ := (find_eq_some (by simp)).1 hq
          rw [← hb, ha]; simp
        have : (text.drop p).drop q = c!">" ++ r := by
          rw [hr, List.append_assoc, List.drop_append_of_le_length (by omega), List.drop_of_length_le (by omega)]; rfl
        rw [this]; rfl
    · rfl

/-! ### set_moveto -/

theorem utf8_suffix_gt (s : Str) : utf8 c!">" <:+ utf8 s ↔ c!">" <:+ s := by
  constructor
  · intro h
    rcases List.eq_nil_or_concat s with rfl | ⟨a, c, rfl⟩
    · exact absurd h.length_le (by decide)
    · obtain ⟨b, hb, hb'⟩ := get_last a c []
      obtain ⟨t, ht⟩ := h
      have hc : c = '>' := by
        apply (hb' '>' (by decide)).1
        have hl : bl (a ++ [c]) = t.length + 1 := by
          show (utf8 (a ++ [c])).length = _
          rw [List.concat_eq_append] at ht
          rw [← ht]; simp; rfl
        rw [hl, Nat.add_sub_cancel] at hb
        rw [List.concat_eq_append] at ht
        rw [← ht] at hb
        have : (t ++ utf8 c!">")[t.length]? = some 62 := by
          rw [List.getElem?_append_right (Nat.le_refl _), Nat.sub_self]; rfl
        rw [this] at hb
        injection hb with hb
        rw [← hb]; rfl
      rw [hc, List.concat_eq_append]
      exact List.suffix_append _ _
  · rintro ⟨t, rfl⟩
    exact ⟨utf8 t, (utf8_append _ _).symm⟩

/-- **C86 (moveto keys).** Taking the last byte off a tag that ends with `>` takes that character off. -/
theorem C86_moveto_tag (key : Str) : movetoTag (utf8 key) = .ok (utf8 (Nts.movetoTag key)) := by
  unfold movetoTag Nts.movetoTag
  dsimp only
  have h1 : (if (!decide (utf8 c!"<" <+: utf8 key)) = true then utf8 c!"<" ++ utf8 key else utf8 key) =
      utf8 (if startsWith c!"<" key then key else '<' :: key) := by
    by_cases h : c!"<" <+: key
    · rw [startsWith_iff.2 h, decide_eq_true (utf8_prefix.2 h)]; rfl
    · have h' : startsWith c!"<" key = false := by
        cases hh : startsWith c!"<" key
        · rfl
        · exact absurd (startsWith_iff.1 hh) h
      rw [h', decide_eq_false (fun hh => h (utf8_prefix.1 hh))]
      exact (utf8_append c!"<" key).symm
  rw [h1]
  generalize (if startsWith c!"<" key then key else '<' :: key) = tag
  by_cases h : c!">" <:+ tag
  · rw [if_pos ((utf8_suffix_gt tag).2 h), endsWith_iff.2 h]
    obtain ⟨t, rfl⟩ := h
    have := sliceB_bl [] t c!">"
    simp only [List.nil_append, bl_nil] at this
    have hl : (utf8 (t ++ c!">")).length - 1 = bl t := by
      rw [utf8_append]; simp [bl]; rfl
    rw [hl, this]
    simp
  · have h' : endsWith c!">" tag = false := by
      cases hh : endsWith c!">" tag
      · rfl
      · exact absurd (endsWith_iff.1 hh) h
    rw [if_neg (fun hh => h ((utf8_suffix_gt tag).1 hh)), h']
    rfl

theorem movetoTag_ne (key : Str) : Nts.movetoTag key ≠ [] := by
  unfold Nts.movetoTag
  dsimp only
  have h1 : ∃ r, (if startsWith c!"<" key then key else '<' :: key) = '<' :: r := by
    by_cases h : c!"<" <+: key
    · obtain ⟨t, rfl⟩ := h
      exact ⟨t, by rw [if_pos (startsWith_iff.2 ⟨t, rfl⟩)]; rfl⟩
    · exact ⟨key, if_neg (fun hh => h (startsWith_iff.1 hh))⟩
  obtain ⟨r, hr⟩ := h1
  rw [hr]
  split
  · next h =>
    cases r with
    | nil => exact absurd h (by decide)
    | cons d r => simp
  · simp

/-- **C86 (moveto).** The insertion of a moved text neither panics nor cuts a character. -/
theorem C86_moveto (out key text : Str) : movetoInsert (utf8 out) (utf8 key) (utf8 text) = .ok (utf8 (Nts.movetoInsert out key text)) := by
  unfold movetoInsert Nts.movetoInsert
  rw [C86_moveto_tag]
  simp only [bind, Except.bind]
  rw [C86_tag _ _ (movetoTag_ne key)]
  cases hp : Nts.findTagPosition out (Nts.movetoTag key) with
  | none => rfl
  | some p =>
    simp only [Option.map_some]
    have e := List.take_append_drop p out
    have b1 := isBoundary_bl (out.take p) (out.drop p)
    have b2 := take_bl (out.take p) (out.drop p)
    have b3 := drop_bl (out.take p) (out.drop p)
    rw [e] at b1 b2 b3
    unfold insertStr
    show (if isBoundary (utf8 out) (bl (out.take p)) = true then _ else _) = _
    rw [if_pos b1]
    show Except.ok ((utf8 out).take (bl (out.take p)) ++ _ ++ (utf8 out).drop (bl (out.take p))) = _
    rw [b2, b3]
    simp

/-! ### extract_http_body -/

theorem body_after {p s : Str} (hp : p ≠ []) : (match findB (utf8 p) (utf8 s) with
    | some n => (sliceFrom (utf8 s) (n + bl p) |>.map some)
    | none => .ok none) = .ok ((splitOnce p s).map (fun x => utf8 x.2)) := by
  rw [findB_eq hp]
  unfold find
  cases h : splitOnce p s with
  | none => rfl
  | some x =>
    have hs := ((splitOnce_eq_some (a := x.1) (b := x.2) hp).1 h).1
    simp only [Option.map_some]
    have : bl (s.take x.1.length) + bl p = bl (x.1 ++ p) := by
      rw [bl_append, hs, List.append_assoc, List.take_left]
    rw [this]
    have h2 := sliceFrom_bl (x.1 ++ p) x.2
    rw [← hs] at h2
    rw [h2]; rfl

/-- **C86 (answers of PHP).** Cutting the headers off an answer never panics and leaves the text after the first empty line. -/
theorem C86_body (s : Str) : extractHttpBody (utf8 s) = .ok (utf8 (Nts.Fcgi.httpBody s)) := by
  have h1 := body_after (p := c!"\r\n\r\n") (s := s) (by simp)
  have h2 := body_after (p := c!"\n\n") (s := s) (by simp)
  have l1 : bl c!"\r\n\r\n" = 4 := by decide
  have l2 : bl c!"\n\n" = 2 := by decide
  rw [l1] at h1
  rw [l2] at h2
  have cut : ∀ {p : Bytes} {n : Nat} {x : Str × Str}, (match findB p (utf8 s) with
      | some k => (sliceFrom (utf8 s) (k + n) |>.map some)
      | none => .ok none) = .ok (some (utf8 x.2)) → ∃ k, findB p (utf8 s) = some k ∧ sliceFrom (utf8 s) (k + n) = .ok (utf8 x.2) := by
    intro p n x h
    cases hf : findB p (utf8 s) with
    | none => rw [hf] at h; simp at h
    | some k =>
      rw [hf] at h
      dsimp only at h
      refine ⟨k, rfl, ?_⟩
      cases hk : sliceFrom (utf8 s) (k + n) with
      | error e => rw [hk] at h; cases h
      | ok y => rw [hk] at h; simp [Except.map] at h; rw [h]
  have uncut : ∀ {p : Bytes} {n : Nat}, (match findB p (utf8 s) with
      | some k => (sliceFrom (utf8 s) (k + n) |>.map some)
      | none => .ok none) = (.ok none : M (Option Bytes)) → findB p (utf8 s) = none := by
    intro p n h
    cases hf : findB p (utf8 s) with
    | none => rfl
    | some k =>
      rw [hf] at h
      dsimp only at h
      cases hk : sliceFrom (utf8 s) (k + n) with
      | error e => rw [hk] at h; cases h
      | ok y => rw [hk] at h; cases h
  unfold extractHttpBody Nts.Fcgi.httpBody
  cases hx : splitOnce c!"\r\n\r\n" s with
  | some x =>
    rw [hx] at h1
    obtain ⟨k, hk, hs⟩ := cut (x := x) h1
    rw [hk]; exact hs
  | none =>
    rw [hx] at h1
    rw [uncut h1]
    dsimp only
    cases hy : splitOnce c!"\n\n" s with
    | some x =>
      rw [hy] at h2
      obtain ⟨k, hk, hs⟩ := cut (x := x) h2
      rw [hk]; exact hs
    | none =>
      rw [hy] at h2
      rw [uncut h2]

/-! ### concrete cases -/

/-- A result as a comparable value. -/
def shown {α : Type} : M α → Option α
  | .ok x => some x
  | .error _ => none

-- two bytes before the block, four inside, three after
example : shown ((extractBlocks (utf8 c!"é{:;ñx:}€")).map (fun r => match r with | .ok l => l | .error _ => [])) = some [(2, 10)]
    ∧ (match Nts.extractBlocks c!"é{:;ñx:}€" with | .ok l => l | .error _ => []) = [(1, 8)] := by decide +kernel
-- the unmatched close is reported at the byte 5
example : shown ((extractBlocks (utf8 c!"é€:}")).map (fun r => match r with | .ok _ => 0 | .error p => p)) = some 5 := by
  decide +kernel
-- a slice inside a character panics, so the positions matter
example : shown (sliceFrom (utf8 c!"é") 1) = none := by decide +kernel
example : shown (removeComments (utf8 c!"é{:* ñ *:}€")) = some (utf8 c!"é€") := by decide +kernel
example : shown (getCodePosition (utf8 c!"é>>ñ")) = some (some 2) := by decide +kernel
-- a name that starts with a character of two bytes: the panic of C43
example : shown ((setModifiers BifS.new (utf8 c!"!é")).map (fun x => x.2)) = none := by decide +kernel
example : shown ((setModifiers BifS.new (utf8 c!"!aé")).map (fun x => (x.1.modNegate, x.2))) = some (true, utf8 c!"aé") := by
  decide +kernel
example : shown ((resolvePointer (.obj [(c!"é", .obj [(c!"ñ", .bool true)])]) (utf8 c!"é->ñ")).map
    (fun x => match x with | some (.bool b) => b | _ => false)) = some true := by decide +kernel
example : shown (movetoInsert (utf8 c!"é<b>ñ</b>") (utf8 c!"/b") (utf8 c!"€")) = some (utf8 c!"é<b>ñ€</b>") := by decide +kernel

end Nts.B
