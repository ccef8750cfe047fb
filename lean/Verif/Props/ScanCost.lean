import Verif.Model.ScanCost
import Verif.Props.Bytes
/-
C114: how much of a text the scanners look at.
-/
set_option autoImplicit false
namespace Nts.B

/-! ### the counted loops are the loops -/

theorem bifLoopT_eq (src : Bytes) (f : Nat) : ∀ nested pos, (bifLoopT src f nested pos).2 = bifLoop src f nested pos := by
  induction f with
  | zero => intro nested pos; rfl
  | succ f ih =>
    intro nested pos
    unfold bifLoopT bifLoop
    cases hs : sliceFrom src pos with
    | error e => rfl
    | ok rest =>
      simp only [bind, Except.bind]
      cases hf : findB (utf8 c!":") rest with
      | none => rfl
      | some rel =>
        simp only
        split
        · cases hp : byteAt src (pos + rel - 1) with
          | error e => rfl
          | ok prev =>
            cases hn : byteAt src (pos + rel + 1) with
            | error e => rfl
            | ok next =>
              simp only
              split
              · exact ih _ _
              · split
                · exact ih _ _
                · split
                  · rfl
                  · exact ih _ _
        · exact ih _ _

theorem commentLoopT_eq (src : Bytes) (f : Nat) : ∀ nested pos, (commentLoopT src f nested pos).2 = commentLoop src f nested pos := by
  induction f with
  | zero => intro nested pos; rfl
  | succ f ih =>
    intro nested pos
    unfold commentLoopT commentLoop
    cases hs : sliceFrom src pos with
    | error e => rfl
    | ok rest =>
      simp only [bind, Except.bind]
      cases hf : findB (utf8 c!":") rest with
      | none => rfl
      | some rel =>
        simp only
        split
        · cases hp : byteAt src (pos + rel - 1) with
          | error e => rfl
          | ok prev =>
            cases hn : byteAt src (pos + rel + 1) with
            | error e => rfl
            | ok next =>
              simp only
              split
              · exact ih _ _
              · split
                · exact ih _ _
                · split
                  · rfl
                  · exact ih _ _
        · exact ih _ _

theorem blockLoopT_eq (src : Bytes) (pos : Nat) : (blockLoopT src pos).2 = blockLoop src pos := by
  unfold blockLoopT blockLoop
  cases hs : isStar src pos with
  | error e => rfl
  | ok star =>
    cases star
    · exact bifLoopT_eq src _ _ _
    · exact commentLoopT_eq src _ _ _

theorem blocksLoopT_eq (src : Bytes) (f : Nat) : ∀ curr, (blocksLoopT src f curr).2.2 = blocksLoop src f curr := by
  induction f with
  | zero => intro curr; rfl
  | succ f ih =>
    intro curr
    unfold blocksLoopT blocksLoop
    cases hs : sliceFrom src curr with
    | error e => rfl
    | ok rest =>
      simp only [bind, Except.bind]
      cases hf : findB (utf8 c!"{:") rest with
      | none => rfl
      | some rel =>
        simp only [← blockLoopT_eq]
        cases hr : (blockLoopT src (curr + rel + 2)).2 with
        | error e => rfl
        | ok x =>
          cases x with
          | none => exact ih _
          | some e => simp only [ih]

theorem gapsLoopT_eq (src : Bytes) (l : List (Nat × Nat)) : ∀ prev, (gapsLoopT src prev l).2 = gapsLoop src prev l := by
  induction l with
  | nil =>
    intro prev
    unfold gapsLoopT gapsLoop
    cases hs : sliceFrom src prev <;> rfl
  | cons b r ih =>
    intro prev
    obtain ⟨s, e⟩ := b
    unfold gapsLoopT gapsLoop
    cases hs : sliceB src prev s with
    | error e => rfl
    | ok x =>
      simp only [bind, Except.bind]
      cases hf : findB (utf8 c!":}") x with
      | some p => rfl
      | none => exact ih _

/-- **C114 (the same function).** The counted `extract_blocks` gives what `extract_blocks` gives. -/
theorem C114_same_blocks (src : Bytes) : (extractBlocksT src).2.2 = extractBlocks src := by
  unfold extractBlocksT extractBlocks
  have h := blocksLoopT_eq src (src.length + 1) 0
  cases hb : (blocksLoopT src (src.length + 1) 0).2.2 with
  | error e =>
    rw [hb] at h
    simp only [hb, ← h, bind, Except.bind]
  | ok blocks =>
    rw [hb] at h
    simp only [hb, ← h, bind, Except.bind, gapsLoopT_eq]
    cases gapsLoop src 0 blocks with
    | error e => rfl
    | ok v => cases v <;> rfl

/-! ### looking for a text -/

theorem findB_bound {p : Bytes} : ∀ {b : Bytes} {i : Nat}, findB p b = some i → i + p.length ≤ b.length
  | [], i, h => by
    unfold findB at h
    split at h
    · next e => cases h; simp [e]
    · cases h
  | x :: b, i, h => by
    unfold findB at h
    split at h
    · next e => cases h; simpa using e.length_le
    · cases hf : findB p b with
      | none => rw [hf] at h; cases h
      | some j =>
        rw [hf] at h
        cases h
        have := findB_bound hf
        simp only [List.length_cons]
        omega

theorem sliceFrom_len {src rest : Bytes} {pos : Nat} (h : sliceFrom src pos = .ok rest) : rest = src.drop pos ∧ rest.length = src.length - pos := by
  unfold sliceFrom at h
  split at h
  · cases h; simp
  · cases h

theorem findCost_some {p b : Bytes} {i : Nat} (h : findB p b = some i) : findCost p b = i + 1 := by
  unfold findCost; rw [h]

theorem findCost_none {p b : Bytes} (h : findB p b = none) : findCost p b = b.length + 1 := by
  unfold findCost; rw [h]

theorem findCost_le (p b : Bytes) : findCost p b ≤ b.length + 1 := by
  unfold findCost
  split
  · next i h =>
    have := findB_bound h
    omega
  · omega

theorem colon_len : (utf8 c!":").length = 1 := by decide
theorem open_len : (utf8 c!"{:").length = 2 := by decide

/-! ### one block -/

/-- The work of a search for the end of a block: three for each byte up to the end, if there is one, or up to the end of the text. -/
def Works (src : Bytes) (pos : Nat) (r : Nat × M (Option Nat)) : Prop :=
  match r.2 with
  | .ok (some e) => r.1 ≤ 3 * (e - pos) ∧ pos < e ∧ e ≤ src.length
  | _ => r.1 ≤ 3 * (src.length - pos) + 1

theorem works_add {src : Bytes} {pos rel : Nat} {r : Nat × M (Option Nat)} (h : Works src (pos + rel + 1) r) (hl : pos + rel + 1 ≤ src.length) :
    Works src pos (add (rel + 1 + 2) r) := by
  obtain ⟨c, x⟩ := r
  unfold Works add at *
  simp only at *
  cases x with
  | error e => simp only at h ⊢; omega
  | ok x => cases x with
    | none => simp only at h ⊢; omega
    | some e => simp only at h ⊢; omega

theorem bifLoopT_works (src : Bytes) (f : Nat) : ∀ nested pos, pos ≤ src.length → Works src pos (bifLoopT src f nested pos) := by
  induction f with
  | zero => intro nested pos hp; show (0 : Nat) ≤ _; omega
  | succ f ih =>
    intro nested pos hp
    unfold bifLoopT
    cases hs : sliceFrom src pos with
    | error e => show (0 : Nat) ≤ _; omega
    | ok rest =>
      obtain ⟨hd, hlen⟩ := sliceFrom_len hs
      simp only
      cases hf : findB (utf8 c!":") rest with
      | none =>
        simp only [findCost_none hf]
        show rest.length + 1 ≤ _
        omega
      | some rel =>
        have hb := findB_bound hf
        rw [colon_len] at hb
        have hl : pos + rel + 1 ≤ src.length := by omega
        simp only [findCost_some hf]
        split
        · next hin =>
          cases hpv : byteAt src (pos + rel - 1) with
          | error e => show rel + 1 + 2 ≤ _; omega
          | ok prev =>
            cases hn : byteAt src (pos + rel + 1) with
            | error e => show rel + 1 + 2 ≤ _; omega
            | ok next =>
              simp only
              split
              · exact works_add (ih _ _ hl) hl
              · split
                · exact works_add (ih _ _ hl) hl
                · split
                  · show rel + 1 + 2 ≤ 3 * (pos + rel + 2 - pos) ∧ pos < pos + rel + 2 ∧ pos + rel + 2 ≤ src.length
                    omega
                  · exact works_add (ih _ _ hl) hl
        · exact works_add (ih _ _ hl) hl

theorem commentLoopT_works (src : Bytes) (f : Nat) : ∀ nested pos, pos ≤ src.length → Works src pos (commentLoopT src f nested pos) := by
  induction f with
  | zero => intro nested pos hp; show (0 : Nat) ≤ _; omega
  | succ f ih =>
    intro nested pos hp
    unfold commentLoopT
    cases hs : sliceFrom src pos with
    | error e => show (0 : Nat) ≤ _; omega
    | ok rest =>
      obtain ⟨hd, hlen⟩ := sliceFrom_len hs
      simp only
      cases hf : findB (utf8 c!":") rest with
      | none =>
        simp only [findCost_none hf]
        show rest.length + 1 ≤ _
        omega
      | some rel =>
        have hb := findB_bound hf
        rw [colon_len] at hb
        have hl : pos + rel + 1 ≤ src.length := by omega
        simp only [findCost_some hf]
        split
        · next hin =>
          cases hpv : byteAt src (pos + rel - 1) with
          | error e => show rel + 1 + 2 ≤ _; omega
          | ok prev =>
            cases hn : byteAt src (pos + rel + 1) with
            | error e => show rel + 1 + 2 ≤ _; omega
            | ok next =>
              simp only
              split
              · exact works_add (ih _ _ hl) hl
              · split
                · exact works_add (ih _ _ hl) hl
                · split
                  · show rel + 1 + 2 ≤ 3 * (pos + rel + 2 - pos) ∧ pos < pos + rel + 2 ∧ pos + rel + 2 ≤ src.length
                    omega
                  · exact works_add (ih _ _ hl) hl
        · exact works_add (ih _ _ hl) hl

/-- One block: one more, to see whether it is a comment. -/
theorem blockLoopT_works (src : Bytes) (pos : Nat) (hp : pos ≤ src.length) :
    match (blockLoopT src pos).2 with
    | .ok (some e) => (blockLoopT src pos).1 ≤ 3 * (e - pos) + 1 ∧ pos < e ∧ e ≤ src.length
    | _ => (blockLoopT src pos).1 ≤ 3 * (src.length - pos) + 2 := by
  have key : ∀ r : Nat × M (Option Nat), Works src pos r → match (add 1 r).2 with
      | .ok (some e) => (add 1 r).1 ≤ 3 * (e - pos) + 1 ∧ pos < e ∧ e ≤ src.length
      | _ => (add 1 r).1 ≤ 3 * (src.length - pos) + 2 := by
    rintro ⟨c, x⟩ h
    unfold Works at h
    unfold add
    cases x with
    | error e => simp only at h ⊢; omega
    | ok x => cases x with
      | none => simp only at h ⊢; omega
      | some e => simp only at h ⊢; omega
  unfold blockLoopT
  cases hs : isStar src pos with
  | error e => simp only; omega
  | ok star =>
    cases star
    · exact key _ (bifLoopT_works src _ _ _ hp)
    · exact key _ (commentLoopT_works src _ _ _ hp)

/-- All blocks: three for each byte, and as much again for each `{:` that is not closed. -/
theorem blocksLoopT_works (src : Bytes) (f : Nat) : ∀ curr, curr ≤ src.length →
    (blocksLoopT src f curr).1 ≤ 3 * (src.length - curr) + 3 + (blocksLoopT src f curr).2.1 * (3 * src.length) ∧
    2 * (blocksLoopT src f curr).2.1 ≤ src.length - curr := by
  induction f with
  | zero => intro curr hc; exact ⟨Nat.zero_le _, Nat.zero_le _⟩
  | succ f ih =>
    intro curr hc
    unfold blocksLoopT
    cases hs : sliceFrom src curr with
    | error e => exact ⟨Nat.zero_le _, Nat.zero_le _⟩
    | ok rest =>
      obtain ⟨hd, hlen⟩ := sliceFrom_len hs
      simp only
      cases hf : findB (utf8 c!"{:") rest with
      | none =>
        simp only [findCost_none hf]
        omega
      | some rel =>
        have hb := findB_bound hf
        rw [open_len] at hb
        have hp : curr + rel + 2 ≤ src.length := by omega
        have hw := blockLoopT_works src (curr + rel + 2) hp
        simp only [findCost_some hf]
        generalize hB : blockLoopT src (curr + rel + 2) = B at hw
        obtain ⟨bc, br⟩ := B
        cases br with
        | error e => simp only at hw ⊢; omega
        | ok x => cases x with
          | none =>
            simp only at hw ⊢
            obtain ⟨h1, h2⟩ := ih (curr + rel + 2) hp
            rw [Nat.add_mul, Nat.one_mul]
            omega
          | some e =>
            simp only at hw ⊢
            obtain ⟨h1, h2⟩ := ih e hw.2.2
            omega

/-! ### the text between the blocks -/

/-- Blocks one after the other, none shorter than three bytes. -/
def Row (n : Nat) : Nat → List (Nat × Nat) → Prop
  | prev, [] => prev ≤ n
  | prev, (s, e) :: r => prev ≤ s ∧ s + 2 < e ∧ Row n e r

theorem row_le {n : Nat} : ∀ {l : List (Nat × Nat)} {p : Nat}, Row n p l → p ≤ n
  | [], _, h => h
  | (s, e) :: r, p, ⟨h1, h2, h3⟩ => by have := row_le h3; omega

theorem row_mono {n p q : Nat} {l : List (Nat × Nat)} (h : Row n q l) (hpq : p ≤ q) : Row n p l := by
  cases l with
  | nil => exact Nat.le_trans hpq h
  | cons b r => exact ⟨Nat.le_trans hpq h.1, h.2⟩

theorem blocksLoopT_row (src : Bytes) (f : Nat) : ∀ curr l, curr ≤ src.length → (blocksLoopT src f curr).2.2 = .ok l → Row src.length curr l := by
  induction f with
  | zero => intro curr l hc h; cases h
  | succ f ih =>
    intro curr l hc h
    unfold blocksLoopT at h
    cases hs : sliceFrom src curr with
    | error e => rw [hs] at h; cases h
    | ok rest =>
      obtain ⟨hd, hlen⟩ := sliceFrom_len hs
      simp only [hs] at h
      cases hf : findB (utf8 c!"{:") rest with
      | none => simp only [hf] at h; cases h; exact hc
      | some rel =>
        have hb := findB_bound hf
        rw [open_len] at hb
        have hp : curr + rel + 2 ≤ src.length := by omega
        have hw := blockLoopT_works src (curr + rel + 2) hp
        simp only [hf] at h
        cases hB : (blockLoopT src (curr + rel + 2)).2 with
        | error e => simp only [hB] at h; cases h
        | ok x => cases x with
          | none =>
            simp only [hB] at h
            exact row_mono (ih _ _ hp h) (by omega)
          | some e =>
            simp only [hB, bind, Except.bind] at h hw
            cases hl : (blocksLoopT src f e).2.2 with
            | error e' => rw [hl] at h; cases h
            | ok l' =>
              rw [hl] at h
              cases h
              exact ⟨by omega, hw.2.1, ih _ _ hw.2.2 hl⟩

theorem sliceB_len {src x : Bytes} {i j : Nat} (h : sliceB src i j = .ok x) : x.length ≤ j - i := by
  unfold sliceB at h
  split at h
  · cases h; simp; omega
  · cases h

theorem gapsLoopT_works (src : Bytes) (l : List (Nat × Nat)) : ∀ prev, Row src.length prev l → (gapsLoopT src prev l).1 ≤ src.length - prev + 1 := by
  induction l with
  | nil =>
    intro prev hr
    unfold gapsLoopT
    cases hs : sliceFrom src prev with
    | error e => exact Nat.zero_le _
    | ok x =>
      have := findCost_le (utf8 c!":}") x
      have := (sliceFrom_len hs).2
      simp only
      omega
  | cons b r ih =>
    intro prev hr
    obtain ⟨s, e⟩ := b
    obtain ⟨h1, h2, h3⟩ := hr
    unfold gapsLoopT
    cases hs : sliceB src prev s with
    | error e => exact Nat.zero_le _
    | ok x =>
      have hc := findCost_le (utf8 c!":}") x
      have hl := sliceB_len hs
      have he := row_le h3
      have hi := ih e h3
      simp only
      cases hf : findB (utf8 c!":}") x with
      | some p => simp only; omega
      | none => simp only [add]; omega

/-- **C114 (any text).** For every text of `n` bytes, `extract_blocks` looks at no more than `4n + 4` bytes, and `3n` more for each `{:` that is
not closed, of which there are at most `n / 2`. -/
theorem C114_blocks (src : Bytes) :
    (extractBlocksT src).1 ≤ 4 * src.length + 4 + (extractBlocksT src).2.1 * (3 * src.length) ∧ 2 * (extractBlocksT src).2.1 ≤ src.length := by
  have h := blocksLoopT_works src (src.length + 1) 0 (Nat.zero_le _)
  unfold extractBlocksT
  cases hb : (blocksLoopT src (src.length + 1) 0).2.2 with
  | error e => simp only [hb]; omega
  | ok blocks =>
    have hg := gapsLoopT_works src blocks 0 (blocksLoopT_row src _ _ _ (Nat.zero_le _) hb)
    simp only [hb]
    omega

/-- **C114 (never more than the square).** -/
theorem C114_square (src : Bytes) : (extractBlocksT src).1 ≤ 4 * src.length + 4 + 2 * (src.length * src.length) := by
  obtain ⟨h1, h2⟩ := C114_blocks src
  generalize (extractBlocksT src).2.1 = k at h1 h2
  have : k * (3 * src.length) ≤ 2 * (src.length * src.length) := by
    calc k * (3 * src.length) = (2 * k) * src.length + k * src.length := by
          rw [Nat.mul_left_comm, Nat.mul_comm 2 k, Nat.mul_assoc, ← Nat.mul_assoc 3]
          rw [Nat.mul_left_comm k 2, ← Nat.succ_mul, Nat.mul_assoc]
      _ ≤ src.length * src.length + src.length * src.length :=
          Nat.add_le_add (Nat.mul_le_mul_right _ h2) (Nat.mul_le_mul_right _ (by omega))
      _ = 2 * (src.length * src.length) := by omega
  omega

/-! ### a text whose blocks are closed -/

theorem findB_at {p : Bytes} : ∀ {b : Bytes} {i : Nat}, findB p b = some i → p <+: b.drop i
  | [], i, h => by
    unfold findB at h
    split at h
    · next e => cases h; simp [e]
    · cases h
  | x :: b, i, h => by
    unfold findB at h
    split at h
    · next e => cases h; simpa using e
    · cases hf : findB p b with
      | none => rw [hf] at h; cases h
      | some j =>
        rw [hf] at h
        cases h
        simpa using findB_at hf

theorem row_in {n : Nat} : ∀ {l : List (Nat × Nat)} {p : Nat}, Row n p l → ∀ b ∈ l, p ≤ b.1
  | [], _, _, _, hb => absurd hb (by simp)
  | (s, e) :: r, p, ⟨h1, h2, h3⟩, b, hb => by
    rcases List.mem_cons.1 hb with rfl | hb
    · exact h1
    · have := row_in h3 b hb
      omega

theorem blocksLoopT_closed (src : Bytes) (f : Nat) : ∀ curr l, curr ≤ src.length → (blocksLoopT src f curr).2.2 = .ok l →
    (∀ i, curr ≤ i → utf8 c!"{:" <+: src.drop i → ∃ b ∈ l, b.1 ≤ i ∧ i < b.2) → (blocksLoopT src f curr).2.1 = 0 := by
  induction f with
  | zero => intro curr l hc h; cases h
  | succ f ih =>
    intro curr l hc h hin
    have hrow := blocksLoopT_row src _ _ _ hc h
    unfold blocksLoopT at h ⊢
    cases hs : sliceFrom src curr with
    | error e => rfl
    | ok rest =>
      obtain ⟨hd, hlen⟩ := sliceFrom_len hs
      simp only [hs] at h ⊢
      cases hf : findB (utf8 c!"{:") rest with
      | none => rfl
      | some rel =>
        have hb := findB_bound hf
        rw [open_len] at hb
        have hp : curr + rel + 2 ≤ src.length := by omega
        have hw := blockLoopT_works src (curr + rel + 2) hp
        have hat := findB_at hf
        rw [hd, List.drop_drop] at hat
        simp only [hf] at h ⊢
        cases hB : (blockLoopT src (curr + rel + 2)).2 with
        | error e => simp only [hB] at h; cases h
        | ok x => cases x with
          | none =>
            simp only [hB] at h
            obtain ⟨b, hb1, hb2, hb3⟩ := hin (curr + rel) (by omega) hat
            have := row_in (blocksLoopT_row src _ _ _ hp h) b hb1
            omega
          | some e =>
            simp only [hB, bind, Except.bind] at h hw ⊢
            cases hl : (blocksLoopT src f e).2.2 with
            | error e' => rw [hl] at h; cases h
            | ok l' =>
              rw [hl] at h
              cases h
              refine ih e l' hw.2.2 hl (fun i hi ho => ?_)
              obtain ⟨b, hb1, hb2, hb3⟩ := hin i (by omega) ho
              rcases List.mem_cons.1 hb1 with rfl | hb1
              · simp only at hb3; omega
              · exact ⟨b, hb1, hb2, hb3⟩

/-- **C114 (a text whose blocks are closed).** When every `{:` of the text is in one of the blocks found, `extract_blocks` looks at no more than
`4n + 4` bytes. -/
theorem C114_linear (src : Bytes) (l : List (Nat × Nat)) (h : extractBlocks src = .ok (.ok l))
    (hin : ∀ i, utf8 c!"{:" <+: src.drop i → ∃ b ∈ l, b.1 ≤ i ∧ i < b.2) : (extractBlocksT src).1 ≤ 4 * src.length + 4 := by
  have hl : (blocksLoopT src (src.length + 1) 0).2.2 = .ok l := by
    rw [blocksLoopT_eq]
    unfold extractBlocks at h
    cases hb : blocksLoop src (src.length + 1) 0 with
    | error e => rw [hb] at h; cases h
    | ok blocks =>
      rw [hb] at h
      simp only [bind, Except.bind] at h
      cases hg : gapsLoop src 0 blocks with
      | error e => rw [hg] at h; cases h
      | ok v =>
        rw [hg] at h
        cases v with
        | some p => cases h
        | none => cases h; rfl
  have h0 := blocksLoopT_closed src _ 0 l (Nat.zero_le _) hl (fun i _ ho => hin i ho)
  have hs : (extractBlocksT src).2.1 = 0 := by
    unfold extractBlocksT
    simp only [hl]
    exact h0
  have := (C114_blocks src).1
  rw [hs] at this
  omega

/-! ### remove_comments -/

theorem rcLoopT_eq (src : Bytes) (f : Nat) : ∀ nested cur, (rcLoopT src f nested cur).2 = rcLoop src f nested cur := by
  induction f with
  | zero => intro nested cur; rfl
  | succ f ih =>
    intro nested cur
    unfold rcLoopT rcLoop
    cases hs : sliceFrom src cur with
    | error e => rfl
    | ok rest =>
      simp only [bind, Except.bind]
      cases hf : findB (utf8 c!":") rest with
      | none => rfl
      | some rel =>
        simp only
        split
        · rfl
        · cases ho : opensAt src (cur + rel) with
          | error e => rfl
          | ok o =>
            simp only
            split
            · exact ih _ _
            · cases hi : innerAt src nested (cur + rel) with
              | error e => rfl
              | ok i =>
                simp only
                split
                · exact ih _ _
                · cases hc : closesAt src (cur + rel) with
                  | error e => rfl
                  | ok c =>
                    simp only
                    split
                    · rfl
                    · exact ih _ _

theorem rcsLoopT_eq (src : Bytes) (f : Nat) : ∀ nested cur, (rcsLoopT src f nested cur).2 = rcsLoop src f nested cur := by
  induction f with
  | zero => intro nested cur; rfl
  | succ f ih =>
    intro nested cur
    unfold rcsLoopT rcsLoop
    cases hs : sliceFrom src cur with
    | error e => rfl
    | ok rest =>
      simp only [bind, Except.bind]
      cases hf : findB (utf8 c!"{:*") rest with
      | none => rfl
      | some rel =>
        simp only [← rcLoopT_eq]
        cases hr : (rcLoopT src (src.length + 1) nested (cur + rel + 3)).2 with
        | error e => rfl
        | ok x =>
          simp only [ih]

/-- **C114 (the same function).** The counted `remove_comments` gives what `remove_comments` gives. -/
theorem C114_same_comments (src : Bytes) : (removeCommentsT src).2 = removeComments src := by
  unfold removeCommentsT removeComments
  simp only [rcsLoopT_eq]

/-- The work inside a comment: seven for each byte up to where it goes on, and the rest of the text if there is no delimiter any more. -/
def WorksIn (src : Bytes) (pos : Nat) (r : Nat × M (Nat × Nat × Bool)) : Prop :=
  match r.2 with
  | .ok (_, cur, true) => r.1 ≤ 7 * (cur - pos) ∧ pos ≤ cur ∧ cur ≤ src.length
  | .ok (_, cur, false) => r.1 ≤ 7 * (cur - pos) + (src.length - cur) + 1 ∧ pos ≤ cur ∧ cur ≤ src.length ∧ findB (utf8 c!":") (src.drop cur) = none
  | _ => r.1 ≤ 7 * (src.length - pos) + 1

theorem worksIn_add {src : Bytes} {pos rel : Nat} {r : Nat × M (Nat × Nat × Bool)} (h : WorksIn src (pos + rel + 1) r)
    (hl : pos + rel + 1 ≤ src.length) : WorksIn src pos (add (rel + 1 + 6) r) := by
  obtain ⟨c, x⟩ := r
  unfold WorksIn add at *
  cases x with
  | error e => simp only at h ⊢; omega
  | ok x =>
    obtain ⟨n, cur, b⟩ := x
    cases b with
    | false =>
      simp only at h ⊢
      exact ⟨by omega, by omega, h.2.2.1, h.2.2.2⟩
    | true => simp only at h ⊢; omega

theorem closesAt_in {src : Bytes} {cur : Nat} (h : closesAt src cur = .ok true) : cur + 2 ≤ src.length := by
  unfold closesAt at h
  cases hb : byteAt src (cur + 1) with
  | error e => rw [hb] at h; cases h
  | ok n =>
    unfold byteAt at hb
    cases hg : src[cur + 1]? with
    | none => rw [hg] at hb; cases hb
    | some x =>
      have := (List.getElem?_eq_some_iff.1 hg).1
      omega

theorem rcLoopT_works (src : Bytes) (f : Nat) : ∀ nested pos, pos ≤ src.length → WorksIn src pos (rcLoopT src f nested pos) := by
  induction f with
  | zero => intro nested pos hp; show (0 : Nat) ≤ _; omega
  | succ f ih =>
    intro nested pos hp
    unfold rcLoopT
    cases hs : sliceFrom src pos with
    | error e => show (0 : Nat) ≤ _; omega
    | ok rest =>
      obtain ⟨hd, hlen⟩ := sliceFrom_len hs
      simp only
      cases hf : findB (utf8 c!":") rest with
      | none =>
        simp only [findCost_none hf]
        show rest.length + 1 ≤ 7 * (pos - pos) + (src.length - pos) + 1 ∧ pos ≤ pos ∧ pos ≤ src.length ∧ _
        exact ⟨by omega, Nat.le_refl _, hp, by rw [← hd]; exact hf⟩
      | some rel =>
        have hb := findB_bound hf
        rw [colon_len] at hb
        have hl : pos + rel + 1 ≤ src.length := by omega
        simp only [findCost_some hf]
        rw [if_neg (by omega)]
        cases ho : opensAt src (pos + rel) with
        | error e => show rel + 1 + 6 ≤ _; omega
        | ok o =>
          simp only
          split
          · exact worksIn_add (ih _ _ hl) hl
          · cases hi : innerAt src nested (pos + rel) with
            | error e => show rel + 1 + 6 ≤ _; omega
            | ok i =>
              simp only
              split
              · exact worksIn_add (ih _ _ hl) hl
              · cases hc : closesAt src (pos + rel) with
                | error e => show rel + 1 + 6 ≤ _; omega
                | ok c =>
                  simp only
                  split
                  · next hct =>
                    have := closesAt_in (hc.trans (by rw [hct]))
                    show rel + 1 + 6 ≤ 7 * (pos + rel + 2 - pos) ∧ pos ≤ pos + rel + 2 ∧ pos + rel + 2 ≤ src.length
                    omega
                  · exact worksIn_add (ih _ _ hl) hl

theorem findB_hit {p : Bytes} : ∀ {b : Bytes} {i : Nat}, p ≠ [] → p <+: b.drop i → findB p b ≠ none
  | [], i, hp, h => by
    rw [List.drop_nil] at h
    exact absurd (List.prefix_nil.1 h) hp
  | x :: b, i, hp, h => by
    unfold findB
    split
    · exact fun e => nomatch e
    · next hn =>
      cases i with
      | zero => exact absurd h hn
      | succ i =>
        have := findB_hit (b := b) (i := i) hp (by simpa using h)
        cases hf : findB p b with
        | none => exact absurd hf this
        | some j => exact fun e => nomatch e

/-- Where there is no delimiter there is no comment. -/
theorem no_comment {b : Bytes} (h : findB (utf8 c!":") b = none) : findB (utf8 c!"{:*") b = none := by
  cases hf : findB (utf8 c!"{:*") b with
  | none => rfl
  | some i =>
    have hat := findB_at hf
    refine absurd h (findB_hit (i := i + 1) (by decide) ?_)
    obtain ⟨t, ht⟩ := hat
    rw [← List.drop_drop, ← ht]
    exact ⟨utf8 c!"*" ++ t, rfl⟩

theorem comment_len : (utf8 c!"{:*").length = 3 := by decide

theorem rcsLoopT_works (src : Bytes) (f : Nat) : ∀ nested cur, cur ≤ src.length → (rcsLoopT src f nested cur).1 ≤ 8 * (src.length - cur) + 3 := by
  induction f with
  | zero => intro nested cur _; exact Nat.zero_le _
  | succ f ih =>
    intro nested cur hc
    unfold rcsLoopT
    cases hs : sliceFrom src cur with
    | error e => exact Nat.zero_le _
    | ok rest =>
      obtain ⟨hd, hlen⟩ := sliceFrom_len hs
      simp only
      cases hf : findB (utf8 c!"{:*") rest with
      | none =>
        simp only [findCost_none hf]
        omega
      | some rel =>
        have hb := findB_bound hf
        rw [comment_len] at hb
        have hp : cur + rel + 3 ≤ src.length := by omega
        have hw := rcLoopT_works src (src.length + 1) nested (cur + rel + 3) hp
        simp only [findCost_some hf]
        generalize rcLoopT src (src.length + 1) nested (cur + rel + 3) = B at hw
        obtain ⟨bc, br⟩ := B
        unfold WorksIn at hw
        cases br with
        | error e => simp only at hw ⊢; omega
        | ok x =>
          obtain ⟨n, c, b⟩ := x
          cases b with
          | true =>
            simp only at hw ⊢
            have := ih n c hw.2.2
            omega
          | false =>
            simp only at hw ⊢
            have hend : (rcsLoopT src f n c).1 ≤ src.length - c + 1 := by
              cases f with
              | zero => exact Nat.zero_le _
              | succ f =>
                unfold rcsLoopT
                cases hs' : sliceFrom src c with
                | error e => exact Nat.zero_le _
                | ok rest' =>
                  obtain ⟨hd', hlen'⟩ := sliceFrom_len hs'
                  have hno := no_comment (hd' ▸ hw.2.2.2)
                  simp only [hno, findCost_none hno]
                  omega
            obtain ⟨h1, h2, h3, _⟩ := hw
            omega

/-- **C114 (comments).** For every text of `n` bytes the searches of `remove_comments` look at no more than `8n + 3` bytes, whether its comments
are closed or not. -/
theorem C114_comments (src : Bytes) : (removeCommentsT src).1 ≤ 8 * src.length + 3 := by
  have := rcsLoopT_works src (src.length + 1) 0 0 (Nat.zero_le _)
  unfold removeCommentsT
  exact this

/-! ### get_code_position -/

theorem codeLoopT_eq (src : Bytes) (f : Nat) : ∀ level i, (codeLoopT src f level i).2 = codeLoop src f level i := by
  induction f with
  | zero => intro level i; rfl
  | succ f ih =>
    intro level i
    unfold codeLoopT codeLoop
    split
    · cases h0 : byteAt src i with
      | error e => rfl
      | ok b0 =>
        cases h1 : byteAt src (i + 1) with
        | error e => rfl
        | ok b1 =>
          simp only [bind, Except.bind]
          split
          · exact ih _ _
          · split
            · exact ih _ _
            · split
              · split
                · rfl
                · exact ih _ _
              · exact ih _ _
    · rfl

theorem C114_same_code (src : Bytes) : (getCodePositionT src).2 = getCodePosition src := by
  unfold getCodePositionT getCodePosition
  split
  · rfl
  · exact codeLoopT_eq src _ _ _

theorem codeLoopT_works (src : Bytes) (f : Nat) : ∀ level i, (codeLoopT src f level i).1 ≤ 2 * (src.length - i) := by
  induction f with
  | zero => intro level i; exact Nat.zero_le _
  | succ f ih =>
    intro level i
    unfold codeLoopT
    split
    · next hi =>
      cases h0 : byteAt src i with
      | error e => simp only; omega
      | ok b0 =>
        cases h1 : byteAt src (i + 1) with
        | error e => simp only; omega
        | ok b1 =>
          simp only
          split
          · have := ih (level + 1) (i + 2); simp only [add]; omega
          · split
            · have := ih (level - 1) (i + 2); simp only [add]; omega
            · split
              · split
                · simp only; omega
                · have := ih level (i + 2); simp only [add]; omega
              · have := ih level (i + 1); simp only [add]; omega
    · exact Nat.zero_le _

/-- **C114 (the code of a BIF).** For every text of `n` bytes `get_code_position` looks at no more than `3n + 1` bytes. -/
theorem C114_code (src : Bytes) : (getCodePositionT src).1 ≤ 3 * src.length + 1 := by
  have h1 := findCost_le (utf8 c!">>") src
  have h2 := codeLoopT_works src (src.length + 1) 0 0
  unfold getCodePositionT
  split
  · simp only; omega
  · simp only [add]; omega

/-! ### the square is reached -/

/-- A text of ASCII characters with no `}` and no `*`. -/
def Quiet (src : Bytes) : Prop := ∀ x ∈ src, x.toNat < 128 ∧ x.toNat ≠ '}'.toNat ∧ x.toNat ≠ '*'.toNat

theorem quiet_slice {src : Bytes} (h : Quiet src) {pos : Nat} (hp : pos ≤ src.length) : sliceFrom src pos = .ok (src.drop pos) := by
  unfold sliceFrom
  rw [if_pos]
  unfold isBoundary
  split
  · rfl
  · cases hg : src[pos]? with
    | none =>
      have := List.getElem?_eq_none_iff.1 hg
      simp only [beq_iff_eq]
      omega
    | some x =>
      have := (h x (List.mem_of_getElem? hg)).1
      simp only [this, decide_true, Bool.true_or]

theorem quiet_byte {src : Bytes} (h : Quiet src) {i : Nat} (hi : i < src.length) : ∃ x, byteAt src i = .ok x ∧ x.toNat ≠ '}'.toNat ∧ x.toNat ≠ '*'.toNat := by
  refine ⟨src[i], ?_, (h _ (List.getElem_mem hi)).2⟩
  unfold byteAt
  rw [List.getElem?_eq_getElem hi]

theorem bifLoopT_quiet {src : Bytes} (h : Quiet src) (f : Nat) : ∀ nested pos, pos ≤ src.length → src.length - pos < f →
    (bifLoopT src f nested pos).2 = .ok none ∧ src.length - pos + 1 ≤ (bifLoopT src f nested pos).1 := by
  induction f with
  | zero => intro nested pos _ hf; omega
  | succ f ih =>
    intro nested pos hp hf
    have hstep : ∀ rel nested', pos + rel + 1 ≤ src.length → (add (rel + 1 + 2) (bifLoopT src f nested' (pos + rel + 1))).2 = .ok none ∧
        src.length - pos + 1 ≤ (add (rel + 1 + 2) (bifLoopT src f nested' (pos + rel + 1))).1 := by
      intro rel nested' hl
      obtain ⟨h1, h2⟩ := ih nested' (pos + rel + 1) hl (by omega)
      exact ⟨h1, by simp only [add]; omega⟩
    unfold bifLoopT
    simp only [quiet_slice h hp]
    cases hfd : findB (utf8 c!":") (src.drop pos) with
    | none =>
      simp only [findCost_none hfd, List.length_drop]
      exact ⟨trivial, Nat.le_refl _⟩
    | some rel =>
      have hb := findB_bound hfd
      rw [colon_len, List.length_drop] at hb
      have hl : pos + rel + 1 ≤ src.length := by omega
      simp only [findCost_some hfd]
      split
      · next hin =>
        obtain ⟨p, hpv, _⟩ := quiet_byte h (i := pos + rel - 1) (by omega)
        obtain ⟨n, hnx, hn, _⟩ := quiet_byte h (i := pos + rel + 1) hin.2
        simp only [hpv, hnx, hn, and_false, if_false]
        split
        · exact hstep rel _ hl
        · exact hstep rel _ hl
      · exact hstep rel _ hl

/-- `{:` written `k` times. -/
def opens (k : Nat) : Bytes := utf8 (List.replicate k c!"{:").flatten

theorem opens_succ (k : Nat) : opens (k + 1) = utf8 c!"{:" ++ opens k := by
  unfold opens
  rw [List.replicate_succ, List.flatten_cons, utf8_append]

theorem opens_len (k : Nat) : (opens k).length = 2 * k := by
  induction k with
  | zero => rfl
  | succ k ih => rw [opens_succ, List.length_append, ih, open_len]; omega

theorem opens_quiet (k : Nat) : Quiet (opens k) := by
  induction k with
  | zero => intro x hx; exact absurd hx (by simp [opens, utf8])
  | succ k ih =>
    intro x hx
    rw [opens_succ] at hx
    rcases List.mem_append.1 hx with hx | hx
    · exact (by decide : ∀ x ∈ utf8 c!"{:", x.toNat < 128 ∧ x.toNat ≠ '}'.toNat ∧ x.toNat ≠ '*'.toNat) x hx
    · exact ih x hx

theorem opens_drop (k : Nat) : ∀ j, j ≤ k → (opens k).drop (2 * j) = opens (k - j) := by
  intro j
  induction j generalizing k with
  | zero => intro _; rfl
  | succ j ih =>
    intro hj
    obtain ⟨k, rfl⟩ : ∃ m, k = m + 1 := ⟨k - 1, by omega⟩
    rw [opens_succ, show 2 * (j + 1) = (utf8 c!"{:").length + 2 * j by rw [open_len]; omega, List.drop_length_add_append, ih k (by omega)]
    congr 1
    omega

theorem quiet_block {src : Bytes} (h : Quiet src) {pos : Nat} (hp : pos ≤ src.length) :
    (blockLoopT src pos).2 = .ok none ∧ src.length - pos + 2 ≤ (blockLoopT src pos).1 := by
  have hs : isStar src pos = .ok false := by
    unfold isStar
    split
    · next hi =>
      obtain ⟨x, hx, _, hn⟩ := quiet_byte h hi
      simp only [hx, bind, Except.bind, hn]
      rfl
    · rfl
  obtain ⟨h1, h2⟩ := bifLoopT_quiet h (src.length + 1) 0 pos hp (by omega)
  unfold blockLoopT
  simp only [hs]
  exact ⟨h1, by simp only [add, Bool.false_eq_true, if_false]; omega⟩

theorem opens_loop (k f : Nat) : ∀ j, j ≤ k → k - j < f → (blocksLoopT (opens k) f (2 * j)).2.2 = .ok [] ∧
    (k - j) * (k - j) ≤ (blocksLoopT (opens k) f (2 * j)).1 ∧ (blocksLoopT (opens k) f (2 * j)).2.1 = k - j := by
  induction f with
  | zero => intro j _ hf; omega
  | succ f ih =>
    intro j hj hf
    unfold blocksLoopT
    simp only [quiet_slice (opens_quiet k) (pos := 2 * j) (by rw [opens_len]; omega), opens_drop k j hj]
    by_cases hjk : j = k
    · subst hjk
      rw [Nat.sub_self]
      exact ⟨rfl, Nat.zero_le _, rfl⟩
    · obtain ⟨m, hm⟩ : ∃ m, k - j = m + 1 := ⟨k - j - 1, by omega⟩
      have hfd : findB (utf8 c!"{:") (opens (k - j)) = some 0 := by
        rw [hm, opens_succ]
        unfold findB
        exact if_pos ⟨opens m, rfl⟩
      obtain ⟨h1, h2⟩ := quiet_block (opens_quiet k) (pos := 2 * j + 0 + 2) (by rw [opens_len]; omega)
      obtain ⟨i1, i2, i3⟩ := ih (j + 1) (by omega) (by omega)
      have hm1 : k - (j + 1) = m := by omega
      rw [opens_len] at h2
      rw [hm1] at i2 i3
      simp only [hfd, findCost_some hfd, h1]
      rw [show 2 * j + 0 + 2 = 2 * (j + 1) by omega] at *
      refine ⟨i1, ?_, by rw [i3, hm]⟩
      rw [hm, Nat.add_mul, Nat.mul_add]
      omega

/-- **C114 (the square is reached).** Finding the blocks of `{:` written `k` times, a text of `2k` bytes, takes at least `k · k` looks: each `{:`
is not closed, and for each the rest of the text is read. -/
theorem C114_worst (k : Nat) : (opens k).length = 2 * k ∧ k * k ≤ (extractBlocksT (opens k)).1 ∧ (extractBlocksT (opens k)).2.1 = k ∧
    extractBlocks (opens k) = .ok (.ok []) := by
  obtain ⟨h1, h2, h3⟩ := opens_loop k ((opens k).length + 1) 0 (Nat.zero_le _) (by rw [opens_len]; omega)
  rw [Nat.mul_zero] at h1 h2 h3
  rw [Nat.sub_zero] at h2 h3
  refine ⟨opens_len k, ?_, ?_, ?_⟩
  · unfold extractBlocksT
    simp only [h1]
    omega
  · unfold extractBlocksT
    simp only [h1]
    exact h3
  · rw [← C114_same_blocks]
    unfold extractBlocksT
    simp only [h1]
    have hn : findB (utf8 c!":}") (opens k) = none := by
      cases hf : findB (utf8 c!":}") (opens k) with
      | none => rfl
      | some i =>
        obtain ⟨t, ht⟩ := findB_at hf
        have hx : (125 : UInt8) ∈ (opens k).drop i := by rw [← ht]; exact List.mem_append_left _ (by decide)
        exact absurd rfl (opens_quiet k _ (List.mem_of_mem_drop hx)).2.1
    unfold gapsLoopT
    simp only [quiet_slice (opens_quiet k) (pos := 0) (Nat.zero_le _), List.drop_zero, hn]
    rfl

/-- The premises of `C114_linear` hold for a page with a block in a block and a comment. -/
example : ∃ l, extractBlocks (utf8 c!"a {:x; {:;y:} :} b {:* c *:}") = .ok (.ok l) ∧
    ∀ i, utf8 c!"{:" <+: (utf8 c!"a {:x; {:;y:} :} b {:* c *:}").drop i → ∃ b ∈ l, b.1 ≤ i ∧ i < b.2 := by
  refine ⟨[(2, 16), (19, 28)], by rfl, fun i hi => ?_⟩
  by_cases h : i < 28
  · exact (by decide +kernel : ∀ i, i < 28 → utf8 c!"{:" <+: (utf8 c!"a {:x; {:;y:} :} b {:* c *:}").drop i →
      ∃ b ∈ [(2, 16), (19, 28)], b.1 ≤ i ∧ i < b.2) i h hi
  · rw [List.drop_of_length_le (by have : (utf8 c!"a {:x; {:;y:} :} b {:* c *:}").length = 28 := by decide +kernel
                                   omega)] at hi
    exact absurd (List.prefix_nil.1 hi) (by decide)

end Nts.B
