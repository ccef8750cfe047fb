import Verif.Model.Utils
import Verif.Spec.Blocks
import Verif.Lemmas.Str
/-
C14, C15, C16, C18: the scanners.
-/
set_option autoImplicit false
namespace Nts
open Spec

/-! ### C14 -/

theorem slice_eq_part (src : Str) (a b : Nat) : slice src a b = part src a b := by
  unfold slice part
  rw [List.drop_take]

theorem part_append (src : Str) {a b c : Nat} (h1 : a ≤ b) (h2 : b ≤ c) :
    part src a b ++ part src b c = part src a c := by
  unfold part
  rw [List.drop_take, List.drop_take, List.drop_take]
  have : c - a = (b - a) + (c - b) := by omega
  rw [this, List.take_add]
  congr 1
  rw [List.drop_drop]
  congr 2
  omega

theorem part_zero_length (src : Str) : part src 0 src.length = src := by simp [part]

theorem weave_eq (src : Str) (blocks : List (Nat × Nat)) :
    ∀ p, Ordered src p blocks → weave src p blocks = part src p src.length := by
  induction blocks with
  | nil => intro p _; rfl
  | cons b r ih =>
    obtain ⟨s, e⟩ := b
    intro p h
    obtain ⟨h1, h2, h3, _, _, h6⟩ := h
    have hle : e ≤ src.length := h3
    simp only [weave]
    rw [ih e h6, part_append src h1 (by omega), part_append src (by omega) hle]

theorem scanBif_some {s : Str} : ∀ {prev : Char} {n pos e : Nat}, scanBif prev n pos s = some e →
    ∃ a r, s = a ++ c!":}" ++ r ∧ e = pos + a.length + 2 := by
  induction s with
  | nil => intro prev n pos e h; simp [scanBif] at h
  | cons c t ih =>
    intro prev n pos e h
    cases t with
    | nil => simp [scanBif] at h
    | cons d r =>
      have lift : ∀ {prev n}, scanBif prev n (pos + 1) (d :: r) = some e →
          ∃ a r', c :: d :: r = a ++ c!":}" ++ r' ∧ e = pos + a.length + 2 := by
        intro prev n h
        obtain ⟨a, r', h1, h2⟩ := ih h
        exact ⟨c :: a, r', by rw [h1]; rfl, by simp only [List.length_cons]; omega⟩
      simp only [scanBif] at h
      split at h
      · next hc =>
        split at h
        · exact lift h
        · split at h
          · next hd =>
            split at h
            · exact lift h
            · simp only [Option.some.injEq] at h
              subst hc hd
              exact ⟨[], r, rfl, by simp; omega⟩
          · exact lift h
      · exact lift h

theorem scanComment_some {s : Str} : ∀ {prev : Char} {n pos e : Nat}, scanComment prev n pos s = some e →
    ∃ a r, s = a ++ c!":}" ++ r ∧ e = pos + a.length + 2 := by
  induction s with
  | nil => intro prev n pos e h; simp [scanComment] at h
  | cons c t ih =>
    intro prev n pos e h
    cases t with
    | nil => simp [scanComment] at h
    | cons d r =>
      have lift : ∀ {prev n}, scanComment prev n (pos + 1) (d :: r) = some e →
          ∃ a r', c :: d :: r = a ++ c!":}" ++ r' ∧ e = pos + a.length + 2 := by
        intro prev n h
        obtain ⟨a, r', h1, h2⟩ := ih h
        exact ⟨c :: a, r', by rw [h1]; rfl, by simp only [List.length_cons]; omega⟩
      simp only [scanComment] at h
      split at h
      · next hc =>
        split at h
        · exact lift h
        · split at h
          · next hd =>
            split at h
            · exact lift h
            · simp only [Option.some.injEq] at h
              obtain ⟨_, hd⟩ := hd
              subst hc hd
              exact ⟨[], r, rfl, by simp; omega⟩
          · exact lift h
      · exact lift h

theorem scanBlock_some {pos e : Nat} {body : Str} (h : scanBlock pos body = some e) :
    ∃ a r, body = a ++ c!":}" ++ r ∧ e = pos + a.length + 2 := by
  unfold scanBlock at h
  split at h
  · exact scanComment_some h
  · exact scanBif_some h

theorem part_of_drop {src a b : Str} {p : Nat} (h : src.drop p = a ++ b) : part src p (p + a.length) = a := by
  unfold part
  rw [List.drop_take, h]
  have : p + a.length - p = a.length := by omega
  rw [this, List.take_left]

theorem scanBlocks_ordered (src s : Str) : ∀ pos skip, src.drop pos = s → pos + skip ≤ src.length →
    Ordered src (pos + skip) (scanBlocks pos skip s) := by
  induction s with
  | nil => intro pos skip _ h; exact h
  | cons c r ih =>
    intro pos skip hd hl
    have hd' : src.drop (pos + 1) = r := by
      rw [← List.drop_drop, hd]; rfl
    have hlen : (src.drop pos).length = r.length + 1 := by rw [hd]; rfl
    rw [List.length_drop] at hlen
    cases skip with
    | succ k =>
      simp only [scanBlocks]
      have := ih (pos + 1) k hd' (by omega)
      rw [Nat.add_right_comm, Nat.add_assoc] at this
      exact this
    | zero =>
      simp only [scanBlocks]
      split
      · have := ih (pos + 1) 0 hd' (by omega)
        revert this
        generalize scanBlocks (pos + 1) 0 r = bs
        intro this
        cases bs with
        | nil => exact hl
        | cons b bs =>
          obtain ⟨s, e⟩ := b
          exact ⟨by have := this.1; omega, this.2⟩
      · next body hb =>
        have hb' := stripPrefix?_eq_some.1 hb
        split
        · next e he =>
          obtain ⟨a, r', h1, h2⟩ := scanBlock_some he
          have hdrop : src.drop pos = (c!"{:" ++ a ++ c!":}") ++ r' := by
            rw [hd, hb', h1]; simp
          have hpart := part_of_drop hdrop
          have hlen2 : (src.drop pos).length = ((c!"{:" ++ a ++ c!":}") ++ r').length := by rw [hdrop]
          rw [List.length_drop] at hlen2
          simp only [List.length_append, List.length_cons, List.length_nil] at hlen2
          have he' : e = pos + (c!"{:" ++ a ++ c!":}").length := by
            simp only [List.length_append, List.length_cons, List.length_nil]; omega
          refine ⟨by omega, by omega, by omega, ?_, ?_, ?_⟩
          · rw [he', hpart]; exact ⟨a ++ c!":}", by simp⟩
          · rw [he', hpart]; exact ⟨c!"{:" ++ a, by simp⟩
          · have := ih (pos + 1) (e - pos - 1) hd' (by omega)
            have hx : pos + 1 + (e - pos - 1) = e := by omega
            rw [hx] at this
            exact this
        · have h1 : 1 ≤ r.length := by
            cases r with
            | nil => have := congrArg List.length hb'; simp at this
            | cons d r => simp
          have := ih (pos + 1) 1 hd' (by omega)
          revert this
          generalize scanBlocks (pos + 1) 1 r = bs
          intro this
          cases bs with
          | nil => exact hl
          | cons b bs =>
            obtain ⟨s, e⟩ := b
            exact ⟨by have := this.1; omega, this.2⟩

theorem part_to_length (src : Str) (p : Nat) : part src p src.length = src.drop p := by
  unfold part; rw [List.take_length]

theorem checkGaps_none {src : Str} {blocks : List (Nat × Nat)} :
    ∀ {p}, checkGaps src p blocks = none → ∀ t ∈ outside src p blocks, ¬ c!":}" <:+: t := by
  induction blocks with
  | nil =>
    intro p h t ht
    simp only [outside, List.mem_singleton] at ht
    subst ht
    simp only [checkGaps, Option.map_eq_none_iff] at h
    rw [part_to_length]
    exact (find_eq_none (by decide)).1 h
  | cons b r ih =>
    obtain ⟨s, e⟩ := b
    intro p h t ht
    simp only [checkGaps] at h
    split at h
    · simp at h
    · next hf =>
      simp only [outside, List.mem_cons] at ht
      rcases ht with rfl | ht
      · rw [← slice_eq_part]; exact (find_eq_none (by decide)).1 hf
      · exact ih h t ht

theorem ordered_ge {src : Str} {blocks : List (Nat × Nat)} : ∀ {p}, Ordered src p blocks →
    ∀ b ∈ blocks, p ≤ b.1 ∧ b.1 ≤ b.2 := by
  induction blocks with
  | nil => intro p _ b hb; simp at hb
  | cons x r ih =>
    obtain ⟨s, e⟩ := x
    intro p h b hb
    obtain ⟨h1, h2, _, _, _, h6⟩ := h
    rcases List.mem_cons.1 hb with rfl | hb
    · exact ⟨h1, by simp only; omega⟩
    · have := ih h6 b hb
      exact ⟨by omega, this.2⟩

theorem checkGaps_some {src : Str} {blocks : List (Nat × Nat)} : ∀ {p q}, checkGaps src p blocks = some q →
    Ordered src p blocks → p ≤ q ∧ c!":}" <+: src.drop q ∧ OutsideAll q blocks ∧ q + 2 ≤ src.length := by
  induction blocks with
  | nil =>
    intro p q h ho
    simp only [checkGaps, Option.map_eq_some_iff] at h
    obtain ⟨x, hx, rfl⟩ := h
    rw [find_eq_some (by decide)] at hx
    obtain ⟨⟨a, b, h1, h2⟩, _⟩ := hx
    have : src.drop (p + x) = c!":}" ++ b := by
      rw [← List.drop_drop, h1, ← h2, List.append_assoc, List.drop_left]
    have hl := congrArg List.length this
    simp only [List.length_drop, List.length_append, List.length_cons, List.length_nil] at hl
    refine ⟨by omega, ⟨b, by rw [this]⟩, by intro b hb; simp at hb, by omega⟩
  | cons b r ih =>
    obtain ⟨s, e⟩ := b
    intro p q h ho
    obtain ⟨h1, h2, h3, h4, h5, h6⟩ := ho
    simp only [checkGaps] at h
    split at h
    · next x hx =>
      simp only [Option.some.injEq] at h
      subst h
      rw [find_eq_some (by decide), slice_eq_part] at hx
      obtain ⟨⟨a, b, e1, e2⟩, _⟩ := hx
      have hcat := part_append src h1 (c := src.length) (by omega)
      rw [e1, part_to_length, part_to_length] at hcat
      have hd : src.drop (p + x) = c!":}" ++ (b ++ src.drop s) := by
        rw [← List.drop_drop, ← hcat, ← e2]
        simp only [List.append_assoc]
        rw [List.drop_left]
      have hl := congrArg List.length e1
      have hpl : (part src p s).length = s - p := by
        unfold part; rw [List.length_drop, List.length_take]; omega
      rw [hpl] at hl
      simp only [List.length_append, List.length_cons, List.length_nil] at hl
      refine ⟨by omega, ⟨b ++ src.drop s, by rw [hd]⟩, ?_, by omega⟩
      intro z hz
      rcases List.mem_cons.1 hz with rfl | hz
      · left; simp only; omega
      · left
        have := ordered_ge h6 z hz
        omega
    · obtain ⟨k1, k2, k3, k4⟩ := ih h h6
      refine ⟨by omega, k2, ?_, k4⟩
      intro z hz
      rcases List.mem_cons.1 hz with rfl | hz
      · right; exact k1
      · exact k3 z hz

/-! ### completeness of the scanners -/

theorem scanBif_chr {prev c : Char} {n pos : Nat} {t : Str} (hc : c ≠ ':') (ht : t ≠ []) :
    scanBif prev n pos (c :: t) = scanBif c n (pos + 1) t := by
  cases t with
  | nil => exact absurd rfl ht
  | cons d r => simp only [scanBif, hc, if_false]

theorem scanBif_bal {k b : Str} (h : Bal k b) (hk : k = c!":}") : ∀ (prev : Char) (n pos : Nat) (rest : Str),
    (prev = '{' → ¬ c!":" <+: b ++ c!":}") → ∃ prev', prev' ≠ '{' ∧
      scanBif prev n pos (b ++ c!":}" ++ rest) = scanBif prev' n (pos + b.length) (c!":}" ++ rest) := by
  induction h with
  | nil k =>
    intro prev n pos rest hp
    refine ⟨prev, ?_, by simp⟩
    intro hx
    exact hp hx (by simp)
  | @chr k s c h1 h2 hs ih =>
    subst hk
    intro prev n pos rest hp
    have hnext : c = '{' → ¬ c!":" <+: s ++ c!":}" := by
      rintro rfl hpre
      apply h1
      obtain ⟨x, hx⟩ := hpre
      exact ⟨x, by show '{' :: ([':'] ++ x) = '{' :: (s ++ c!":}"); rw [hx]⟩
    obtain ⟨prev', hp', he⟩ := ih rfl c n (pos + 1) rest hnext
    refine ⟨prev', hp', ?_⟩
    have hlen : pos + (c :: s).length = pos + 1 + s.length := by simp only [List.length_cons]; omega
    rw [hlen, ← he]
    by_cases hc : c = ':'
    · subst hc
      have hpn : prev ≠ '{' := by
        intro hx
        exact hp hx (by simp)
      have hd : ∃ d r, s ++ c!":}" ++ rest = d :: r ∧ d ≠ '}' := by
        cases s with
        | nil => exact ⟨':', '}' :: rest, rfl, by decide⟩
        | cons d r =>
          refine ⟨d, _, rfl, ?_⟩
          rintro rfl
          exact h2 (by simp)
      obtain ⟨d, r, hdr, hdn⟩ := hd
      simp only [List.cons_append]
      rw [hdr]
      simp only [scanBif, hpn, hdn, if_false, if_true]
    · simp only [List.cons_append]
      rw [scanBif_chr hc (by simp)]
  | @nest k b s hb hs ihb ihs =>
    subst hk
    intro prev n pos rest _
    obtain ⟨p1, hp1, e1⟩ := ihb rfl ':' (n + 1) (pos + 2) (s ++ c!":}" ++ rest) (fun h => absurd h (by decide))
    obtain ⟨p2, hp2, e2⟩ := ihs rfl '}' n (pos + b.length + 4) rest (fun h => absurd h (by decide))
    refine ⟨p2, hp2, ?_⟩
    have hl : pos + (c!"{:" ++ b ++ c!":}" ++ s).length = pos + b.length + 4 + s.length := by
      simp only [List.length_append, List.length_cons, List.length_nil]; omega
    rw [hl, ← e2]
    have hsrc : c!"{:" ++ b ++ c!":}" ++ s ++ c!":}" ++ rest = '{' :: ':' :: (b ++ c!":}" ++ (s ++ c!":}" ++ rest)) := by
      simp
    rw [hsrc, scanBif_chr (by decide) (by simp)]
    have hne : ∃ d r, b ++ c!":}" ++ (s ++ c!":}" ++ rest) = d :: r := by
      cases b with
      | nil => exact ⟨':', _, rfl⟩
      | cons d r => exact ⟨d, _, rfl⟩
    obtain ⟨d, r, hdr⟩ := hne
    have step1 : scanBif '{' n (pos + 1) (':' :: (b ++ c!":}" ++ (s ++ c!":}" ++ rest))) =
        scanBif ':' (n + 1) (pos + 2) (b ++ c!":}" ++ (s ++ c!":}" ++ rest)) := by
      rw [hdr]; simp only [scanBif, if_true]
    rw [step1, e1]
    have step2 : scanBif p1 (n + 1) (pos + 2 + b.length) (c!":}" ++ (s ++ c!":}" ++ rest)) =
        scanBif ':' n (pos + 2 + b.length + 1) ('}' :: (s ++ c!":}" ++ rest)) := by
      simp only [List.cons_append, List.nil_append, scanBif, hp1, if_true, if_false, Nat.zero_lt_succ, Nat.add_sub_cancel]
    rw [step2, scanBif_chr (by decide) (by simp)]
    congr 1
    omega

theorem scanBlock_bif {b rest : Str} (h : IsBif b) (pos : Nat) :
    ∃ body, b ++ rest = c!"{:" ++ body ∧ scanBlock (pos + 2) body = some (pos + b.length) := by
  obtain ⟨x, rfl, hx, hstar⟩ := h
  refine ⟨x ++ c!":}" ++ rest, by simp, ?_⟩
  unfold scanBlock
  split
  · next r heq =>
    exfalso
    cases x with
    | nil => simp at heq
    | cons c x =>
      simp only [List.cons_append, List.cons.injEq] at heq
      rw [heq.1] at hstar
      exact hstar (by simp)
  · obtain ⟨p', hp', e⟩ := scanBif_bal hx rfl ':' 0 (pos + 2) rest (fun h => absurd h (by decide))
    rw [e]
    simp only [List.cons_append, List.nil_append, scanBif, hp', if_true, if_false, Nat.lt_irrefl,
      List.length_append, List.length_cons, List.length_nil]
    congr 1
    omega

theorem scanComment_chr {prev c : Char} {n pos : Nat} {t : Str} (hc : c ≠ ':') (ht : t ≠ []) :
    scanComment prev n pos (c :: t) = scanComment c n (pos + 1) t := by
  cases t with
  | nil => exact absurd rfl ht
  | cons d r => simp only [scanComment, hc, if_false]

/-- What the character before a comment text must not combine to. -/
def PrevOk (prev : Char) (t : Str) : Prop := (prev = '{' → ¬ c!":*" <+: t) ∧ (prev = '*' → ¬ c!":}" <+: t)

theorem prevOk_chr {c : Char} {t : Str} (h1 : ¬ c!"{:*" <+: c :: t) (h2 : ¬ c!"*:}" <+: c :: t) : PrevOk c t := by
  constructor
  · rintro rfl ⟨x, hx⟩
    exact h1 ⟨x, by rw [← hx]; rfl⟩
  · rintro rfl ⟨x, hx⟩
    exact h2 ⟨x, by rw [← hx]; rfl⟩

theorem prevOk_other {c : Char} {t : Str} (h1 : c ≠ '{') (h2 : c ≠ '*') : PrevOk c t :=
  ⟨fun h => absurd h h1, fun h => absurd h h2⟩

/-- At a `:` that is neither an opening nor a closing. -/
theorem colon_skip {prev : Char} {s k : Str} (hp : PrevOk prev (':' :: s ++ k)) {d : Char} {r : Str}
    (hdr : s ++ k = d :: r) : ¬ (prev = '{' ∧ d = '*') ∧ ¬ (prev = '*' ∧ d = '}') := by
  constructor
  · rintro ⟨h1, rfl⟩
    exact hp.1 h1 ⟨r, by show ':' :: '*' :: r = ':' :: (s ++ k); rw [hdr]⟩
  · rintro ⟨h1, rfl⟩
    exact hp.2 h1 ⟨r, by show ':' :: '}' :: r = ':' :: (s ++ k); rw [hdr]⟩

theorem scanComment_cbal {k b : Str} (h : CBal k b) (hk : k = c!"*:}") : ∀ (prev : Char) (n pos : Nat) (rest : Str),
    PrevOk prev (b ++ c!"*:}") → ∃ prev',
      scanComment prev n pos (b ++ c!"*:}" ++ rest) = scanComment prev' n (pos + b.length) (c!"*:}" ++ rest) := by
  induction h with
  | nil k => intro prev n pos rest _; exact ⟨prev, by simp⟩
  | @chr k s c h1 h2 hs ih =>
    subst hk
    intro prev n pos rest hp
    obtain ⟨prev', he⟩ := ih rfl c n (pos + 1) rest (prevOk_chr h1 h2)
    refine ⟨prev', ?_⟩
    have hlen : pos + (c :: s).length = pos + 1 + s.length := by simp only [List.length_cons]; omega
    rw [hlen, ← he]
    by_cases hc : c = ':'
    · subst hc
      have hd : ∃ d r, s ++ c!"*:}" = d :: r := by
        cases s with
        | nil => exact ⟨'*', _, rfl⟩
        | cons d r => exact ⟨d, _, rfl⟩
      obtain ⟨d, r, hdr⟩ := hd
      obtain ⟨g1, g2⟩ := colon_skip hp hdr
      simp only [List.cons_append]
      rw [hdr]
      simp only [List.cons_append, scanComment, g1, g2, if_false, if_true]
    · simp only [List.cons_append]
      rw [scanComment_chr hc (by simp)]
  | @com k b s hb hcl hs ihb ihs =>
    subst hk
    intro prev n pos rest _
    obtain ⟨p1, e1⟩ := ihb rfl '*' (n + 1) (pos + 3) (s ++ c!"*:}" ++ rest) ⟨fun h => absurd h (by decide), fun _ => hcl⟩
    obtain ⟨p2, e2⟩ := ihs rfl '}' n (pos + b.length + 6) rest (prevOk_other (by decide) (by decide))
    refine ⟨p2, ?_⟩
    have hl : pos + (c!"{:*" ++ b ++ c!"*:}" ++ s).length = pos + b.length + 6 + s.length := by
      simp only [List.length_append, List.length_cons, List.length_nil]; omega
    rw [hl, ← e2]
    have hsrc : c!"{:*" ++ b ++ c!"*:}" ++ s ++ c!"*:}" ++ rest =
        '{' :: ':' :: '*' :: (b ++ c!"*:}" ++ (s ++ c!"*:}" ++ rest)) := by simp
    rw [hsrc, scanComment_chr (by decide) (by simp)]
    have step1 : scanComment '{' n (pos + 1) (':' :: '*' :: (b ++ c!"*:}" ++ (s ++ c!"*:}" ++ rest))) =
        scanComment ':' (n + 1) (pos + 2) ('*' :: (b ++ c!"*:}" ++ (s ++ c!"*:}" ++ rest))) := by
      simp [scanComment]
    rw [step1, scanComment_chr (by decide) (by simp), e1]
    have hx : c!"*:}" ++ (s ++ c!"*:}" ++ rest) = '*' :: ':' :: '}' :: (s ++ c!"*:}" ++ rest) := rfl
    rw [hx, scanComment_chr (by decide) (by simp)]
    have step2 : scanComment '*' (n + 1) (pos + 3 + b.length + 1) (':' :: '}' :: (s ++ c!"*:}" ++ rest)) =
        scanComment ':' n (pos + 3 + b.length + 2) ('}' :: (s ++ c!"*:}" ++ rest)) := by
      simp [scanComment]
    rw [step2, scanComment_chr (by decide) (by simp)]
    congr 1
    omega

theorem scanBlock_comment {b rest : Str} (h : IsComment b) (pos : Nat) :
    ∃ body, b ++ rest = c!"{:" ++ body ∧ scanBlock (pos + 2) body = some (pos + b.length) := by
  obtain ⟨x, rfl, hx, hcl⟩ := h
  refine ⟨'*' :: (x ++ c!"*:}" ++ rest), by simp, ?_⟩
  unfold scanBlock
  simp only
  obtain ⟨p', e⟩ := scanComment_cbal hx rfl '*' 0 (pos + 3) rest ⟨fun h => absurd h (by decide), fun _ => hcl⟩
  rw [scanComment_chr (by decide) (by simp), e]
  have hy : c!"*:}" ++ rest = '*' :: ':' :: '}' :: rest := rfl
  rw [hy, scanComment_chr (by decide) (by simp)]
  simp [scanComment]
  omega

theorem scanBlock_block {b rest : Str} (h : IsBif b ∨ IsComment b) (pos : Nat) :
    ∃ body, b ++ rest = c!"{:" ++ body ∧ scanBlock (pos + 2) body = some (pos + b.length) := by
  rcases h with h | h
  · exact scanBlock_bif h pos
  · exact scanBlock_comment h pos

theorem block_length {b : Str} (h : IsBif b ∨ IsComment b) : 4 ≤ b.length := by
  rcases h with ⟨x, rfl, _⟩ | ⟨x, rfl, _⟩ <;> simp only [List.length_append, List.length_cons, List.length_nil] <;> omega

theorem scanBlocks_skip (a s : Str) : ∀ pos, scanBlocks pos a.length (a ++ s) = scanBlocks (pos + a.length) 0 s := by
  induction a with
  | nil => intro pos; rfl
  | cons c a ih =>
    intro pos
    simp only [List.length_cons, List.cons_append, scanBlocks]
    rw [ih]
    congr 1
    omega

theorem scanBlocks_block {b s : Str} (h : IsBif b ∨ IsComment b) (pos : Nat) :
    scanBlocks pos 0 (b ++ s) = (pos, pos + b.length) :: scanBlocks (pos + b.length) 0 s := by
  obtain ⟨body, h1, h2⟩ := scanBlock_block (rest := s) h pos
  have hl := block_length h
  cases b with
  | nil => simp at hl
  | cons c b =>
    simp only [List.cons_append, scanBlocks]
    rw [List.cons_append] at h1
    rw [h1, stripPrefix?_append]
    simp only [h2]
    have : pos + (c :: b).length - pos - 1 = b.length := by simp only [List.length_cons]; omega
    rw [this, scanBlocks_skip]
    simp only [List.length_cons]
    congr 2
    omega

theorem wellFormed_scan {p : Nat} {s : Str} {l : List (Nat × Nat)} (h : WellFormed p s l) : scanBlocks p 0 s = l := by
  induction h with
  | nil p => rfl
  | chr c h1 h2 _ ih =>
    simp only [scanBlocks]
    rw [stripPrefix?_eq_none.2 h1]
    exact ih
  | block hb _ ih => rw [scanBlocks_block hb, ih]

theorem wellFormed_noClose {src : Str} {p : Nat} {s : Str} {l : List (Nat × Nat)} (h : WellFormed p s l) :
    src.drop p = s → ∀ i, p ≤ i → OutsideAll i l → ¬ c!":}" <+: src.drop i := by
  induction h with
  | nil p =>
    intro hd i hi _ hx
    have : src.drop i = [] := by
      rw [List.drop_eq_nil_iff] at hd ⊢; omega
    rw [this] at hx
    simp at hx
  | @chr p s l c h1 h2 _ ih =>
    intro hd i hi ho
    by_cases hip : i = p
    · subst hip; rw [hd]; exact h2
    · exact ih (by rw [← List.drop_drop, hd]; rfl) i (by omega) ho
  | @block p b s l hb _ ih =>
    intro hd i hi ho
    have h1 := ho (p, p + b.length) (by simp)
    simp only at h1
    exact ih (by rw [← List.drop_drop, hd, List.drop_left]) i (by omega)
      (fun x hx => ho x (List.mem_cons_of_mem _ hx))

/-- The blocks leave out no BIF and no comment that starts outside them. -/
def Spec.NothingMissed (src : Str) (blocks : List (Nat × Nat)) : Prop :=
  ∀ i b, OutsideAll i blocks → IsBif b ∨ IsComment b → ¬ b <+: src.drop i

theorem scanBlocks_missed (src s : Str) : ∀ pos skip, src.drop pos = s → ∀ i b, pos + skip ≤ i →
    OutsideAll i (scanBlocks pos skip s) → IsBif b ∨ IsComment b → ¬ b <+: src.drop i := by
  induction s with
  | nil =>
    intro pos skip hd i b hi _ hb hx
    have : src.drop i = [] := by rw [List.drop_eq_nil_iff] at hd ⊢; omega
    rw [this] at hx
    have := block_length hb
    simp only [List.prefix_nil] at hx
    subst hx
    simp at this
  | cons c r ih =>
    intro pos skip hd i b hi ho hb hx
    have hd' : src.drop (pos + 1) = r := by rw [← List.drop_drop, hd]; rfl
    cases skip with
    | succ k =>
      simp only [scanBlocks] at ho
      exact ih (pos + 1) k hd' i b (by omega) ho hb hx
    | zero =>
      by_cases hip : i = pos
      · subst hip
        obtain ⟨t, ht⟩ := hx
        rw [hd] at ht
        rw [← ht, scanBlocks_block hb] at ho
        have h1 := ho (i, i + b.length) (by simp)
        have := block_length hb
        simp only at h1
        omega
      · simp only [scanBlocks] at ho
        split at ho
        · exact ih (pos + 1) 0 hd' i b (by omega) ho hb hx
        · next body hbody =>
          have hb' := stripPrefix?_eq_some.1 hbody
          split at ho
          · next e he =>
            obtain ⟨a, r', _, h2⟩ := scanBlock_some he
            have h1 := ho (pos, e) (by simp)
            simp only at h1
            exact ih (pos + 1) (e - pos - 1) hd' i b (by omega) (fun x hx => ho x (List.mem_cons_of_mem _ hx)) hb hx
          · by_cases hip2 : i = pos + 1
            · subst hip2
              rw [hd'] at hx
              simp only [List.cons_append, List.nil_append, List.cons.injEq] at hb'
              rw [hb'.2] at hx
              obtain ⟨t, ht⟩ := hx
              rcases hb with ⟨x, rfl, _⟩ | ⟨x, rfl, _⟩ <;> simp at ht
            · exact ih (pos + 1) 1 hd' i b (by omega) ho hb hx

/-- **C14 (success).** When `extract_blocks` succeeds, for any source: the blocks are in order, disjoint and inside the
source, each starts with `{:` and ends with `:}`; outside the blocks there is no `:}`, and no well-formed BIF or comment
starts there; text and blocks put together give back the source. -/
theorem C14_blocks (src : Str) (blocks : List (Nat × Nat)) (h : extractBlocks src = .ok blocks) :
    Ordered src 0 blocks ∧ (∀ t ∈ outside src 0 blocks, ¬ c!":}" <:+: t) ∧ NothingMissed src blocks ∧
      weave src 0 blocks = src := by
  unfold extractBlocks at h
  dsimp only at h
  split at h
  · simp at h
  · next hg =>
    simp only [Except.ok.injEq] at h
    subst h
    have ho := scanBlocks_ordered src src 0 0 rfl (by omega)
    exact ⟨ho, checkGaps_none hg, fun i b h1 h2 => scanBlocks_missed src src 0 0 rfl i b (by omega) h1 h2,
      by rw [weave_eq _ _ _ ho, part_zero_length]⟩

/-- **C14 (failure).** When it fails, the reported position is the place of a `:}` outside every block. -/
theorem C14_error (src : Str) (p : Nat) (h : extractBlocks src = .error p) :
    c!":}" <+: src.drop p ∧ ∃ blocks, Ordered src 0 blocks ∧ NothingMissed src blocks ∧ OutsideAll p blocks := by
  unfold extractBlocks at h
  dsimp only at h
  split at h
  · next q hg =>
    simp only [Except.error.injEq] at h
    subst h
    have ho := scanBlocks_ordered src src 0 0 rfl (by omega)
    have := checkGaps_some hg ho
    exact ⟨this.2.1, _, ho, fun i b h1 h2 => scanBlocks_missed src src 0 0 rfl i b (by omega) h1 h2, this.2.2.1⟩
  · simp at h

example : extractBlocks c!"a {:code; {:;x:} :} b {:* c *:}" = .ok [(2, 19), (22, 31)] := by rfl
example : extractBlocks c!"a {:;x:} :} b" = .error 9 := by rfl

/-! ### C15 -/

/-- **C15.** On a well-formed template, of any size and nesting depth, `extract_blocks` returns exactly its top-level
BIFs and comments. -/
theorem C15_complete (s : Str) (l : List (Nat × Nat)) (h : WellFormed 0 s l) : extractBlocks s = .ok l := by
  unfold extractBlocks
  dsimp only
  rw [wellFormed_scan h]
  cases hg : checkGaps s 0 l with
  | none => rfl
  | some q =>
    exfalso
    have ho := scanBlocks_ordered s s 0 0 rfl (by omega)
    rw [wellFormed_scan h] at ho
    obtain ⟨_, h2, h3, _⟩ := checkGaps_some hg ho
    exact wellFormed_noClose (src := s) h rfl q (by omega) h3 h2

/-- The premise is met by a template with text, a comment and nested BIFs. -/
example : WellFormed 0 c!"a {:c; {:;x:}:}{:* : *:}" [(2, 15), (15, 24)] := by
  refine .chr _ (by decide) (by decide) (.chr _ (by decide) (by decide) ?_)
  refine .block (b := c!"{:c; {:;x:}:}") (.inl ⟨c!"c; {:;x:}", rfl, ?_, by decide⟩) ?_
  · exact .chr _ (by decide) (by decide) (.chr _ (by decide) (by decide) (.chr _ (by decide) (by decide)
      (.nest (b := c!";x") (.chr _ (by decide) (by decide) (.chr _ (by decide) (by decide) (.nil _))) (.nil _))))
  · refine .block (b := c!"{:* : *:}") (s := []) (.inr ⟨c!" : ", rfl, ?_, by decide⟩) (.nil _)
    exact .chr _ (by decide) (by decide) (.chr _ (by decide) (by decide) (.chr _ (by decide) (by decide) (.nil _)))

end Nts
