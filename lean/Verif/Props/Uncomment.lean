import Verif.Props.Comments
import Verif.Spec.Uncomment
/-
C16, exactly: `remove_comments` on every text.
-/
set_option autoImplicit false
namespace Nts
open Spec

theorem occ_snoc (p s : Str) (d : Char) : occ p (s ++ [d]) = occ p s + (if p <:+ s ++ [d] then 1 else 0) := by
  unfold occ
  rw [List.length_append, show s.length + [d].length + 1 = (s.length + 1) + 1 from rfl, List.range_succ (n := s.length + 1),
    List.filter_append, List.length_append]
  congr 1
  · congr 1
    apply List.filter_congr
    intro n hn
    rw [List.mem_range] at hn
    rw [List.take_append_of_le_length (by omega)]
  · rw [List.filter_cons, List.take_of_length_le (by simp)]
    by_cases h : p <:+ s ++ [d]
    · simp [h]
    · simp [h]

theorem suffix3 (a b e x y d : Char) (s : Str) : [a, b, e] <:+ s ++ [x, y] ++ [d] ↔ x = a ∧ y = b ∧ d = e := by
  rw [← List.reverse_prefix]
  simp only [List.reverse_append, List.reverse_cons, List.reverse_nil, List.nil_append, List.cons_append, List.cons_prefix_cons,
    List.nil_prefix, and_true]
  constructor
  · rintro ⟨h1, h2, h3⟩; exact ⟨h3.symm, h2.symm, h1.symm⟩
  · rintro ⟨h1, h2, h3⟩; exact ⟨h3.symm, h2.symm, h1.symm⟩

theorem occ3_snoc (a b e x y d : Char) (s : Str) :
    occ [a, b, e] (s ++ [x, y] ++ [d]) = occ [a, b, e] (s ++ [x, y]) + (if x = a ∧ y = b ∧ d = e then 1 else 0) := by
  rw [occ_snoc]
  simp only [suffix3]

theorem occ_start_open : occ c!"{:*" c!"{:*" = 1 := by decide
theorem occ_start_close : occ c!"*:}" c!"{:*" = 0 := by decide

theorem afterColon_nil : afterColon [] = [] := rfl

theorem afterColon_none {x : Str} (h : ':' ∉ x) : afterColon x = x := by
  unfold afterColon
  have := List.takeWhile_append_of_pos (p := fun c => decide (c ≠ ':')) (l₁ := x.reverse) (l₂ := []) ?_
  · rw [List.append_nil, List.takeWhile_nil, List.append_nil] at this
    rw [this, List.reverse_reverse]
  intro c hc
  simp only [decide_eq_true_eq]
  intro e; subst e
  exact h (List.mem_reverse.1 hc)

theorem afterColon_append {a x : Str} (h : ':' ∉ x) : afterColon (a ++ ':' :: x) = x := by
  unfold afterColon
  rw [List.reverse_append, List.reverse_cons, List.append_assoc, List.takeWhile_append_of_pos]
  · simp
  · intro c hc
    simp only [decide_eq_true_eq]
    intro e; subst e
    exact h (List.mem_reverse.1 hc)

theorem afterColon_cons {c d : Char} {r : Str} (h : ':' ∈ d :: r ∨ c = ':') : afterColon (c :: d :: r) = afterColon (d :: r) := by
  by_cases hr : ':' ∈ d :: r
  · obtain ⟨a, x, e, hx⟩ : ∃ a x, d :: r = a ++ ':' :: x ∧ ':' ∉ x := by
      have : ':' ∈ (d :: r).reverse := List.mem_reverse.2 hr
      obtain ⟨as, bs, e, hn⟩ := List.eq_append_cons_of_mem this
      refine ⟨bs.reverse, as.reverse, ?_, by simpa using hn⟩
      have := congrArg List.reverse e
      simpa using this
    rw [e, ← List.cons_append, afterColon_append hx, afterColon_append hx]
  · have hc : c = ':' := by rcases h with h | h; exact absurd h hr; exact h
    rw [hc, afterColon_none hr]
    exact afterColon_append (a := []) hr

/-- More opening than closing delimiters in every prefix of at least 3 characters. -/
def StaysOpen (s : Str) : Prop := ∀ j, 3 ≤ j → j ≤ s.length → occ c!"*:}" (s.take j) < occ c!"{:*" (s.take j)

theorem staysOpen_snoc {s : Str} {d : Char} (h : StaysOpen s) (h2 : occ c!"*:}" (s ++ [d]) < occ c!"{:*" (s ++ [d])) :
    StaysOpen (s ++ [d]) := by
  intro j h3 hj
  rw [List.length_append, List.length_singleton] at hj
  by_cases hl : j ≤ s.length
  · rw [List.take_append_of_le_length hl]; exact h j h3 hl
  · rw [List.take_of_length_le (by simp; omega)]; exact h2

theorem scanRC_exact : ∀ (r : Str) (c prev : Char) (n cur pos : Nat) (q : Str),
    n + 1 + occ c!"*:}" (q ++ [prev, c]) = occ c!"{:*" (q ++ [prev, c]) → StaysOpen (q ++ [prev, c]) →
    match scanRC prev n cur pos (c :: r) with
    | .closed n' e => n' = 0 ∧ ∃ k, e = pos + k ∧ 2 ≤ k ∧ k ≤ (c :: r).length ∧
        occ c!"{:*" ((q ++ [prev] ++ c :: r).take (q.length + 1 + k)) = occ c!"*:}" ((q ++ [prev] ++ c :: r).take (q.length + 1 + k)) ∧
        StaysOpen ((q ++ [prev] ++ c :: r).take (q.length + k))
    | .unclosed _ e => StaysOpen (q ++ [prev] ++ c :: r) ∧ ¬ c!":" <:+ c :: r ∧
        ((':' ∉ c :: r ∧ e = cur) ∨ (':' ∈ c :: r ∧ pos ≤ e ∧ e ≤ pos + (c :: r).length ∧ (c :: r).drop (e - pos) = afterColon (c :: r)))
    | .panic => StaysOpen (q ++ [prev] ++ c :: r) ∧ c!":" <:+ c :: r := by
  intro r
  induction r with
  | nil =>
    intro c prev n cur pos q hI hJ
    have hq : q ++ [prev] ++ [c] = q ++ [prev, c] := by simp
    simp only [scanRC]
    by_cases hc : c = ':'
    · rw [if_pos hc]
      exact ⟨by rw [hq]; exact hJ, by rw [hc]; exact List.suffix_refl _⟩
    · rw [if_neg hc]
      refine ⟨by rw [hq]; exact hJ, ?_, .inl ⟨?_, rfl⟩⟩
      · intro h
        obtain ⟨a, ha⟩ := h
        have := congrArg List.getLast? ha
        simp at this
        exact hc this.symm
      · simp only [List.mem_singleton]; exact fun h => hc h.symm
  | cons d r ih =>
    intro c prev n cur pos q hI hJ
    have hq : q ++ [prev] ++ c :: d :: r = (q ++ [prev]) ++ [c] ++ d :: r := by simp
    have e1 := occ3_snoc '{' ':' '*' prev c d q
    have e2 := occ3_snoc '*' ':' '}' prev c d q
    have hsn : q ++ [prev, c] ++ [d] = (q ++ [prev]) ++ [c, d] := by simp
    -- the recursive case
    have step : ∀ n' cur' , n' + 1 + occ c!"*:}" (q ++ [prev, c] ++ [d]) = occ c!"{:*" (q ++ [prev, c] ++ [d]) →
        (c = ':' → cur' = pos + 1) → (c ≠ ':' → cur' = cur) →
        match scanRC c n' cur' (pos + 1) (d :: r) with
        | .closed n' e => n' = 0 ∧ ∃ k, e = pos + k ∧ 2 ≤ k ∧ k ≤ (c :: d :: r).length ∧
            occ c!"{:*" ((q ++ [prev] ++ c :: d :: r).take (q.length + 1 + k)) = occ c!"*:}" ((q ++ [prev] ++ c :: d :: r).take (q.length + 1 + k)) ∧
            StaysOpen ((q ++ [prev] ++ c :: d :: r).take (q.length + k))
        | .unclosed _ e => StaysOpen (q ++ [prev] ++ c :: d :: r) ∧ ¬ c!":" <:+ c :: d :: r ∧
            ((':' ∉ c :: d :: r ∧ e = cur) ∨ (':' ∈ c :: d :: r ∧ pos ≤ e ∧ e ≤ pos + (c :: d :: r).length ∧ (c :: d :: r).drop (e - pos) = afterColon (c :: d :: r)))
        | .panic => StaysOpen (q ++ [prev] ++ c :: d :: r) ∧ c!":" <:+ c :: d :: r := by
      intro n' cur' hI' hc1 hc2
      have := ih d c n' cur' (pos + 1) (q ++ [prev]) (by rw [← hsn]; exact hI')
        (by rw [← hsn]; exact staysOpen_snoc hJ (by omega))
      rw [hq]
      cases hs : scanRC c n' cur' (pos + 1) (d :: r) with
      | closed n2 e =>
        rw [hs] at this
        obtain ⟨h0, k, h1, h2, h3, h4, h5⟩ := this
        refine ⟨h0, k + 1, by omega, by omega, by simp only [List.length_cons] at h3 ⊢; omega, ?_, ?_⟩
        · have : (q ++ [prev]).length + 1 + k = q.length + 1 + (k + 1) := by simp; omega
          rw [this] at h4; exact h4
        · have : (q ++ [prev]).length + k = q.length + (k + 1) := by simp; omega
          rw [this] at h5; exact h5
      | unclosed n2 e =>
        rw [hs] at this
        obtain ⟨h0, h1, h2⟩ := this
        refine ⟨h0, ?_, ?_⟩
        · intro h
          apply h1
          obtain ⟨a, ha⟩ := h
          cases a with
          | nil => simp at ha
          | cons x a =>
            injection ha with _ ha
            exact ⟨a, ha⟩
        · rcases h2 with ⟨h2, h3⟩ | ⟨h2, h3, h4, h5⟩
          · by_cases hc : c = ':'
            · refine .inr ⟨by simp [hc], ?_⟩
              have he := hc1 hc
              refine ⟨by omega, by simp only [List.length_cons]; omega, ?_⟩
              rw [afterColon_cons (.inr hc), afterColon_none h2, h3, he, show pos + 1 - pos = 1 by omega]; rfl
            · refine .inl ⟨?_, by rw [h3, hc2 hc]⟩
              rw [List.mem_cons]
              rintro (h | h)
              · exact hc h.symm
              · exact h2 h
          · refine .inr ⟨List.mem_cons_of_mem _ h2, by omega, by simp only [List.length_cons] at h4 ⊢; omega, ?_⟩
            rw [afterColon_cons (.inl h2), ← h5, show e - pos = (e - (pos + 1)) + 1 by omega]; rfl
      | panic =>
        rw [hs] at this
        exact ⟨this.1, this.2.trans (List.suffix_cons _ _)⟩
    simp only [scanRC]
    by_cases hc : c = ':'
    · rw [if_pos hc]
      by_cases ho : prev = '{' ∧ d = '*'
      · rw [if_pos ho]
        refine step (n + 1) (pos + 1) ?_ (fun _ => rfl) (fun h => absurd hc h)
        rw [if_pos ⟨ho.1, hc, ho.2⟩] at e1
        rw [if_neg (by rw [ho.1]; intro h; exact absurd h.1 (by decide))] at e2
        omega
      · rw [if_neg ho]
        by_cases hcl : prev = '*' ∧ d = '}'
        · rw [if_pos hcl]
          rw [if_neg (by rw [hcl.1]; intro h; exact absurd h.1 (by decide))] at e1
          rw [if_pos ⟨hcl.1, hc, hcl.2⟩] at e2
          by_cases hn : 0 < n
          · rw [if_pos hn]
            refine step (n - 1) (pos + 1) ?_ (fun _ => rfl) (fun h => absurd hc h)
            omega
          · rw [if_neg hn]
            refine ⟨by omega, 2, rfl, Nat.le_refl _, by simp, ?_, ?_⟩
            · have : (q ++ [prev] ++ c :: d :: r).take (q.length + 1 + 2) = q ++ [prev, c] ++ [d] := by
                have : q ++ [prev] ++ c :: d :: r = (q ++ [prev, c] ++ [d]) ++ r := by simp
                rw [this, List.take_left' (by simp)]
              rw [this, e1, e2]; omega
            · have : (q ++ [prev] ++ c :: d :: r).take (q.length + 2) = q ++ [prev, c] := by
                have : q ++ [prev] ++ c :: d :: r = (q ++ [prev, c]) ++ d :: r := by simp
                rw [this, List.take_left' (by simp)]
              rw [this]; exact hJ
        · rw [if_neg hcl]
          refine step n (pos + 1) ?_ (fun _ => rfl) (fun h => absurd hc h)
          rw [if_neg (fun h => ho ⟨h.1, h.2.2⟩)] at e1
          rw [if_neg (fun h => hcl ⟨h.1, h.2.2⟩)] at e2
          omega
    · rw [if_neg hc]
      refine step n cur ?_ (fun h => absurd h hc) (fun _ => rfl)
      rw [if_neg (fun h => hc h.2.1)] at e1
      rw [if_neg (fun h => hc h.2.1)] at e2
      omega

/-- The scan of one comment, from its start. -/
theorem scanRC_start (x : Str) (pos : Nat) :
    match scanRC '*' 0 (pos + 3) (pos + 3) x with
    | .closed n e => n = 0 ∧ ∃ k, e = pos + k ∧ Closes (c!"{:*" ++ x) k
    | .unclosed _ e => (∀ k, ¬ Closes (c!"{:*" ++ x) k) ∧ ¬ c!":" <:+ x ∧ pos + 3 ≤ e ∧ e ≤ pos + 3 + x.length ∧
        x.drop (e - (pos + 3)) = afterColon x
    | .panic => (∀ k, ¬ Closes (c!"{:*" ++ x) k) ∧ c!":" <:+ x := by
  have nope : ∀ s, StaysOpen s → ∀ k, ¬ Closes s k := by
    intro s hs k h
    have := hs k h.1 h.2.1
    have := h.2.2.1
    omega
  cases x with
  | nil =>
    simp only [scanRC]
    refine ⟨nope _ ?_, by simp, by omega, by omega, by simp [afterColon]⟩
    intro j h1 h2
    have : j = 3 := by simp only [List.append_nil, List.length_cons, List.length_nil] at h2; omega
    subst this; decide
  | cons c r =>
    have e1 := occ3_snoc '{' ':' '*' ':' '*' c ['{']
    have e2 := occ3_snoc '*' ':' '}' ':' '*' c ['{']
    rw [if_neg (fun h => absurd h.1 (by decide))] at e1 e2
    have a1 : occ c!"{:*" (['{'] ++ [':', '*']) = 1 := by decide
    have a2 : occ c!"*:}" (['{'] ++ [':', '*']) = 0 := by decide
    have hopen : StaysOpen (c!"{:" ++ ['*', c]) := by
      have : c!"{:" ++ ['*', c] = c!"{:*" ++ [c] := rfl
      rw [this]
      refine staysOpen_snoc ?_ ?_
      · intro j h1 h2
        have : j = 3 := by simp only [List.length_cons, List.length_nil] at h2; omega
        subst this; decide
      · have b1 : occ c!"{:*" (c!"{:*" ++ [c]) = 1 := by rw [← a1]; exact e1
        have b2 : occ c!"*:}" (c!"{:*" ++ [c]) = 0 := by rw [← a2]; exact e2
        rw [b1, b2]; exact Nat.one_pos
    have := scanRC_exact r c '*' 0 (pos + 3) (pos + 3) c!"{:" (by
      have b1 : occ c!"{:*" (c!"{:" ++ ['*', c]) = 1 := by rw [← a1]; exact e1
      have b2 : occ c!"*:}" (c!"{:" ++ ['*', c]) = 0 := by rw [← a2]; exact e2
      rw [b1, b2]) hopen
    cases hs : scanRC '*' 0 (pos + 3) (pos + 3) (c :: r) with
    | closed n e =>
      rw [hs] at this
      obtain ⟨h0, k, h1, h2, h3, h4, h5⟩ := this
      refine ⟨h0, 3 + k, by omega, by omega, by simp only [List.length_append, List.length_cons] at h3 ⊢; simp; omega, ?_, ?_⟩
      · exact h4
      · intro j hj1 hj2
        have h6 := h5 j hj1 (by
          rw [List.length_take]
          simp only [List.length_append, List.length_cons, List.length_nil] at h3 ⊢
          omega)
        rw [List.take_take, Nat.min_eq_left (by simp; omega)] at h6
        have h7 : c!"{:" ++ ['*'] ++ c :: r = c!"{:*" ++ c :: r := rfl
        rw [h7] at h6
        omega
    | unclosed n e =>
      rw [hs] at this
      obtain ⟨h0, h1, h2⟩ := this
      refine ⟨nope _ h0, h1, ?_⟩
      rcases h2 with ⟨h2, h3⟩ | ⟨h2, h3, h4, h5⟩
      · refine ⟨by omega, by omega, ?_⟩
        rw [afterColon_none h2, h3, Nat.sub_self]; rfl
      · exact ⟨h3, h4, h5⟩
    | panic =>
      rw [hs] at this
      exact ⟨nope _ this.1, this.2⟩

theorem scanRCs_noColon (n cur : Nat) : ∀ (s : Str) (pos : Nat), ':' ∉ s → scanRCs n cur pos 0 s = some ([], cur) := by
  intro s
  induction s with
  | nil => intro pos _; rfl
  | cons c r ih =>
    intro pos h
    simp only [scanRCs]
    rw [stripPrefix?_eq_none.2 (fun hp => h (hp.subset (by simp)))]
    exact ih _ (fun hh => h (List.mem_cons_of_mem _ hh))

theorem afterColon_noColon (x : Str) : ':' ∉ afterColon x := by
  unfold afterColon
  intro h
  have := List.all_takeWhile (p := fun c => decide (c ≠ ':')) (l := x.reverse)
  rw [List.all_eq_true] at this
  have := this _ (List.mem_reverse.1 h)
  simp at this

theorem scanRCs_exact (full : Str) : ∀ (k : Nat) (s : Str) (pos cur : Nat), s.length ≤ k → full.drop pos = s → cur ≤ pos →
    Uncommented (part full cur pos) s ((scanRCs 0 cur pos 0 s).map (fun x => gapsText full cur x.1 ++ full.drop x.2)) := by
  intro k
  induction k with
  | zero =>
    intro s pos cur hk hd hle
    cases s with
    | nil =>
      simp only [scanRCs, Option.map_some, gapsText, List.nil_append]
      have : full.drop cur = part full cur pos := by
        unfold part; rw [List.take_of_length_le (List.drop_eq_nil_iff.1 hd)]
      rw [this]; exact .nil _
    | cons c r => simp at hk
  | succ k ih =>
    intro s pos cur hk hd hle
    cases s with
    | nil =>
      simp only [scanRCs, Option.map_some, gapsText, List.nil_append]
      have : full.drop cur = part full cur pos := by
        unfold part; rw [List.take_of_length_le (List.drop_eq_nil_iff.1 hd)]
      rw [this]; exact .nil _
    | cons c r =>
      by_cases hst : c!"{:*" <+: c :: r
      · obtain ⟨x, hx⟩ := hst
        have hsp : stripPrefix? c!"{:*" (c :: r) = some x := by rw [← hx, stripPrefix?_append]
        have hsc := scanRC_start x pos
        rw [hx] at hsc
        have hskip : ∀ e n, pos < e → e ≤ pos + (c :: r).length → ∀ cur', scanRCs n cur' (pos + 1) (e - pos - 1) r =
            scanRCs n cur' e 0 (full.drop e) := by
          intro e n h1 h2 cur'
          have e1 : r = r.take (e - pos - 1) ++ r.drop (e - pos - 1) := (List.take_append_drop _ _).symm
          have e2 : (r.take (e - pos - 1)).length = e - pos - 1 := by
            rw [List.length_take]; simp only [List.length_cons] at h2; omega
          have e3 : r.drop (e - pos - 1) = full.drop e := by
            have : full.drop e = (full.drop pos).drop (e - pos) := by rw [List.drop_drop]; congr 1; omega
            rw [this, hd, show e - pos = (e - pos - 1) + 1 by omega]; rfl
          have := scanRCs_skip (r.take (e - pos - 1)) (r.drop (e - pos - 1)) n cur' (pos + 1)
          rw [e2, ← e1, e3] at this
          rw [this]; congr 1; omega
        simp only [scanRCs, hsp]
        cases hs : scanRC '*' 0 (pos + 3) (pos + 3) x with
        | closed n e =>
          rw [hs] at hsc
          obtain ⟨h0, j, h1, h2⟩ := hsc
          subst h0
          have hj := h2.2.1
          have hj3 := h2.1
          dsimp only
          rw [hskip e 0 (by omega) (by omega)]
          have hrec := ih (full.drop e) e e (by
            have : (full.drop e).length = (c :: r).length - j := by
              rw [← hd, List.length_drop, List.length_drop]; omega
            rw [this]; simp only [List.length_cons] at hk ⊢; omega) rfl (Nat.le_refl _)
          have hself : part full e e = [] := by simp [part]
          rw [hself] at hrec
          have hsplit : c :: r = (c :: r).take j ++ full.drop e := by
            have : full.drop e = (c :: r).drop j := by rw [← hd, List.drop_drop, h1]
            rw [this, List.take_append_drop]
          have hlen : ((c :: r).take j).length = j := by rw [List.length_take]; omega
          have hcom : Uncommented (part full cur pos) ((c :: r).take j ++ full.drop e) _ := .com (by
            refine ⟨x.take (j - 3), ?_⟩
            rw [← hx, List.take_append]
            have : c!"{:*".take j = c!"{:*" := List.take_of_length_le (by simp; omega)
            rw [this]; rfl) (by rw [← hsplit, hlen]; exact h2) hrec
          rw [← hsplit] at hcom
          simp only [Option.map_map, Function.comp_def] at hcom ⊢
          have hfun : (fun x : List (Nat × Nat) × Nat => gapsText full cur ((pos, e) :: x.1) ++ full.drop x.2) =
              (fun x => part full cur pos ++ (gapsText full e x.1 ++ full.drop x.2)) := by
            funext x
            simp only [gapsText, slice_eq_part, List.append_assoc]
          rw [hfun]; exact hcom
        | unclosed n e =>
          rw [hs] at hsc
          obtain ⟨h0, h1, h2, h3, h4⟩ := hsc
          have hxl : (c :: r).length = 3 + x.length := by rw [← hx]; simp; omega
          dsimp only
          rw [hskip e n (by omega) (by omega)]
          have hdr : full.drop e = afterColon x := by
            have : full.drop e = (c :: r).drop (e - pos) := by rw [← hd, List.drop_drop]; congr 1; omega
            rw [this, ← hx, ← h4, List.drop_append]
            have h5 : c!"{:*".drop (e - pos) = [] := List.drop_eq_nil_of_le (by simp; omega)
            rw [h5, List.nil_append]
            congr 1
          rw [hdr, scanRCs_noColon _ _ _ _ (afterColon_noColon x)]
          simp only [Option.map_some, gapsText, List.nil_append, hdr]
          rw [← hx] at h0 ⊢
          have := Uncommented.open_ (g := part full cur pos) h0
          rw [if_neg h1] at this
          exact this
        | panic =>
          rw [hs] at hsc
          obtain ⟨h0, h1⟩ := hsc
          dsimp only
          rw [← hx] at h0 ⊢
          have := Uncommented.open_ (g := part full cur pos) h0
          rw [if_pos h1] at this
          exact this
      · have hrec := ih r (pos + 1) cur (by simp only [List.length_cons] at hk; omega) (by rw [← List.drop_drop, hd]; rfl) (by omega)
        simp only [scanRCs]
        rw [stripPrefix?_eq_none.2 hst]
        refine .chr c hst ?_
        have : part full cur pos ++ [c] = part full cur (pos + 1) := by
          rw [← part_append full hle (Nat.le_succ pos)]
          congr 1
          exact (part_of_drop (a := [c]) (b := r) hd).symm
        rw [this]; exact hrec

theorem closes_unique {s : Str} {j k : Nat} (h1 : Closes s j) (h2 : Closes s k) : j = k := by
  rcases Nat.lt_trichotomy j k with h | h | h
  · exact absurd h1.2.2.1 (h2.2.2.2 j h1.1 h)
  · exact h
  · exact absurd h2.2.2.1 (h1.2.2.2 k h2.1 h)

theorem uncommented_unique {g s : Str} {r : Option Str} (h : Uncommented g s r) : ∀ r', Uncommented g s r' → r = r' := by
  induction h with
  | nil g =>
    intro r' h'
    generalize hs : ([] : Str) = s at h'
    cases h' with
    | nil => rfl
    | chr c => cases hs
    | com h1 => 
      obtain ⟨t, rfl⟩ := h1
      simp at hs
    | open_ => simp at hs
  | @chr g s r c h1 _ ih =>
    intro r' h'
    generalize hs : c :: s = s' at h'
    cases h' with
    | nil => cases hs
    | chr c' _ h2 =>
      injection hs with e1 e2
      subst e1; subst e2
      exact ih _ h2
    | com h2 =>
      obtain ⟨t, rfl⟩ := h2
      exact absurd ⟨_, by rw [hs, List.append_assoc]⟩ h1
    | open_ => exact absurd ⟨_, hs.symm⟩ h1
  | @com g q s r h1 h2 _ ih =>
    intro r' h'
    generalize hs : q ++ s = s' at h'
    cases h' with
    | nil =>
      obtain ⟨t, rfl⟩ := h1
      simp at hs
    | chr c' h3 _ =>
      obtain ⟨t, rfl⟩ := h1
      exact absurd ⟨_, by rw [← hs, List.append_assoc]⟩ h3
    | @com _ q' s2 r2 h3 h4 h5 =>
      have hl : q.length = q'.length := by
        rw [hs] at h2
        exact closes_unique h2 h4
      obtain ⟨e1, e2⟩ := List.append_inj hs hl
      subst e1; subst e2
      rw [ih _ h5]
    | open_ h3 =>
      rw [hs] at h2
      exact absurd h2 (h3 _)
  | @open_ g x h0 =>
    intro r' h'
    generalize hs : c!"{:*" ++ x = s' at h'
    cases h' with
    | nil => simp at hs
    | chr c' h3 _ => exact absurd ⟨_, hs⟩ h3
    | com h3 h4 _ => rw [hs] at h0; exact absurd h4 (h0 _)
    | open_ => 
      have := List.append_cancel_left hs
      subst this; rfl

/-- **C16, exactly**, for every text, well formed or not: `remove_comments` gives `r` (`none`: it panics) exactly when the
specification says so. -/
theorem C16_exact (s : Str) (r : Option Str) : removeComments s = r ↔ Uncommented [] s r := by
  have key : Uncommented [] s (removeComments s) := by
    have := scanRCs_exact s s.length s 0 0 (Nat.le_refl _) rfl (Nat.le_refl _)
    have hp : part s 0 0 = [] := rfl
    rw [hp] at this
    exact this
  constructor
  · rintro rfl; exact key
  · intro h; exact uncommented_unique key _ h

theorem suffix_cons_iff {c d : Char} {s : Str} (h : s ≠ []) : [d] <:+ c :: s ↔ [d] <:+ s := by
  constructor
  · rintro ⟨a, ha⟩
    cases a with
    | nil =>
      injection ha with _ ha
      exact absurd ha.symm h
    | cons x a =>
      injection ha with _ ha
      exact ⟨a, ha⟩
  · exact fun h => h.trans (List.suffix_cons _ _)

theorem suffix_append_iff {d : Char} {q s : Str} (h : s ≠ []) : [d] <:+ q ++ s ↔ [d] <:+ s := by
  induction q with
  | nil => rfl
  | cons c q ih => rw [List.cons_append, suffix_cons_iff (by simp [h]), ih]

theorem allClosed_nil_of {g s : Str} {r : Option Str} (h : Uncommented g s r) : s = [] → AllClosed s ∧ r ≠ none := by
  intro hs
  subst hs
  refine ⟨.nil, ?_⟩
  have := uncommented_unique h _ (.nil g)
  rw [this]; simp

theorem uncommented_none {g s : Str} {r : Option Str} (h : Uncommented g s r) : r = none ↔ c!":" <:+ s ∧ ¬ AllClosed s := by
  induction h with
  | nil g => exact ⟨fun h => by simp at h, fun h => absurd .nil h.2⟩
  | @chr g s r c h1 h2 ih =>
    have hc : AllClosed (c :: s) ↔ AllClosed s := by
      constructor
      · intro h
        generalize hs : c :: s = s' at h
        cases h with
        | nil => cases hs
        | chr c' _ h => injection hs with e1 e2; subst e2; exact h
        | com h3 =>
          obtain ⟨t, rfl⟩ := h3
          exact absurd ⟨_, by rw [hs, List.append_assoc]⟩ h1
      · exact .chr c h1
    rw [ih, hc]
    by_cases hs : s = []
    · have := (allClosed_nil_of h2 hs).1
      exact ⟨fun h => absurd this h.2, fun h => absurd this h.2⟩
    · rw [suffix_cons_iff hs]
  | @com g q s r h1 h2 h3 ih =>
    have hc : AllClosed (q ++ s) ↔ AllClosed s := by
      constructor
      · intro h
        generalize hs : q ++ s = s' at h
        cases h with
        | nil =>
          obtain ⟨t, rfl⟩ := h1
          simp at hs
        | chr c' h4 h =>
          obtain ⟨t, rfl⟩ := h1
          exact absurd ⟨_, by rw [← hs, List.append_assoc]⟩ h4
        | @com q' s2 h4 h5 h6 =>
          have hl : q.length = q'.length := by
            rw [hs] at h2
            exact closes_unique h2 h5
          obtain ⟨e1, e2⟩ := List.append_inj hs hl
          subst e2; exact h6
      · exact .com h1 h2
    rw [Option.map_eq_none_iff, ih, hc]
    by_cases hs : s = []
    · have := (allClosed_nil_of h3 hs).1
      exact ⟨fun h => absurd this h.2, fun h => absurd this h.2⟩
    · rw [suffix_append_iff hs]
  | @open_ g x h0 =>
    have hn : ¬ AllClosed (c!"{:*" ++ x) := by
      intro h
      generalize hs : c!"{:*" ++ x = s' at h
      cases h with
      | nil => simp at hs
      | chr c' h4 h => exact absurd ⟨_, hs⟩ h4
      | com h4 h5 => rw [hs] at h0; exact h0 _ h5
    by_cases hx : x = []
    · subst hx
      rw [if_neg (by simp)]
      constructor
      · intro h; simp at h
      · intro h
        exact absurd h.1 (by decide)
    · rw [suffix_append_iff hx]
      by_cases h : c!":" <:+ x
      · rw [if_pos h]; exact ⟨fun _ => ⟨h, hn⟩, fun _ => rfl⟩
      · rw [if_neg h]
        exact ⟨fun h => by simp at h, fun h' => absurd h'.1 h⟩

/-- **C16 (panics, exactly).** `remove_comments` panics exactly on the texts that end with `:` and have a comment that is
never closed. -/
theorem C16_panics_exact (s : Str) : removeComments s = none ↔ c!":" <:+ s ∧ ¬ AllClosed s :=
  uncommented_none ((C16_exact s _).1 rfl)

/-- `{:* a *:}` closes after 9 characters, `{:*:}` after 5 (the two delimiters share the `*`), `{:* {:* *:}` never. -/
example : Closes c!"{:* a *:} b" 9 ∧ Closes c!"{:*:} b" 5 ∧ ∀ k, ¬ Closes c!"{:* {:* *:}" k := by
  refine ⟨⟨by decide, by decide, by decide, ?_⟩, ⟨by decide, by decide, by decide, ?_⟩, ?_⟩
  · intro j h1 h2
    have h : ∀ j, j < 9 → 3 ≤ j → occ c!"{:*" (c!"{:* a *:} b".take j) ≠ occ c!"*:}" (c!"{:* a *:} b".take j) := by decide
    exact h j h2 h1
  · intro j h1 h2
    have h : ∀ j, j < 5 → 3 ≤ j → occ c!"{:*" (c!"{:*:} b".take j) ≠ occ c!"*:}" (c!"{:*:} b".take j) := by decide
    exact h j h2 h1
  · intro k hk
    have h : ∀ j, j < 12 → 3 ≤ j → occ c!"{:*" (c!"{:* {:* *:}".take j) ≠ occ c!"*:}" (c!"{:* {:* *:}".take j) := by decide
    exact h k (Nat.lt_succ_of_le hk.2.1) hk.1 hk.2.2.1

end Nts
