import Verif.Props.Blocks
import Verif.Lemmas.RunBif
/-
C16, C17, C18: comments and the parameter separator.
-/
set_option autoImplicit false
namespace Nts
open Spec

/-! ### C16 -/

theorem scanRC_chr {prev c : Char} {n cur pos : Nat} {t : Str} (hc : c ≠ ':') (ht : t ≠ []) :
    scanRC prev n cur pos (c :: t) = scanRC c n cur (pos + 1) t := by
  cases t with
  | nil => exact absurd rfl ht
  | cons d r => simp only [scanRC, hc, if_false]

theorem scanRC_cbal {k b : Str} (h : CBal k b) (hk : k = c!"*:}") : ∀ (prev : Char) (n cur pos : Nat) (rest : Str),
    PrevOk prev (b ++ c!"*:}") → ∃ prev' cur',
      scanRC prev n cur pos (b ++ c!"*:}" ++ rest) = scanRC prev' n cur' (pos + b.length) (c!"*:}" ++ rest) := by
  induction h with
  | nil k => intro prev n cur pos rest _; exact ⟨prev, cur, by simp⟩
  | @chr k s c h1 h2 hs ih =>
    subst hk
    intro prev n cur pos rest hp
    have hlen : pos + (c :: s).length = pos + 1 + s.length := by simp only [List.length_cons]; omega
    by_cases hc : c = ':'
    · subst hc
      obtain ⟨prev', cur', he⟩ := ih rfl ':' n (pos + 1) (pos + 1) rest (prevOk_chr h1 h2)
      refine ⟨prev', cur', ?_⟩
      rw [hlen, ← he]
      have hd : ∃ d r, s ++ c!"*:}" = d :: r := by
        cases s with
        | nil => exact ⟨'*', _, rfl⟩
        | cons d r => exact ⟨d, _, rfl⟩
      obtain ⟨d, r, hdr⟩ := hd
      obtain ⟨g1, g2⟩ := colon_skip hp hdr
      simp only [List.cons_append]
      rw [hdr]
      simp only [List.cons_append, scanRC, g1, g2, if_false, if_true]
    · obtain ⟨prev', cur', he⟩ := ih rfl c n cur (pos + 1) rest (prevOk_chr h1 h2)
      refine ⟨prev', cur', ?_⟩
      rw [hlen, ← he]
      simp only [List.cons_append]
      rw [scanRC_chr hc (by simp)]
  | @com k b s hb hcl hs ihb ihs =>
    subst hk
    intro prev n cur pos rest _
    obtain ⟨p1, c1, e1⟩ := ihb rfl '*' (n + 1) (pos + 2) (pos + 3) (s ++ c!"*:}" ++ rest)
      ⟨fun h => absurd h (by decide), fun _ => hcl⟩
    obtain ⟨p2, c2, e2⟩ := ihs rfl '}' n (pos + b.length + 5) (pos + b.length + 6) rest
      (prevOk_other (by decide) (by decide))
    refine ⟨p2, c2, ?_⟩
    have hl : pos + (c!"{:*" ++ b ++ c!"*:}" ++ s).length = pos + b.length + 6 + s.length := by
      simp only [List.length_append, List.length_cons, List.length_nil]; omega
    rw [hl, ← e2]
    have hsrc : c!"{:*" ++ b ++ c!"*:}" ++ s ++ c!"*:}" ++ rest =
        '{' :: ':' :: '*' :: (b ++ c!"*:}" ++ (s ++ c!"*:}" ++ rest)) := by simp
    rw [hsrc, scanRC_chr (by decide) (by simp)]
    have step1 : scanRC '{' n cur (pos + 1) (':' :: '*' :: (b ++ c!"*:}" ++ (s ++ c!"*:}" ++ rest))) =
        scanRC ':' (n + 1) (pos + 2) (pos + 2) ('*' :: (b ++ c!"*:}" ++ (s ++ c!"*:}" ++ rest))) := by
      simp [scanRC]
    rw [step1, scanRC_chr (by decide) (by simp), e1]
    have hx : c!"*:}" ++ (s ++ c!"*:}" ++ rest) = '*' :: ':' :: '}' :: (s ++ c!"*:}" ++ rest) := rfl
    rw [hx, scanRC_chr (by decide) (by simp)]
    have step2 : scanRC '*' (n + 1) c1 (pos + 3 + b.length + 1) (':' :: '}' :: (s ++ c!"*:}" ++ rest)) =
        scanRC ':' n (pos + 3 + b.length + 2) (pos + 3 + b.length + 2) ('}' :: (s ++ c!"*:}" ++ rest)) := by
      simp [scanRC]
    rw [step2, scanRC_chr (by decide) (by simp)]
    congr 1 <;> omega

theorem scanRC_comment {b rest : Str} (h : IsComment b) (pos cur : Nat) :
    ∃ body, b ++ rest = c!"{:*" ++ body ∧ scanRC '*' 0 cur (pos + 3) body = .closed 0 (pos + b.length) := by
  obtain ⟨x, rfl, hx, hcl⟩ := h
  refine ⟨x ++ c!"*:}" ++ rest, by simp, ?_⟩
  obtain ⟨p', c', e⟩ := scanRC_cbal hx rfl '*' 0 cur (pos + 3) rest ⟨fun h => absurd h (by decide), fun _ => hcl⟩
  rw [e]
  have hy : c!"*:}" ++ rest = '*' :: ':' :: '}' :: rest := rfl
  rw [hy, scanRC_chr (by decide) (by simp)]
  simp [scanRC]
  omega

theorem scanRCs_skip (a s : Str) : ∀ n cur pos,
    scanRCs n cur pos a.length (a ++ s) = scanRCs n cur (pos + a.length) 0 s := by
  induction a with
  | nil => intro n cur pos; rfl
  | cons c a ih =>
    intro n cur pos
    simp only [List.length_cons, List.cons_append, scanRCs]
    rw [ih]
    congr 1
    omega

theorem scanRCs_comment {b s : Str} (h : IsComment b) (cur pos : Nat) :
    scanRCs 0 cur pos 0 (b ++ s) =
      (scanRCs 0 (pos + b.length) (pos + b.length) 0 s).map (fun x => ((pos, pos + b.length) :: x.1, x.2)) := by
  obtain ⟨body, h1, h2⟩ := scanRC_comment (rest := s) h pos (pos + 3)
  have hl := block_length (.inr h)
  cases b with
  | nil => simp at hl
  | cons c b =>
    simp only [List.cons_append, scanRCs]
    rw [List.cons_append] at h1
    rw [h1, stripPrefix?_append]
    simp only [h2]
    have : pos + (c :: b).length - pos - 1 = b.length := by simp only [List.length_cons]; omega
    rw [this, scanRCs_skip]
    simp only [List.length_cons]
    congr 2
    omega

theorem stripped_scan {s t : Str} (h : Stripped s t) (full : Str) : ∀ cur pos, full.drop pos = s → cur ≤ pos →
    ∃ l e, scanRCs 0 cur pos 0 s = some (l, e) ∧ gapsText full cur l ++ full.drop e = part full cur pos ++ t := by
  induction h with
  | nil =>
    intro cur pos hd hle
    refine ⟨[], cur, rfl, ?_⟩
    simp only [gapsText, List.nil_append, List.append_nil, part]
    rw [List.take_of_length_le (List.drop_eq_nil_iff.1 hd)]
  | @chr s t c h1 _ ih =>
    intro cur pos hd hle
    obtain ⟨l, e, e1, e2⟩ := ih cur (pos + 1) (by rw [← List.drop_drop, hd]; rfl) (by omega)
    refine ⟨l, e, ?_, ?_⟩
    · simp only [scanRCs]
      rw [stripPrefix?_eq_none.2 h1]
      exact e1
    · rw [e2, ← part_append full hle (Nat.le_succ pos)]
      have : part full pos (pos + 1) = [c] := part_of_drop (a := [c]) (b := s) hd
      rw [this]; simp
  | @com b s t hb _ ih =>
    intro cur pos hd hle
    obtain ⟨l, e, e1, e2⟩ := ih (pos + b.length) (pos + b.length) (by rw [← List.drop_drop, hd, List.drop_left]) (by omega)
    refine ⟨(pos, pos + b.length) :: l, e, ?_, ?_⟩
    · rw [scanRCs_comment hb, e1]; rfl
    · simp only [gapsText, slice_eq_part]
      rw [List.append_assoc, e2]
      simp [part]

/-- **C16 (comments go).** When every `{:*` of the source starts a comment (comments may be nested in comments to any
depth), `remove_comments` deletes exactly the comments. -/
theorem C16_removes (s t : Str) (h : Stripped s t) : removeComments s = some t := by
  obtain ⟨l, e, e1, e2⟩ := stripped_scan h s 0 0 rfl (Nat.le_refl 0)
  unfold removeComments
  rw [e1]
  simp only [Option.map_some, Option.some.injEq]
  rw [e2]; simp [part]

/-- **C16 (nothing else).** A source without `{:*` is unchanged. -/
theorem C16_unchanged (s : Str) (h : ¬ c!"{:*" <:+: s) : removeComments s = some s := by
  apply C16_removes
  induction s with
  | nil => exact .nil
  | cons c s ih =>
    rw [List.infix_cons_iff] at h
    exact .chr c (fun h' => h (.inl h')) (ih (fun h' => h (.inr h')))

/-- The premise is met by a text with a comment inside a comment and a BIF. -/
example : Stripped c!"a{:* x {:* y *:} :} *:}{:;b:}" c!"a{:;b:}" := by
  refine .chr _ (by decide) (.com (b := c!"{:* x {:* y *:} :} *:}")
    ⟨c!" x {:* y *:} :} ", rfl, ?_, by decide⟩ ?_)
  · refine .chr _ (by decide) (by decide) (.chr _ (by decide) (by decide) (.chr _ (by decide) (by decide) ?_))
    refine .com (b := c!" y ") ?_ (by decide) ?_
    · exact .chr _ (by decide) (by decide) (.chr _ (by decide) (by decide) (.chr _ (by decide) (by decide) (.nil _)))
    · exact .chr _ (by decide) (by decide) (.chr _ (by decide) (by decide) (.chr _ (by decide) (by decide)
        (.chr _ (by decide) (by decide) (.nil _))))
  · exact .chr _ (by decide) (.chr _ (by decide) (.chr _ (by decide) (.chr _ (by decide) (.chr _ (by decide)
      (.chr _ (by decide) .nil)))))

theorem scanRC_panic {s : Str} : ∀ {prev : Char} {n cur pos : Nat}, scanRC prev n cur pos s = .panic →
    c!":" <:+ s := by
  induction s with
  | nil => intro prev n cur pos h; simp [scanRC] at h
  | cons c t ih =>
    intro prev n cur pos h
    cases t with
    | nil =>
      simp only [scanRC] at h
      split at h
      · next hc => subst hc; exact List.suffix_refl _
      · simp at h
    | cons d r =>
      have lift : ∀ {prev n cur}, scanRC prev n cur (pos + 1) (d :: r) = .panic → c!":" <:+ c :: d :: r := by
        intro prev n cur h
        exact (ih h).trans (List.suffix_cons c _)
      simp only [scanRC] at h
      split at h
      · split at h
        · exact lift h
        · split at h
          · split at h
            · exact lift h
            · simp at h
          · exact lift h
      · exact lift h

theorem scanRCs_panic {s : Str} : ∀ {n cur pos skip : Nat}, scanRCs n cur pos skip s = none →
    c!":" <:+ s ∧ (skip = 0 → c!"{:*" <:+: s) := by
  induction s with
  | nil => intro n cur pos skip h; simp [scanRCs] at h
  | cons c r ih =>
    intro n cur pos skip h
    cases skip with
    | succ k =>
      simp only [scanRCs] at h
      exact ⟨(ih h).1.trans (List.suffix_cons c _), by omega⟩
    | zero =>
      simp only [scanRCs] at h
      split at h
      · exact ⟨(ih h).1.trans (List.suffix_cons c _), fun _ => List.infix_cons ((ih h).2 rfl)⟩
      · next body hb =>
        have hb' := stripPrefix?_eq_some.1 hb
        have hin : c!"{:*" <:+: c :: r := ⟨[], body, by rw [hb']; rfl⟩
        refine ⟨?_, fun _ => hin⟩
        split at h
        · next hp =>
          have := scanRC_panic hp
          rw [hb']
          exact this.trans (List.suffix_append _ _)
        · rw [Option.map_eq_none_iff] at h
          exact (ih h).1.trans (List.suffix_cons c _)
        · exact (ih h).1.trans (List.suffix_cons c _)

/-- **C16 (panics), partial.** "It never panics" does not hold (next theorem); it can only panic on a source that contains
`{:*` and ends with `:`. -/
theorem C16_no_panic_partial (s : Str) (h : ¬ (c!":" <:+ s ∧ c!"{:*" <:+: s)) : ∃ t, removeComments s = some t := by
  cases hr : removeComments s with
  | some t => exact ⟨t, rfl⟩
  | none =>
    unfold removeComments at hr
    rw [Option.map_eq_none_iff] at hr
    exact absurd ⟨(scanRCs_panic hr).1, (scanRCs_panic hr).2 rfl⟩ h

/-- The premise is met by an unclosed comment that does not end with `:`. -/
example : ¬ (c!":" <:+ c!"{:* abc: " ∧ c!"{:*" <:+: c!"{:* abc: ") := by decide

/-- **C16 (refuted for unclosed comments).** A source ending in the middle of a comment just after a `:` makes
`remove_comments` panic, whatever the comment says. -/
theorem C16_panics (x : Str) (h : ':' ∉ x) : removeComments (c!"{:*" ++ x ++ c!":") = none := by
  have key : ∀ (x : Str) (prev : Char) (cur pos : Nat), ':' ∉ x → scanRC prev 0 cur pos (x ++ c!":") = .panic := by
    intro x
    induction x with
    | nil => intro prev cur pos _; rfl
    | cons c x ih =>
      intro prev cur pos h
      have hc : c ≠ ':' := fun e => h (by rw [e]; exact List.mem_cons_self)
      rw [List.cons_append, scanRC_chr hc (by simp)]
      exact ih _ _ _ (fun e => h (List.mem_cons_of_mem _ e))
  unfold removeComments
  rw [Option.map_eq_none_iff]
  show scanRCs 0 0 0 0 ('{' :: ':' :: '*' :: (x ++ c!":")) = none
  have hp : stripPrefix? c!"{:*" ('{' :: ':' :: '*' :: (x ++ c!":")) = some (x ++ c!":") := stripPrefix?_append _ _
  simp only [scanRCs, hp]
  rw [key x _ _ _ h]

/-- **C16 (refuted for unclosed comments).** Text before an unclosed comment is lost. -/
theorem C16_loses_text : removeComments c!"abc {:* def" = some c!" def" := by rfl

/-- **C16 (refuted).** Removing comments can make new ones: the result is not stable. -/
theorem C16_not_idempotent :
    removeComments c!"{:{:* a *:}* q {:;x:}*:}" = some c!"{:* q {:;x:}*:}" ∧
    removeComments c!"{:* q {:;x:}*:}" = some [] := ⟨by rfl, by rfl⟩

/-- **C16 (refuted).** The scanners disagree: for `extract_blocks` the source is one BIF, but `remove_comments` takes
part of it as a comment and leaves it unclosed. -/
theorem C16_disagrees :
    extractBlocks c!"{:code; {:* a :} *:}" = .ok [(0, 20)] ∧
    removeComments c!"{:code; {:* a :} *:}" = some c!"{:code; " := ⟨by rfl, by rfl⟩

/-! ### C17 -/

/-- **C17 (alone).** Evaluating a comment, whatever is in it, gives no output and changes nothing: no BIF is counted, no
error is recorded, no variable changes. -/
theorem C17_inert (env : Env) (n : Nat) (sh : Shared) (inh : Inherit) (only c : Str) (h : IsComment c)
    (hexit : sh.exit = false) : parseSrc (runBlocks env (n + 1)) sh inh c only = .ok [] sh inh := by
  have hw : WellFormed 0 c [(0, 0 + c.length)] := by
    have := WellFormed.block (p := 0) (b := c) (s := []) (l := []) (.inr h) (.nil _)
    simpa using this
  unfold parseSrc
  rw [C15_complete c _ hw]
  simp only [runBlocks, blocksGo, hexit]
  have hs : slice c 0 (0 + c.length) = c := by simp [slice]
  have hc : startsWith c!"{:*" c = true := by
    obtain ⟨x, rfl, _⟩ := h
    exact startsWith_iff.2 ⟨x ++ c!"*:}", by simp⟩
  rw [hs, hc]
  simp [trim, trimEnd, trimStart]

theorem wellFormed_append {p : Nat} {a : Str} {la : List (Nat × Nat)} (h : WellFormed p a la) {b : Str}
    {lb : List (Nat × Nat)} (hb : WellFormed (p + a.length) b lb) (h1 : ¬ c!":" <+: b) (h2 : ¬ c!"}" <+: b) :
    WellFormed p (a ++ b) (la ++ lb) := by
  induction h with
  | nil p => simpa using hb
  | @chr p s l c g1 g2 _ ih =>
    refine .chr c ?_ ?_ (ih (by
      rw [List.length_cons] at hb
      have e : p + 1 + s.length = p + (s.length + 1) := by omega
      rw [e]; exact hb))
    · intro hx
      cases s with
      | nil =>
        obtain ⟨r, hr⟩ := hx
        injection hr with hr1 hr2
        exact h1 ⟨r, hr2⟩
      | cons d s =>
        obtain ⟨r, hr⟩ := hx
        injection hr with hr1 hr2
        injection hr2 with hr3 hr4
        exact g1 ⟨s, by rw [← hr1, ← hr3]; rfl⟩
    · intro hx
      cases s with
      | nil =>
        obtain ⟨r, hr⟩ := hx
        injection hr with hr1 hr2
        exact h2 ⟨r, hr2⟩
      | cons d s =>
        obtain ⟨r, hr⟩ := hx
        injection hr with hr1 hr2
        injection hr2 with hr3 hr4
        exact g2 ⟨s, by rw [← hr1, ← hr3]; rfl⟩
  | @block p x s l hx _ ih =>
    rw [List.append_assoc]
    exact .block hx (ih (by simpa [Nat.add_assoc] using hb))

/-- Blocks moved `k` characters to the right. -/
def shiftBlocks (k : Nat) (l : List (Nat × Nat)) : List (Nat × Nat) := l.map (fun b => (b.1 + k, b.2 + k))

theorem wellFormed_shift {p : Nat} {a : Str} {la : List (Nat × Nat)} (h : WellFormed p a la) (k : Nat) :
    WellFormed (p + k) a (shiftBlocks k la) := by
  induction h with
  | nil p => exact .nil _
  | @chr p s l c g1 g2 _ ih =>
    refine .chr c g1 g2 ?_
    rw [Nat.add_right_comm]; exact ih
  | @block p x s l hx _ ih =>
    have := WellFormed.block (p := p + k) hx (s := s) (l := shiftBlocks k l) (by rw [Nat.add_right_comm]; exact ih)
    rw [Nat.add_right_comm] at this
    exact this

theorem wellFormed_bounds {p : Nat} {a : Str} {la : List (Nat × Nat)} (h : WellFormed p a la) :
    ∀ b ∈ la, p ≤ b.1 ∧ b.1 ≤ b.2 ∧ b.2 ≤ p + a.length := by
  induction h with
  | nil p => intro b hb; simp at hb
  | chr c _ _ _ ih => intro b hb; have := ih b hb; simp only [List.length_cons]; omega
  | block hx _ ih =>
    intro b hb
    simp only [List.length_append]
    rcases List.mem_cons.1 hb with rfl | hb
    · simp only; omega
    · have := ih b hb; omega

/-- Two results with the same state, and the same output unless the evaluation was ended by `exit`. -/
def Spec.SameUnlessExit : PRes → PRes → Prop
  | .ok o sh inh, .ok o' sh' inh' => sh = sh' ∧ inh = inh' ∧ (sh.exit = false → o = o')
  | .panic p, .panic p' => p = p'
  | .oof, .oof => True
  | _, _ => False

theorem sameUnlessExit_refl (r : PRes) : SameUnlessExit r r := by
  cases r <;> simp [SameUnlessExit]

theorem slice_shift {s1 s2 : Str} {p q : Nat} (h : s1.drop p = s2.drop q) {a b : Nat} :
    slice s1 (p + a) (p + b) = slice s2 (q + a) (q + b) := by
  unfold slice
  rw [← List.drop_drop, ← List.drop_drop, h]
  congr 1
  omega

theorem blocksGo_shift (env : Env) (R : Rec) (only : Str) {s1 s2 : Str} {q k : Nat} (h : s1.drop (q + k) = s2.drop q)
    (l : List (Nat × Nat)) : (∀ b ∈ l, q ≤ b.1 ∧ b.1 ≤ b.2) → ∀ e out sh inh, q ≤ e →
    blocksGo env R s1 only (e + k) out (shiftBlocks k l) sh inh = blocksGo env R s2 only e out l sh inh := by
  induction l with
  | nil =>
    intro _ e out sh inh he
    simp only [shiftBlocks, List.map_nil, blocksGo]
    have : s1.drop (e + k) = s2.drop e := by
      have hx : e + k = q + k + (e - q) := by omega
      have hy : e = q + (e - q) := by omega
      rw [hx, ← List.drop_drop, h, List.drop_drop, ← hy]
    rw [this]
  | cons b r ih =>
    intro hb e out sh inh he
    obtain ⟨s, t⟩ := b
    have h1 := hb (s, t) (by simp)
    simp only at h1
    have hsl : ∀ x y, q ≤ x → x ≤ y → slice s1 (x + k) (y + k) = slice s2 x y := by
      intro x y hx hy
      have := slice_shift (s1 := s1) (s2 := s2) (p := q + k) (q := q) h (a := x - q) (b := y - q)
      have e1 : q + k + (x - q) = x + k := by omega
      have e2 : q + k + (y - q) = y + k := by omega
      have e3 : q + (x - q) = x := by omega
      have e4 : q + (y - q) = y := by omega
      rw [e1, e2, e3, e4] at this
      exact this
    simp only [shiftBlocks, List.map_cons, blocksGo]
    rw [hsl s t h1.1 h1.2]
    have hgap : (if e + k < s + k then out ++ slice s1 (e + k) (s + k) else out) =
        (if e < s then out ++ slice s2 e s else out) := by
      by_cases hes : e < s
      · rw [if_pos hes, if_pos (by omega), hsl e s he (by omega)]
      · rw [if_neg hes, if_neg (by omega)]
    rw [hgap]
    have ih' := ih (fun b hb' => hb b (List.mem_cons_of_mem _ hb'))
    split
    · rfl
    · split
      · exact ih' t _ sh inh (by omega)
      · split
        · exact ih' t _ _ _ (by omega)
        · rfl
        · rfl

theorem slice_append_left {a b : Str} {x y : Nat} (h : y ≤ a.length) : slice (a ++ b) x y = slice a x y := by
  rw [slice_eq_part, slice_eq_part]
  unfold part
  rw [List.take_append_of_le_length h]

theorem blocksGo_comment (env : Env) (R : Rec) (only : Str) {a b c : Str} (hc : IsComment c) {lb : List (Nat × Nat)}
    (hlb : ∀ x ∈ lb, a.length ≤ x.1 ∧ x.1 ≤ x.2) (la : List (Nat × Nat)) :
    (∀ x ∈ la, x.1 ≤ x.2 ∧ x.2 ≤ a.length) → ∀ e out sh inh, e ≤ a.length → SameUnlessExit
    (blocksGo env R (a ++ c ++ b) only e out (la ++ (a.length, a.length + c.length) :: shiftBlocks c.length lb) sh inh)
    (blocksGo env R (a ++ b) only e out (la ++ lb) sh inh) := by
  induction la with
  | nil =>
    intro _ e out sh inh he
    have hsc : slice (a ++ c ++ b) a.length (a.length + c.length) = c := by
      simp [slice]
    have hst : startsWith c!"{:*" c = true := by
      obtain ⟨x, rfl, _⟩ := hc
      exact startsWith_iff.2 ⟨x ++ c!"*:}", by simp⟩
    have hgap : (if e < a.length then out ++ slice (a ++ c ++ b) e a.length else out) = out ++ a.drop e := by
      by_cases hea : e < a.length
      · rw [if_pos hea, List.append_assoc a c b, slice_append_left (Nat.le_refl _), slice_eq_part, part_to_length]
      · rw [if_neg hea, List.drop_of_length_le (by omega), List.append_nil]
    have hdrop : (a ++ c ++ b).drop (a.length + c.length) = (a ++ b).drop a.length := by
      rw [← List.length_append, List.drop_left, List.drop_left]
    simp only [List.nil_append, blocksGo, hsc, hst, Bool.true_or, if_true]
    rw [hgap]
    cases lb with
    | nil =>
      simp only [shiftBlocks, List.map_nil, blocksGo]
      have : (a ++ b).drop e = a.drop e ++ (a ++ b).drop a.length := by
        rw [List.drop_left, List.drop_append_of_le_length he]
      rw [hdrop, this, List.append_assoc]
      split
      · next hx => simp [SameUnlessExit, hx]
      · exact sameUnlessExit_refl _
    | cons x r =>
      obtain ⟨s, t⟩ := x
      have h1 := hlb (s, t) (by simp)
      simp only at h1
      rw [blocksGo_shift env R only hdrop _ hlb a.length _ sh inh (Nat.le_refl _)]
      have hg2 : (if a.length < s then out ++ a.drop e ++ slice (a ++ b) a.length s else out ++ a.drop e) =
          (if e < s then out ++ slice (a ++ b) e s else out) := by
        have key : out ++ slice (a ++ b) e s = out ++ a.drop e ++ slice (a ++ b) a.length s := by
          rw [List.append_assoc]
          congr 1
          rw [slice_eq_part, slice_eq_part, ← part_append (a ++ b) he h1.1]
          congr 1
          rw [← slice_eq_part, slice_append_left (Nat.le_refl _), slice_eq_part, part_to_length]
        by_cases h2 : a.length < s
        · rw [if_pos h2, if_pos (by omega), key]
        · have hs : s = a.length := by omega
          rw [if_neg h2]
          by_cases h3 : e < s
          · rw [if_pos h3, key, hs]
            simp [slice]
          · rw [if_neg h3, List.drop_of_length_le (by omega), List.append_nil]
      simp only [blocksGo]
      rw [hg2]
      by_cases hx : sh.exit
      · simp only [hx, if_true]
        exact ⟨rfl, rfl, by simp [hx]⟩
      · simp only [hx]
        exact sameUnlessExit_refl _
  | cons x r ih =>
    intro hla e out sh inh he
    obtain ⟨s, t⟩ := x
    have h1 := hla (s, t) (by simp)
    simp only at h1
    have ih' := ih (fun b hb' => hla b (List.mem_cons_of_mem _ hb'))
    have hsl : ∀ p q, q ≤ a.length → slice (a ++ c ++ b) p q = slice (a ++ b) p q := by
      intro p q hq
      rw [List.append_assoc, slice_append_left hq, slice_append_left hq]
    simp only [List.cons_append, blocksGo]
    rw [hsl s t h1.2, hsl e s (by omega)]
    split
    · exact sameUnlessExit_refl _
    · split
      · exact ih' t _ sh inh h1.2
      · split
        · exact ih' t _ _ _ h1.2
        · rfl
        · trivial

/-- **C17 (in context).** Putting a comment, whatever is in it, anywhere between the blocks of a well-formed template
changes nothing: the evaluation ends with the same state (BIF count, errors, data, status, ...) and the same output. (If
the evaluation was ended by `exit`, the state is the same but the text after the last block is not printed.) -/
theorem C17_context (env : Env) (n : Nat) (sh : Shared) (inh : Inherit) (only a b c : Str) (la lb : List (Nat × Nat))
    (ha : WellFormed 0 a la) (hb : WellFormed a.length b lb) (hab : WellFormed 0 (a ++ b) (la ++ lb))
    (hc : IsComment c) :
    SameUnlessExit (parseSrc (runBlocks env n) sh inh (a ++ c ++ b) only)
      (parseSrc (runBlocks env n) sh inh (a ++ b) only) := by
  have hcb : WellFormed (0 + a.length) (c ++ b) ((a.length, a.length + c.length) :: shiftBlocks c.length lb) := by
    rw [Nat.zero_add]
    exact .block (.inr hc) (wellFormed_shift hb c.length)
  have hc0 := hc
  obtain ⟨x, hx, _⟩ := hc0
  have hall : WellFormed 0 (a ++ (c ++ b)) (la ++ (a.length, a.length + c.length) :: shiftBlocks c.length lb) := by
    apply wellFormed_append ha hcb
    · rw [hx]; simp
    · rw [hx]; simp
  rw [← List.append_assoc] at hall
  unfold parseSrc
  rw [C15_complete _ _ hall, C15_complete _ _ hab]
  cases n with
  | zero => trivial
  | succ n =>
    simp only [runBlocks]
    refine blocksGo_comment env _ only hc (fun x hx => ?_) la (fun x hx => ?_) 0 [] sh inh (Nat.zero_le _)
    · have := wellFormed_bounds hb x hx; omega
    · have := wellFormed_bounds ha x hx; omega

/-- The premises are met, with BIFs inside the comment. -/
example : IsComment c!"{:* {:exit;404:} *:}" ∧ WellFormed 0 c!"a " [] ∧ WellFormed 2 c!"b" [] ∧
    WellFormed 0 (c!"a " ++ c!"b") ([] ++ []) := by
  refine ⟨⟨c!" {:exit;404:} ", rfl, ?_, by decide⟩, ?_, ?_, ?_⟩
  · repeat first | exact .nil _ | refine .chr _ (by decide) (by decide) ?_
  all_goals repeat first | exact .nil _ | refine .chr _ (by decide) (by decide) ?_

/-! ### C18 -/

theorem codePosGo_skip (L : Int) (pos : Nat) (d : Char) (r : Str) :
    codePosGo L pos true (d :: r) = codePosGo L (pos + 1) false r := by
  cases r <;> simp [codePosGo]

theorem codePosGo_bal {k b : Str} (h : Bal k b) (hk : k = c!":}") : ∀ (L : Int) (pos : Nat) (rest : Str), 1 ≤ L →
    codePosGo L pos false (b ++ c!":}" ++ rest) = codePosGo L (pos + b.length) false (c!":}" ++ rest) ∧
    (c!">" <+: b →
      codePosGo L pos true (b ++ c!":}" ++ rest) = codePosGo L (pos + b.length) false (c!":}" ++ rest)) := by
  induction h with
  | nil k => intro L pos rest _; exact ⟨by simp, by simp⟩
  | @chr k s c h1 h2 hs ih =>
    subst hk
    intro L pos rest hL
    have ih1 := ih rfl L (pos + 1) rest hL
    have hlen : pos + (c :: s).length = pos + 1 + s.length := by simp only [List.length_cons]; omega
    refine ⟨?_, fun _ => ?_⟩
    · rw [hlen]
      have hne : ∃ d r, s ++ c!":}" = d :: r := by
        cases s with
        | nil => exact ⟨':', _, rfl⟩
        | cons d r => exact ⟨d, _, rfl⟩
      obtain ⟨d, r, hdr⟩ := hne
      have hsrc : c :: s ++ c!":}" ++ rest = c :: d :: (r ++ rest) := by
        show c :: (s ++ c!":}") ++ rest = _
        rw [hdr]; rfl
      have hsrc2 : s ++ c!":}" ++ rest = d :: (r ++ rest) := by rw [hdr]; rfl
      have g1 : ¬ (c = '{' ∧ d = ':') := by
        rintro ⟨rfl, rfl⟩
        exact h1 ⟨r, by show _ = '{' :: (s ++ c!":}"); rw [hdr]; rfl⟩
      have g2 : ¬ (c = ':' ∧ d = '}') := by
        rintro ⟨rfl, rfl⟩
        exact h2 ⟨r, by show _ = ':' :: (s ++ c!":}"); rw [hdr]; rfl⟩
      rw [hsrc]
      simp only [codePosGo, g1, g2, if_false]
      by_cases g3 : c = '>' ∧ d = '>'
      · have hL0 : L ≠ 0 := by omega
        simp only [g3, hL0, if_true, if_false, and_self]
        obtain ⟨_, rfl⟩ := g3
        have hpre : c!">" <+: s := by
          cases s with
          | nil => simp at hdr
          | cons x s =>
            simp only [List.cons_append, List.cons.injEq] at hdr
            rw [hdr.1]; simp
        have := ih1.2 hpre
        rw [hsrc2] at this
        exact this
      · simp only [g3, if_false]
        have := ih1.1
        rw [hsrc2] at this
        exact this
    · rw [hlen]
      show codePosGo L pos true (c :: (s ++ c!":}" ++ rest)) = _
      rw [codePosGo_skip]
      exact ih1.1
  | @nest k b s hb hs ihb ihs =>
    subst hk
    intro L pos rest hL
    refine ⟨?_, by intro h; simp at h⟩
    have hl : pos + (c!"{:" ++ b ++ c!":}" ++ s).length = pos + b.length + 4 + s.length := by
      simp only [List.length_append, List.length_cons, List.length_nil]; omega
    have hsrc : c!"{:" ++ b ++ c!":}" ++ s ++ c!":}" ++ rest = '{' :: ':' :: (b ++ c!":}" ++ (s ++ c!":}" ++ rest)) := by
      simp
    rw [hl, hsrc]
    simp only [codePosGo, and_self, if_true, Bool.false_eq_true, if_false]
    rw [codePosGo_skip, (ihb rfl (L + 1) (pos + 1 + 1) (s ++ c!":}" ++ rest) (by omega)).1]
    have hx : c!":}" ++ (s ++ c!":}" ++ rest) = ':' :: '}' :: (s ++ c!":}" ++ rest) := rfl
    have e1 : ¬ ((':' : Char) = '{' ∧ ('}' : Char) = ':') := by decide
    rw [hx]
    simp only [codePosGo, e1, and_self, if_true, if_false, Bool.false_eq_true]
    rw [codePosGo_skip]
    have e2 : L + 1 - 1 = L := by omega
    have e3 : pos + b.length + 4 + s.length = pos + 1 + 1 + b.length + 1 + 1 + s.length := by omega
    rw [e2, (ihs rfl L _ rest hL).1, e3]

theorem codePosGo_noSep {k s : Str} (h : NoSep k s) (hk : ¬ c!":" <+: k ∧ ¬ c!"}" <+: k) : ∀ (pos : Nat),
    codePosGo 0 pos false (s ++ k) = codePosGo 0 (pos + s.length) false k := by
  induction h with
  | nil => intro pos; simp
  | @chr s c h1 h2 h3 hs ih =>
    intro pos
    have hlen : pos + (c :: s).length = pos + 1 + s.length := by simp only [List.length_cons]; omega
    rw [hlen, ← ih (pos + 1)]
    rw [List.cons_append] at h1 h2 h3 ⊢
    revert h1 h2 h3
    cases s ++ k with
    | nil => intro _ _ _; rfl
    | cons d r =>
      intro h1 h2 h3
      have g1 : ¬ (c = '{' ∧ d = ':') := by rintro ⟨rfl, rfl⟩; exact h1 (by simp)
      have g2 : ¬ (c = ':' ∧ d = '}') := by rintro ⟨rfl, rfl⟩; exact h2 (by simp)
      have g3 : ¬ (c = '>' ∧ d = '>') := by rintro ⟨rfl, rfl⟩; exact h3 (by simp)
      simp only [codePosGo, g1, g2, g3, if_false, Bool.false_eq_true]
  | @nest b s hb hs ih =>
    intro pos
    have hl : pos + (c!"{:" ++ b ++ c!":}" ++ s).length = pos + b.length + 4 + s.length := by
      simp only [List.length_append, List.length_cons, List.length_nil]; omega
    have hsrc : c!"{:" ++ b ++ c!":}" ++ s ++ k = '{' :: ':' :: (b ++ c!":}" ++ (s ++ k)) := by simp
    rw [hl, ← ih, hsrc]
    simp only [codePosGo, and_self, if_true, Bool.false_eq_true, if_false]
    rw [codePosGo_skip, (codePosGo_bal hb rfl (0 + 1) (pos + 1 + 1) (s ++ k) (by omega)).1]
    have hx : c!":}" ++ (s ++ k) = ':' :: '}' :: (s ++ k) := rfl
    have e1 : ¬ ((':' : Char) = '{' ∧ ('}' : Char) = ':') := by decide
    rw [hx]
    simp only [codePosGo, e1, and_self, if_true, if_false, Bool.false_eq_true]
    rw [codePosGo_skip]
    have e2 : (0 : Int) + 1 - 1 = 0 := by omega
    have e3 : pos + b.length + 4 = pos + 1 + 1 + b.length + 1 + 1 := by omega
    rw [e2, e3]

/-- **C18 (found).** When `a` has no `>>` outside its nested BIFs, the separator of `a >> rest` is the `>>` right after
`a`, whatever follows and however many `>>` there are in the nested BIFs. -/
theorem C18_first (a rest : Str) (h : NoSep (c!">>" ++ rest) a) :
    getCodePosition (a ++ c!">>" ++ rest) = some a.length := by
  unfold getCodePosition
  have hc : contains c!">>" (a ++ c!">>" ++ rest) = true := (contains_iff (by decide)).2 ⟨a, rest, rfl⟩
  rw [hc, List.append_assoc]
  simp only [Bool.not_true, Bool.false_eq_true, if_false]
  rw [codePosGo_noSep h ⟨by simp, by simp⟩]
  have e1 : ¬ (('>' : Char) = '{' ∧ ('>' : Char) = ':') := by decide
  have e2 : ¬ (('>' : Char) = ':' ∧ ('>' : Char) = '}') := by decide
  show codePosGo 0 (0 + a.length) false ('>' :: '>' :: rest) = _
  simp [codePosGo]

/-- **C18 (not found).** A source without a top-level `>>` has no separator. -/
theorem C18_none (s : Str) (h : NoSep [] s) : getCodePosition s = none := by
  unfold getCodePosition
  split
  · rfl
  · have := codePosGo_noSep h ⟨by simp, by simp⟩ 0
    rw [List.append_nil] at this
    rw [this]; rfl

theorem codePosGo_sound {s : Str} : ∀ {L : Int} {pos : Nat} {skip : Bool} {p : Nat}, codePosGo L pos skip s = some p →
    ∃ a r, s = a ++ c!">>" ++ r ∧ p = pos + a.length := by
  induction s with
  | nil => intro L pos skip p h; simp [codePosGo] at h
  | cons c t ih =>
    intro L pos skip p h
    cases t with
    | nil => simp [codePosGo] at h
    | cons d r =>
      have lift : ∀ {L skip}, codePosGo L (pos + 1) skip (d :: r) = some p →
          ∃ a r', c :: d :: r = a ++ c!">>" ++ r' ∧ p = pos + a.length := by
        intro L skip h
        obtain ⟨a, r', e1, e2⟩ := ih h
        exact ⟨c :: a, r', by rw [e1]; rfl, by simp only [List.length_cons]; omega⟩
      simp only [codePosGo] at h
      split at h
      · exact lift h
      · split at h
        · exact lift h
        · split at h
          · exact lift h
          · split at h
            · next hg =>
              split at h
              · simp only [Option.some.injEq] at h
                obtain ⟨rfl, rfl⟩ := hg
                exact ⟨[], r, rfl, by simp [h]⟩
              · exact lift h
            · exact lift h

/-- **C18 (sound).** For any source, well-formed or not, a returned position is the place of a `>>`. -/
theorem C18_sound (s : Str) (p : Nat) (h : getCodePosition s = some p) :
    ∃ a r, s = a ++ c!">>" ++ r ∧ a.length = p := by
  unfold getCodePosition at h
  split at h
  · simp at h
  · obtain ⟨a, r, h1, h2⟩ := codePosGo_sound h
    exact ⟨a, r, h1, by omega⟩

/-- **C18 (effect).** Parameters and code of a BIF: the text before and after the first top-level `>>`, trimmed; without
one, no parameters and everything is code. -/
theorem C18_split (R : Rec) (s : St) :
    (∀ a rest, NoSep (c!">>" ++ rest) a → s.b.src = a ++ c!">>" ++ rest →
      ∃ s', run R (extractParamsCode false) s = .ok true s' ∧ s'.b.params = trim a ∧ s'.b.code = trim rest) ∧
    (NoSep [] s.b.src →
      ∃ s', run R (extractParamsCode false) s = .ok false s' ∧ s'.b.params = [] ∧ s'.b.code = trim s.b.src) := by
  constructor
  · intro a rest h hs
    refine ⟨{ s with b := { s.b with params := trim a, code := trim rest } }, ?_, rfl, rfl⟩
    have hp := C18_first a rest h
    rw [← hs] at hp
    have h1 : s.b.src.take a.length = a := by rw [hs, List.append_assoc, List.take_left]
    have h2 : s.b.src.drop (a.length + 2) = rest := by
      have : a.length + 2 = (a ++ c!">>").length := by simp
      rw [hs, this, List.drop_left]
    simp only [extractParamsCode, run_bind, run_getSt, andThen_ok, run_modB, Bool.false_and, Bool.false_eq_true, if_false,
      run_pure, hp, h1, h2, Option.isSome_some]
  · intro h
    refine ⟨{ s with b := { s.b with params := [], code := trim s.b.src } }, ?_, rfl, rfl⟩
    have hp := C18_none _ h
    simp only [extractParamsCode, run_bind, run_getSt, andThen_ok, run_modB, Bool.false_and, Bool.false_eq_true, if_false,
      run_pure, hp, Option.isSome_none]

/-- The premise is met with a `>>` inside a nested BIF. -/
example : NoSep (c!">>" ++ c!" x >> y") c!"a {:b; c >> d :} " := by
  refine .chr _ (by decide) (by decide) (by decide) (.chr _ (by decide) (by decide) (by decide) ?_)
  refine .nest (b := c!"b; c >> d ") (s := c!" ") ?_ (.chr _ (by decide) (by decide) (by decide) (.nil _))
  repeat first | exact .nil _ | refine .chr _ (by decide) (by decide) ?_

end Nts
