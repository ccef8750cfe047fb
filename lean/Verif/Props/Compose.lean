import Verif.Spec.Compose
import Verif.Props.Render
import Verif.Props.Scope
import Verif.Spec.Eval
import Verif.Props.Cond
import Verif.Props.Inject
/-
C68: evaluation is compositional.
-/
set_option autoImplicit false
namespace Nts
open Spec

theorem wellFormed_open {p : Nat} {s : Str} {l : List (Nat × Nat)} (h : WellFormed p s l) : l ≠ [] ↔ c!"{:" <:+: s := by
  induction h with
  | nil p => simp
  | @chr p s l c h1 h2 _ ih =>
    rw [ih, List.infix_cons_iff]
    exact ⟨.inr, fun h => h.resolve_left h1⟩
  | @block p b s l hb _ ih =>
    simp only [ne_eq, reduceCtorEq, not_false_eq_true, true_iff]
    have : c!"{:" <+: b := by
      rcases hb with ⟨x, rfl, _⟩ | ⟨x, rfl, _⟩
      · exact ⟨x ++ c!":}", by simp⟩
      · exact ⟨c!"*" ++ x ++ c!"*:}", by simp⟩
    exact (this.isInfix).trans ⟨[], s, by simp⟩

theorem slice_snoc {src s : Str} {c : Char} {a p : Nat} (h : src.drop p = c :: s) (ha : a ≤ p) :
    slice src a (p + 1) = slice src a p ++ [c] := by
  rw [slice_eq_part, slice_eq_part, ← part_append src ha (Nat.le_succ p)]
  congr 1
  have := part_of_drop (a := [c]) (b := s) (p := p) (src := src) (by simpa using h)
  simpa using this

theorem block_unique {b b' s s' : Str} (h : IsBif b ∨ IsComment b) (h' : IsBif b' ∨ IsComment b') (e : b ++ s = b' ++ s') :
    b = b' ∧ s = s' := by
  obtain ⟨x, h1, h2⟩ := scanBlock_block (rest := s) h 0
  obtain ⟨y, h3, h4⟩ := scanBlock_block (rest := s') h' 0
  rw [e, h3] at h1
  have : x = y := (List.append_cancel_left h1).symm
  subst this
  rw [h2] at h4
  simp only [Nat.zero_add, Option.some.injEq] at h4
  exact List.append_inj e h4

theorem block_opens {b : Str} (h : IsBif b ∨ IsComment b) (s : Str) : c!"{:" <+: b ++ s := by
  rcases h with ⟨x, rfl, _⟩ | ⟨x, rfl, _⟩
  · exact ⟨x ++ c!":}" ++ s, by simp⟩
  · exact ⟨c!"*" ++ x ++ c!"*:}" ++ s, by simp⟩

theorem not_both {b : Str} (h1 : IsBif b) (h2 : IsComment b) : False := by
  obtain ⟨x, rfl, _, hx⟩ := h1
  obtain ⟨y, hy, _⟩ := h2
  simp only [List.cons_append, List.nil_append, List.cons.injEq, true_and] at hy
  cases x with
  | nil => simp at hy
  | cons c x =>
    simp only [List.cons_append, List.cons.injEq] at hy
    exact hx ⟨x, by rw [hy.1]; rfl⟩

theorem comment_iff {b : Str} (h : IsBif b ∨ IsComment b) : startsWith c!"{:*" b = true ↔ IsComment b := by
  rw [startsWith_iff]
  constructor
  · intro hp
    rcases h with h | h
    · obtain ⟨x, rfl, _, hx⟩ := h
      obtain ⟨r, hr⟩ := hp
      simp only [List.cons_append, List.nil_append, List.cons.injEq, true_and] at hr
      exfalso
      cases x with
      | nil => simp at hr
      | cons c x =>
        simp only [List.cons_append, List.cons.injEq] at hr
        exact hx ⟨x, by rw [← hr.1]; rfl⟩
    · exact h
  · rintro ⟨y, rfl, _⟩
    exact ⟨y ++ c!"*:}", by simp⟩

/-- What a template that begins with a character of text produces. -/
theorem produces_chr {env : Env} {R : Rec} {only s y : Str} {c : Char} {sh sh' : Shared} {inh inh' : Inherit} {e : Bool}
    (h1 : ¬ c!"{:" <+: c :: s) (h : Produces env R only (c :: s) sh inh e y sh' inh') :
    (sh.exit = true ∧ c!"{:" <:+: s ∧ e = false ∧ y = [] ∧ sh' = sh ∧ inh' = inh) ∨
    (¬ (sh.exit = true ∧ c!"{:" <:+: s) ∧ ∃ z, y = c :: z ∧ Produces env R only s sh inh e z sh' inh') := by
  generalize ht : c :: s = t at h
  cases h with
  | nil => simp at ht
  | stop ha hb =>
    subst ht
    rw [List.infix_cons_iff] at hb
    exact .inl ⟨ha, hb.resolve_left h1, rfl, rfl, rfl, rfl⟩
  | chr d h2 h3 h4 =>
    injection ht with e1 e2
    subst e1; subst e2
    exact .inr ⟨h3, _, rfl, h4⟩
  | comment _ hb => exact absurd (ht ▸ block_opens (.inr hb) _) h1
  | skipped _ hb => exact absurd (ht ▸ block_opens (.inl hb) _) h1
  | evaluated _ hb => exact absurd (ht ▸ block_opens (.inl hb) _) h1

/-- What a template that begins with a block produces. -/
theorem produces_block {env : Env} {R : Rec} {only b s y : Str} {sh sh' : Shared} {inh inh' : Inherit} {e : Bool}
    (hb : IsBif b ∨ IsComment b) (h : Produces env R only (b ++ s) sh inh e y sh' inh') :
    (sh.exit = true ∧ e = false ∧ y = [] ∧ sh' = sh ∧ inh' = inh) ∨
    (sh.exit = false ∧ (IsComment b ∨ (inh.alias = c!"coalesce" ∧ inh.lastCoalesceOut = true)) ∧
      Produces env R only s sh inh e y sh' inh') ∨
    (sh.exit = false ∧ IsBif b ∧ ¬ (inh.alias = c!"coalesce" ∧ inh.lastCoalesceOut = true) ∧ ∃ x z sh1 inh1, y = x ++ z ∧
      runBif env R sh inh b only = .ok x sh1 inh1 ∧ Produces env R only s sh1 inh1 e z sh' inh') := by
  generalize ht : b ++ s = t at h
  cases h with
  | nil => exact absurd (block_opens hb s) (by rw [ht]; simp)
  | stop ha _ => exact .inl ⟨ha, rfl, rfl, rfl, rfl⟩
  | chr d h2 h3 h4 => exact absurd (ht ▸ block_opens hb s) h2
  | comment h0 hb' h3 =>
    obtain ⟨rfl, rfl⟩ := block_unique hb (.inr hb') ht
    exact .inr (.inl ⟨h0, .inl hb', h3⟩)
  | skipped h0 hb' h1 h2 h3 =>
    obtain ⟨rfl, rfl⟩ := block_unique hb (.inl hb') ht
    exact .inr (.inl ⟨h0, .inr ⟨h1, h2⟩, h3⟩)
  | evaluated h0 hb' h1 h2 h3 =>
    obtain ⟨rfl, rfl⟩ := block_unique hb (.inl hb') ht
    exact .inr (.inr ⟨h0, hb', h1, _, _, _, _, rfl, h2, h3⟩)

theorem produces_nil {env : Env} {R : Rec} {only y : Str} {sh sh' : Shared} {inh inh' : Inherit} {e : Bool}
    (h : Produces env R only [] sh inh e y sh' inh') : e = true ∧ y = [] ∧ sh' = sh ∧ inh' = inh := by
  generalize ht : ([] : Str) = t at h
  cases h with
  | nil => exact ⟨rfl, rfl, rfl, rfl⟩
  | stop _ h2 => subst ht; simp at h2
  | chr d => simp at ht
  | comment _ hb => exact absurd (block_opens (.inr hb) _) (by rw [← ht]; simp)
  | skipped _ hb => exact absurd (block_opens (.inl hb) _) (by rw [← ht]; simp)
  | evaluated _ hb => exact absurd (block_opens (.inl hb) _) (by rw [← ht]; simp)

theorem produces_exit {env : Env} {R : Rec} {only s y : Str} {sh sh' : Shared} {inh inh' : Inherit} {e : Bool}
    (hx : sh.exit = true) (ho : c!"{:" <:+: s) (h : Produces env R only s sh inh e y sh' inh') :
    e = false ∧ y = [] ∧ sh' = sh ∧ inh' = inh := by
  cases h with
  | nil => simp at ho
  | stop _ _ => exact ⟨rfl, rfl, rfl, rfl⟩
  | chr d h2 h3 h4 =>
    rw [List.infix_cons_iff] at ho
    exact absurd ⟨hx, ho.resolve_left h2⟩ h3
  | comment h0 => rw [hx] at h0; simp at h0
  | skipped h0 => rw [hx] at h0; simp at h0
  | evaluated h0 => rw [hx] at h0; simp at h0

theorem blocksGo_produces {env : Env} {R : Rec} {src only : Str} {p : Nat} {s : Str} {l : List (Nat × Nat)}
    (h : WellFormed p s l) : src.drop p = s → ∀ (prev : Nat) (out : Str) (sh : Shared) (inh : Inherit) (o : Str) (sh' : Shared)
    (inh' : Inherit), prev ≤ p →
    (blocksGo env R src only prev out l sh inh = .ok o sh' inh' ↔
      ∃ e y, Produces env R only s sh inh e y sh' inh' ∧
        o = ended e (out ++ (if sh.exit = true ∧ l ≠ [] then [] else slice src prev p) ++ y)) := by
  induction h with
  | nil p =>
    intro hd prev out sh inh o sh' inh' hp
    have hlen : src.length ≤ p := List.drop_eq_nil_iff.1 hd
    have hs : slice src prev p = src.drop prev := by
      rw [slice_eq_part]; unfold part
      rw [List.take_of_length_le hlen]
    simp only [blocksGo, ne_eq, not_true_eq_false, and_false, if_false, hs, PRes.ok.injEq]
    constructor
    · rintro ⟨rfl, rfl, rfl⟩
      exact ⟨true, [], .nil _ _, by simp [ended]⟩
    · rintro ⟨e, y, hpr, rfl⟩
      obtain ⟨rfl, rfl, rfl, rfl⟩ := produces_nil hpr
      simp [ended]
  | @chr p s l c h1 h2 hw ih =>
    intro hd prev out sh inh o sh' inh' hp
    have hd' : src.drop (p + 1) = s := by
      rw [← List.drop_drop, hd]; rfl
    rw [ih hd' prev out sh inh o sh' inh' (by omega), slice_snoc hd hp]
    have hl := wellFormed_open hw
    by_cases hx : sh.exit = true ∧ l ≠ []
    · simp only [hx, ne_eq, not_false_eq_true, and_self, if_true, List.append_nil]
      constructor
      · rintro ⟨e, y, hpr, rfl⟩
        obtain ⟨rfl, rfl, rfl, rfl⟩ := produces_exit hx.1 (hl.1 hx.2) hpr
        exact ⟨false, [], .stop hx.1 (List.infix_cons_iff.2 (.inr (hl.1 hx.2))), rfl⟩
      · rintro ⟨e, y, hpr, rfl⟩
        rcases produces_chr h1 hpr with ⟨ha, hb, rfl, rfl, rfl, rfl⟩ | ⟨hn, _⟩
        · exact ⟨false, [], .stop ha hb, rfl⟩
        · exact absurd ⟨hx.1, hl.1 hx.2⟩ hn
    · simp only [hx, if_false]
      constructor
      · rintro ⟨e, y, hpr, rfl⟩
        exact ⟨e, c :: y, .chr c h1 (by rw [← hl]; exact hx) hpr, by simp⟩
      · rintro ⟨e, y, hpr, rfl⟩
        rcases produces_chr h1 hpr with ⟨ha, hb, _⟩ | ⟨hn, z, rfl, hz⟩
        · exact absurd ⟨ha, hl.2 hb⟩ hx
        · exact ⟨e, z, hz, by simp⟩
  | @block p b s l hb hw ih =>
    intro hd prev out sh inh o sh' inh' hp
    have hd' : src.drop (p + b.length) = s := by
      rw [← List.drop_drop, hd, List.drop_left]
    have hslice : slice src p (p + b.length) = b := by
      rw [slice_eq_part]; exact part_of_drop hd
    have hempty : slice src (p + b.length) (p + b.length) = [] := by
      rw [slice_eq_part]; simp [part]
    have hout1 : (if prev < p then out ++ slice src prev p else out) = out ++ slice src prev p := by
      split
      · rfl
      · have : prev = p := by omega
        subst this
        rw [slice_eq_part]; simp [part]
    unfold blocksGo
    by_cases hx : sh.exit = true
    · simp only [hx, if_true, ne_eq, reduceCtorEq, not_false_eq_true, and_self, List.append_nil, PRes.ok.injEq]
      constructor
      · rintro ⟨rfl, rfl, rfl⟩
        exact ⟨false, [], .stop hx ((block_opens hb s).isInfix), by simp [ended]⟩
      · rintro ⟨e, y, hpr, rfl⟩
        rcases produces_block hb hpr with ⟨_, rfl, rfl, rfl, rfl⟩ | ⟨h0, _⟩ | ⟨h0, _⟩
        · simp [ended]
        · rw [hx] at h0; simp at h0
        · rw [hx] at h0; simp at h0
    · have hx' : sh.exit = false := by simpa using hx
      simp only [hx', Bool.false_eq_true, if_false, false_and, hout1, hslice]
      by_cases hsk : (startsWith c!"{:*" b || (inh.lastCoalesceOut && inh.alias = c!"coalesce")) = true
      · rw [if_pos hsk, ih hd' _ _ sh inh o sh' inh' (Nat.le_refl _)]
        simp only [hx', Bool.false_eq_true, false_and, if_false, hempty, List.append_nil]
        have hsk' : IsComment b ∨ (inh.alias = c!"coalesce" ∧ inh.lastCoalesceOut = true) := by
          simp only [Bool.or_eq_true, Bool.and_eq_true, decide_eq_true_eq] at hsk
          rcases hsk with h | h
          · exact .inl ((comment_iff hb).1 h)
          · exact .inr ⟨h.2, h.1⟩
        constructor
        · rintro ⟨e, y, hpr, rfl⟩
          refine ⟨e, y, ?_, rfl⟩
          rcases hb with hb | hb
          · rcases hsk' with h | h
            · exact .comment hx' h hpr
            · exact .skipped hx' hb h.1 h.2 hpr
          · exact .comment hx' hb hpr
        · rintro ⟨e, y, hpr, rfl⟩
          rcases produces_block hb hpr with ⟨h0, _⟩ | ⟨_, _, h3⟩ | ⟨_, h2, h3, _⟩
          · rw [hx'] at h0; simp at h0
          · exact ⟨e, y, h3, rfl⟩
          · rcases hsk' with h | h
            · exact (not_both h2 h).elim
            · exact absurd h h3
      · rw [if_neg hsk]
        have hsk' : ¬ IsComment b ∧ ¬ (inh.alias = c!"coalesce" ∧ inh.lastCoalesceOut = true) := by
          constructor
          · intro h; exact hsk (by rw [(comment_iff hb).2 h]; rfl)
          · intro h; exact hsk (by simp [h.1, h.2])
        have hb' : IsBif b := hb.resolve_right hsk'.1
        cases hr : runBif env R sh inh b only with
        | ok x sh1 inh1 =>
          simp only
          rw [ih hd' _ _ sh1 inh1 o sh' inh' (Nat.le_refl _)]
          simp only [hempty, if_true, ite_self, List.append_nil]
          constructor
          · rintro ⟨e, y, hpr, rfl⟩
            exact ⟨e, x ++ y, .evaluated hx' hb' hsk'.2 hr hpr, by simp⟩
          · rintro ⟨e, y, hpr, rfl⟩
            rcases produces_block hb hpr with ⟨h0, _⟩ | ⟨_, h2, _⟩ | ⟨_, _, _, x', z, sh2, inh2, rfl, h2, h3⟩
            · rw [hx'] at h0; simp at h0
            · rcases h2 with h2 | h2
              · exact absurd h2 hsk'.1
              · exact absurd h2 hsk'.2
            · rw [hr] at h2
              simp only [PRes.ok.injEq] at h2
              obtain ⟨rfl, rfl, rfl⟩ := h2
              exact ⟨e, z, h3, by simp⟩
        | panic q =>
          simp only [reduceCtorEq, false_iff]
          rintro ⟨e, y, hpr, rfl⟩
          rcases produces_block hb hpr with ⟨h0, _⟩ | ⟨_, h2, _⟩ | ⟨_, _, _, x', z, sh2, inh2, rfl, h2, h3⟩
          · rw [hx'] at h0; simp at h0
          · rcases h2 with h2 | h2
            · exact absurd h2 hsk'.1
            · exact absurd h2 hsk'.2
          · rw [hr] at h2; simp at h2
        | oof =>
          simp only [reduceCtorEq, false_iff]
          rintro ⟨e, y, hpr, rfl⟩
          rcases produces_block hb hpr with ⟨h0, _⟩ | ⟨_, h2, _⟩ | ⟨_, _, _, x', z, sh2, inh2, rfl, h2, h3⟩
          · rw [hx'] at h0; simp at h0
          · rcases h2 with h2 | h2
            · exact absurd h2 hsk'.1
            · exact absurd h2 hsk'.2
          · rw [hr] at h2; simp at h2

/-- **C68.** Evaluating a well-formed template ends normally exactly when its parts, evaluated from left to right, each in the
state the one before it left, produce an output; then this is the output (with the outer blanks removed), and the state is the
one that the last part left. -/
theorem C68_blocks (env : Env) (n : Nat) (sh sh' : Shared) (inh inh' : Inherit) (s only out : Str) (l : List (Nat × Nat))
    (hwf : WellFormed 0 s l) :
    parseSrc (runBlocks env (n + 1)) sh inh s only = .ok out sh' inh' ↔
      ∃ e y, Produces env (runBlocks env n) only s sh inh e y sh' inh' ∧ out = ended e y := by
  unfold parseSrc
  rw [C15_complete _ _ hwf]
  simp only [runBlocks]
  rw [blocksGo_produces hwf rfl 0 [] sh inh out sh' inh' (Nat.le_refl _)]
  have : slice s 0 0 = [] := by simp [slice]
  simp only [this, ite_self, List.append_nil, List.nil_append]

theorem dropBlock_forgets (sh : Shared) (inh : Inherit) : Forgets inh.blockCount sh (dropBlock sh inh) := by
  unfold dropBlock
  dsimp only
  split
  · exact ⟨rfl, fun x hx => by simp [hx]⟩
  · exact ⟨rfl, fun _ _ => rfl⟩

/-- **C68 (nested texts).** The text of a nested block is evaluated in the same way, one level deeper and knowing the BIF it
belongs to; afterwards the state is the one its last part left, but for the definitions of that level, and the enclosing
block goes on as before. -/
theorem C68_nested (env : Env) (n : Nat) (sh : Shared) (inh : Inherit) (name text only : Str) (b : Nat)
    (l : List (Nat × Nat)) (hwf : WellFormed 0 text l) (hb : AtLevel inh b) (ho : c!"{:" <:+: text) :
    (∀ x sh' inh', nested (runBlocks env (n + 1)) false sh inh name text only = .ok x sh' inh' →
      ∃ e y sh1 inh1, Produces env (runBlocks env n) only text sh (inside name inh) e y sh1 inh1 ∧ x = ended e y ∧
        Forgets (b + 1) sh1 sh' ∧ inh' = inh) ∧
    (∀ e y sh1 inh1, Produces env (runBlocks env n) only text sh (inside name inh) e y sh1 inh1 →
      ∃ sh', nested (runBlocks env (n + 1)) false sh inh name text only = .ok (ended e y) sh' inh ∧
        Forgets (b + 1) sh1 sh') := by
  have hci : childInherit ⟨sh, inh, { BifS.new with alias := name }, [], only⟩ = inside name inh := by
    simp [childInherit, inside, BifS.new]
  have hlev : AtLevel (inside name inh) (b + 1) := by
    have := childInherit_level (s := ⟨sh, inh, { BifS.new with alias := name }, [], only⟩) hb
    rw [hci] at this; exact this
  have hn : nested (runBlocks env (n + 1)) false sh inh name text only =
      match parseSrc (runBlocks env (n + 1)) sh (inside name inh) text only with
      | .ok out sh2 ci2 => .ok out (dropBlock sh2 ci2) inh
      | .panic p => .panic p
      | .oof => .oof := by
    unfold nested runChild
    rw [if_pos ((contains_iff (by decide)).2 ho), hci]
    simp only [Bool.false_eq_true, if_false]
    cases parseSrc (runBlocks env (n + 1)) sh (inside name inh) text only <;> rfl
  have hcnt : ∀ {out sh1 inh1}, parseSrc (runBlocks env (n + 1)) sh (inside name inh) text only = .ok out sh1 inh1 →
      inh1.blockCount = b + 1 := fun h => (C24_block env _ _ _ _ _ _ _ _ _ hlev h).1.count
  constructor
  · intro x sh' inh' h
    rw [hn] at h
    cases hp : parseSrc (runBlocks env (n + 1)) sh (inside name inh) text only with
    | ok out sh2 ci2 =>
      rw [hp] at h
      simp only [PRes.ok.injEq] at h
      obtain ⟨rfl, rfl, rfl⟩ := h
      obtain ⟨e, y, h1, h2⟩ := (C68_blocks env n sh sh2 _ ci2 text only out l hwf).1 hp
      exact ⟨e, y, sh2, ci2, h1, h2, hcnt hp ▸ dropBlock_forgets sh2 ci2, rfl⟩
    | panic p => rw [hp] at h; simp at h
    | oof => rw [hp] at h; simp at h
  · intro e y sh1 inh1 h
    have hp := (C68_blocks env n sh sh1 _ inh1 text only (ended e y) l hwf).2 ⟨e, y, h, rfl⟩
    refine ⟨dropBlock sh1 inh1, ?_, hcnt hp ▸ dropBlock_forgets sh1 inh1⟩
    rw [hn, hp]

/-- **C68 (modifier `+`).** With the modifier `+` the nested text is evaluated in the same way, and what it sees at its end is
what the enclosing block sees afterwards. -/
theorem C68_scope (env : Env) (n : Nat) (sh sh' : Shared) (inh inh' : Inherit) (name text only x : Str) (b : Nat)
    (l : List (Nat × Nat)) (hwf : WellFormed 0 text l) (hb : AtLevel inh b) (ho : c!"{:" <:+: text)
    (h : nested (runBlocks env (n + 1)) true sh inh name text only = .ok x sh' inh') :
    ∃ e y sh0 sh1 inh1, Produces env (runBlocks env n) only text sh0 (inside name inh) e y sh1 inh1 ∧ x = ended e y ∧
      sh0 = { sh with indir := sh0.indir } ∧ (∀ z, z ≠ blockId b → sh0.indir z = sh.indir z) ∧
      sh' = { sh1 with indir := sh'.indir } ∧ inh' = { inh with indir := inh'.indir } ∧ AtLevel inh' b ∧
      ((sh1.indir inh1.indir).isSome = true → ∀ key, visible sh' inh' key = visible sh1 inh1 key) := by
  have hci : childInherit ⟨sh, inh, { BifS.new with alias := name }, [], only⟩ = inside name inh := by
    simp [childInherit, inside, BifS.new]
  have hlev : AtLevel (inside name inh) (b + 1) := by
    have := childInherit_level (s := ⟨sh, inh, { BifS.new with alias := name }, [], only⟩) hb
    rw [hci] at this; exact this
  unfold nested runChild at h
  rw [if_pos ((contains_iff (by decide)).2 ho), hci] at h
  simp only [if_true] at h
  cases hp : parseSrc (runBlocks env (n + 1)) (createBlockSchema sh inh).1 (inside name inh) text only with
  | ok out sh1 inh1 =>
    rw [hp] at h
    simp only [PRes.ok.injEq] at h
    obtain ⟨rfl, rfl, rfl⟩ := h
    obtain ⟨e, y, h1, h2⟩ := (C68_blocks env n _ sh1 _ inh1 text only out l hwf).1 hp
    have hl1 := (C24_block env _ _ _ _ _ _ _ _ _ hlev hp).1
    have hown := ownBlock hb sh
    refine ⟨e, y, (createBlockSchema sh inh).1, sh1, inh1, h1, h2, ?_, ?_, ?_, ?_, create_atLevel hb sh, ?_⟩
    · obtain ⟨g, hg⟩ := createBlockSchema_sh sh inh
      rw [hg]
    · intro z hz
      rw [← hown] at hz
      simp only [createBlockSchema] at hz ⊢
      generalize (if inh.blockCount < 1 then c!"block_1" else blockId inh.blockCount) = bid at hz ⊢
      by_cases hi : inh.indir ≠ bid
      · rw [if_pos hi]
        cases sh.indir inh.indir with
        | none => rfl
        | some v => simp [hz]
      · rw [if_neg hi]
    · obtain ⟨g, hg⟩ := updateIndir_sh sh1 inh1.indir (createBlockSchema sh inh).2.indir
      obtain ⟨g2, hg2⟩ := dropBlock_sh (updateIndir sh1 inh1.indir (createBlockSchema sh inh).2.indir) inh1
      rw [hg2, hg]
    · rw [createBlockSchema_inh]
    · intro hs key
      obtain ⟨v, hv⟩ := Option.isSome_iff_exists.1 hs
      have hne : (createBlockSchema sh inh).2.indir ≠ blockId (b + 1) := by
        rw [hown]
        intro he
        have := blockId_inj he
        omega
      have hd := (hl1.count ▸ dropBlock_forgets (updateIndir sh1 inh1.indir (createBlockSchema sh inh).2.indir) inh1 :
        Forgets (b + 1) _ _).others _ hne
      unfold visible Shared.getIndir
      rw [hd]
      unfold updateIndir
      rw [hv]
      simp
  | panic p => rw [hp] at h; simp at h
  | oof => rw [hp] at h; simp at h

theorem produces_exited {env : Env} {R : Rec} {only s y : Str} {sh sh' : Shared} {inh inh' : Inherit} {e : Bool}
    (h : Produces env R only s sh inh e y sh' inh') (hx : sh.exit = true) : sh' = sh := by
  induction h with
  | nil => rfl
  | stop => rfl
  | chr _ _ _ _ ih => exact ih hx
  | comment h0 => rw [hx] at h0; simp at h0
  | skipped h0 => rw [hx] at h0; simp at h0
  | evaluated h0 => rw [hx] at h0; simp at h0

/-- **C68 (texts put together).** When `exit` was not called in the first of two templates, what the two produce together is
what the first produces and then, in the state it leaves, the second. -/
theorem C68_append {env : Env} {R : Rec} {only a y : Str} {sh sh1 : Shared} {inh inh1 : Inherit} {e : Bool}
    (h : Produces env R only a sh inh e y sh1 inh1) :
    ∀ {b z : Str} {sh' : Shared} {inh' : Inherit} {e' : Bool}, e = true → sh1.exit = false → ¬ c!":" <+: b →
      Produces env R only b sh1 inh1 e' z sh' inh' → Produces env R only (a ++ b) sh inh e' (y ++ z) sh' inh' := by
  induction h with
  | nil => intro b z sh' inh' e' _ _ _ hb; exact hb
  | stop => intro b z sh' inh' e' he; simp at he
  | @chr s y sh sh1 inh inh1 e c h1 h2 h3 ih =>
    intro b z sh' inh' e' he hx hc hb
    refine .chr c ?_ ?_ (ih he hx hc hb)
    · rintro ⟨r, hr⟩
      simp only [List.cons_append, List.nil_append, List.cons.injEq] at hr
      obtain ⟨rfl, hr⟩ := hr
      cases s with
      | nil => exact hc ⟨r, by simpa using hr⟩
      | cons d s =>
        have hr' : (':' :: r : Str) = d :: (s ++ b) := hr
        injection hr' with e1 _
        exact h1 ⟨s, by rw [e1]; rfl⟩
    · rintro ⟨hx', _⟩
      rw [produces_exited h3 hx'] at hx
      rw [hx] at hx'
      simp at hx'
  | comment h0 hb1 _ ih =>
    intro b z sh' inh' e' he hx hc hb
    rw [List.append_assoc]
    exact .comment h0 hb1 (ih he hx hc hb)
  | skipped h0 hb1 h2 h3 _ ih =>
    intro b z sh' inh' e' he hx hc hb
    rw [List.append_assoc]
    exact .skipped h0 hb1 h2 h3 (ih he hx hc hb)
  | evaluated h0 hb1 h2 h3 _ ih =>
    intro b z sh' inh' e' he hx hc hb
    rw [List.append_assoc, List.append_assoc]
    exact .evaluated h0 hb1 h2 h3 (ih he hx hc hb)

/-- **C35 (the whole BIF).** `{:coalesce; src :}` is the evaluation of its source from left to right, as a block that knows it
belongs to `coalesce` and in which nothing counts as printed yet: BIFs after the first that prints something are skipped. -/
theorem C35_block (env : Env) (n : Nat) (sh sh' : Shared) (inh inh' : Inherit) (mods src only x : Str) (b : Nat)
    (l : List (Nat × Nat)) (hm : Mods mods) (hf : '&' ∉ mods) (hn : '!' ∉ mods) (hsc : '+' ∉ mods) (hmax : sh.count < sh.max)
    (hsel : Selected inh mods c!"coalesce" only) (ho : c!"{:" <:+: trim src) (hwf : WellFormed 0 (trim src) l)
    (hb : AtLevel inh b)
    (h : runBif env (runBlocks env (n + 1)) sh inh (bifText mods c!"coalesce" src) only = .ok x sh' inh') :
    ∃ e y sh1 inh1, Produces env (runBlocks env n) only (trim src) (counted sh)
        (inside c!"coalesce" { entered sh inh with lastCoalesceOut := false }) e y sh1 inh1 ∧
      Forgets (b + 1) sh1 sh' ∧ x = trim ((if '^' ∈ mods then c!"&#9224" else []) ++ ended e y) := by
  rw [C35_coalesce env _ sh inh mods src only hm hf hn hmax hsel ho] at h
  unfold shown at h
  rw [show decide ('+' ∈ mods) = false by simp [hsc]] at h
  split at h
  next z sh2 inh2 hz =>
    obtain ⟨e, y, sh1, inh1, h1, h2, h3, h4⟩ := (C68_nested env n (counted sh) { entered sh inh with lastCoalesceOut := false }
      c!"coalesce" (trim src) only b l hwf ⟨hb.count, hb.block⟩ ho).1 z sh2 inh2 hz
    unfold finish at h
    simp only [PRes.ok.injEq] at h
    obtain ⟨rfl, rfl, rfl⟩ := h
    refine ⟨e, y, sh1, inh1, h1, h3, ?_⟩
    subst h2
    by_cases hu : '^' ∈ mods <;> simp [hu]
  · simp at h
  · simp at h

/-! ### the bound on the depth does not matter -/

/-- Where `R` gives a result, `R'` gives the same one. -/
def RecLe (R R' : Rec) : Prop :=
  ∀ sh inh src bs only, R sh inh src bs only ≠ .oof → R' sh inh src bs only = R sh inh src bs only

theorem parseSrc_le {R R' : Rec} (h : RecLe R R') (sh : Shared) (inh : Inherit) (src only : Str)
    (hne : parseSrc R sh inh src only ≠ .oof) : parseSrc R' sh inh src only = parseSrc R sh inh src only := by
  unfold parseSrc at hne ⊢
  split
  · rfl
  · next hx => rw [hx] at hne; exact h _ _ _ _ _ hne

theorem runChild_le {s : St} {scope : Bool} {f g : Shared → Inherit → PRes}
    (h : ∀ sh inh, f sh inh ≠ .oof → g sh inh = f sh inh) (hne : runChild s scope f ≠ .oof) :
    runChild s scope g = runChild s scope f := by
  unfold runChild at hne ⊢
  dsimp only at hne ⊢
  rw [h _ _ (fun hx => hne (by rw [hx]))]

theorem step_le {R R' : Rec} (h : RecLe R R') (o : Op) (s : St) (hne : step R o s ≠ .oof) : step R' o s = step R o s := by
  cases o with
  | child src scope => exact runChild_le (fun sh inh hx => parseSrc_le h sh inh src s.only hx) hne
  | childBlocks src blocks scope => exact runChild_le (fun sh inh hx => h _ _ _ _ _ hx) hne
  | pushFile k p => cases k <;> rfl
  | _ => rfl

theorem run_le {R R' : Rec} (h : RecLe R R') {α : Type} (p : Prog α) : ∀ s, run R p s ≠ .oof → run R' p s = run R p s := by
  induction p with
  | pure a => intro s _; rfl
  | throw e => intro s _; rfl
  | panic p => intro s _; rfl
  | op o k ih =>
    intro s hne
    simp only [run] at hne ⊢
    have h1 : step R o s ≠ .oof := fun hx => by rw [hx] at hne; exact hne rfl
    rw [step_le h o s h1]
    cases hs : step R o s with
    | ok r s' => rw [hs] at hne; exact ih r s' hne
    | panic p => rfl
    | oof => rfl

theorem runBif_le {R R' : Rec} (env : Env) (h : RecLe R R') (sh : Shared) (inh : Inherit) (raw only : Str)
    (hne : runBif env R sh inh raw only ≠ .oof) : runBif env R' sh inh raw only = runBif env R sh inh raw only := by
  unfold runBif at hne ⊢
  split
  · rfl
  next hc =>
  rw [if_neg hc] at hne
  unfold bifParse at hne ⊢
  split
  · rfl
  next name src hsp =>
  rw [hsp] at hne
  dsimp only at hne ⊢
  split
  · rfl
  next hs =>
  rw [if_neg hs] at hne
  split
  · rfl
  next b name' hm =>
  rw [hm] at hne
  dsimp only at hne ⊢
  rw [run_le h]
  intro hx
  rw [hx] at hne
  exact hne rfl

theorem blocksGo_le {R R' : Rec} (env : Env) (h : RecLe R R') (src only : Str) (bs : List (Nat × Nat)) :
    ∀ p out sh inh, blocksGo env R src only p out bs sh inh ≠ .oof →
      blocksGo env R' src only p out bs sh inh = blocksGo env R src only p out bs sh inh := by
  induction bs with
  | nil => intro p out sh inh _; rfl
  | cons b r ih =>
    obtain ⟨s, e⟩ := b
    intro p out sh inh hne
    simp only [blocksGo] at hne ⊢
    split
    · rfl
    next hx =>
    rw [if_neg hx] at hne
    split
    · next hk =>
      rw [if_pos hk] at hne
      exact ih _ _ _ _ hne
    · next hk =>
      rw [if_neg hk] at hne
      have h1 : runBif env R sh inh (slice src s e) only ≠ .oof := fun hx => by rw [hx] at hne; exact hne rfl
      rw [runBif_le env h _ _ _ _ h1]
      cases hr : runBif env R sh inh (slice src s e) only with
      | ok x sh' inh' => rw [hr] at hne; exact ih _ _ _ _ hne
      | panic p => rfl
      | oof => rfl

theorem runBlocks_le (env : Env) (n : Nat) : RecLe (runBlocks env n) (runBlocks env (n + 1)) := by
  induction n with
  | zero => intro sh inh src bs only h; exact absurd rfl h
  | succ n ih => intro sh inh src bs only h; exact blocksGo_le env ih src only bs 0 [] sh inh h

/-- **C19 (the depth is not a parameter).** An evaluation that ends within some depth of nesting gives the same result with
any greater bound on the depth: the bound is not a part of the semantics. -/
theorem C19_depth (env : Env) (n m : Nat) (hnm : n ≤ m) (sh : Shared) (inh : Inherit) (src only : Str)
    (blocks : List (Nat × Nat)) (h : runBlocks env n sh inh src blocks only ≠ .oof) :
    runBlocks env m sh inh src blocks only = runBlocks env n sh inh src blocks only := by
  induction hnm with
  | refl => rfl
  | step _ ih =>
    rw [← ih]
    exact runBlocks_le env _ _ _ _ _ _ (ih ▸ h)

/-- **C68 (whole renders).** The first pass of a render of a well-formed template is this evaluation of its parts, from the
initial state of the render; when it leaves no `{:!cache;` and no code to move, then its output is, up to the marks and the
replacement of the content by the status (C40, C47), the text returned. -/
theorem C68_render (env : Env) (n : Nat) (w : World) (t t' : Tpl) (src : Str) (l : List (Nat × Nat))
    (hwf : WellFormed 0 src l) (hb : c!"{:" <:+: t.raw) (hsrc : Source env w t src) (h : t.render env n w = .ok t') :
    ∃ sh sh1 inh e y sh2 inh2, Shared.new env w t.schema = some sh ∧
      initShared env t.filePath t.raw sh = .ok (src, sh1, inh) ∧
      Produces env (runBlocks env sh1.max) [] src sh1 (inside [] inh) e y sh2 inh2 ∧
      (¬ c!"{:!cache;" <:+: ended e y → sh2.schema.index c!"__moveto" = .obj [] →
        t'.out = finalOut sh2 (replacements (ended e y)) ∧ t'.statusCode = sh2.statusCode ∧
        t'.statusParam = sh2.statusParam) := by
  have hb' : contains bifOpen t.raw = true := (contains_iff (by decide)).2 hb
  unfold Tpl.render at h
  simp only [hb', Bool.not_true, Bool.false_eq_true, if_false] at h
  unfold renderWith at h
  split at h
  · simp at h
  next sh hsh =>
  split at h
  · simp at h
  next raw' sh1 inh hi =>
  have hraw := source_init hsrc hsh hi
  subst hraw
  have hal := (initShared_ok hi).2.2.2
  have hin : ({ inh with blockCount := inh.blockCount + 1 } : Inherit) = inside [] inh := by
    unfold inside; rw [← hal]
  rw [C24_passes hi, hin] at h
  split at h
  · simp at h
  · simp at h
  next out sh2 inh2 hp =>
  obtain ⟨e, y, h1, h2⟩ := (C68_blocks env sh1.max sh1 sh2 _ inh2 raw' [] out l hwf).1 hp
  refine ⟨sh, sh1, inh, e, y, sh2, inh2, hsh, hi, h1, ?_⟩
  intro hc hm
  subst h2
  simp only [cacheLoop_done env inh n _ _ hc] at h
  unfold endsRender at h
  rw [applyMoveto_empty hm] at h
  simp only [Option.map_some, RRes.ok.injEq] at h
  subst h
  exact ⟨rfl, rfl, rfl⟩

/-- A template in which a BIF changes what the next one sees: text, BIFs and a comment, from left to right. -/
example : (Sample.outOf (Sample.go [(c!"x", .str c!"X")]
    c!"a {:code; {:param; p >> 1 :}{:;x:}{:* no *:}-{:param; p :} :} b")).map (·.1) = some c!"a X-1 b" := by decide +kernel

/-- The premises can be met. -/
example : WellFormed 0 c!"a{:;x:}b" [(1, 7)] ∧ AtLevel { Inherit.new with blockCount := 1, indir := c!"block_1" } 1 :=
  ⟨.chr _ (by decide) (by decide) (.block (b := c!"{:;x:}") (s := c!"b") (.inl ⟨c!";x", rfl,
      bal_chars (by decide) (by decide), by decide⟩) (.chr _ (by decide) (by decide) (.nil _))),
    rfl, 1, Nat.le_refl _, Nat.le_refl _, rfl⟩

/-- A run of the relation: text around a variable. -/
example (env : Env) (R : Rec) (sh sh1 : Shared) (inh inh1 : Inherit) (x : Str) (h0 : sh.exit = false) (h1 : sh1.exit = false)
    (ha : inh.alias = []) (h : runBif env R sh inh c!"{:;x:}" [] = .ok x sh1 inh1) :
    Produces env R [] c!"a{:;x:}b" sh inh true (c!"a" ++ (x ++ c!"b")) sh1 inh1 :=
  .chr 'a' (by decide) (by simp [h0]) (.evaluated (b := c!"{:;x:}") (s := c!"b") (x := x) (y := c!"b") h0
    ⟨c!";x", rfl, bal_chars (by decide) (by decide), by decide⟩ (by simp [ha]) h
    (.chr 'b' (by decide) (by simp [h1]) (.nil _ _)))

end Nts
