import Verif.Lemmas.Ops
import Verif.Props.Text
import Verif.Props.Compose
import Verif.Props.Obj
/-
C69: what a BIF prints: no white space around it, and the upline modifier.
-/
set_option autoImplicit false
namespace Nts
open Spec

/-- No white space at either end. -/
def Spec.Trimmed (s : Str) : Prop :=
  (∀ c r, s = c :: r → isWs c = false) ∧ (∀ r c, s = r ++ [c] → isWs c = false)

theorem dropWhile_first {p : Char → Bool} {s : Str} {c : Char} {r : Str} (h : s.dropWhile p = c :: r) : p c = false := by
  induction s with
  | nil => simp at h
  | cons d s ih =>
    rw [List.dropWhile_cons] at h
    split at h
    · exact ih h
    · next hd =>
      injection h with h1 _
      rw [← h1]
      simpa using hd

theorem trimmed_trim (s : Str) : Trimmed (trim s) := by
  constructor
  · exact fun c r h => trim_head h
  · intro r c h
    unfold trim trimEnd at h
    have := congrArg List.reverse h
    rw [List.reverse_reverse, List.reverse_append] at this
    exact dropWhile_first this

theorem run_mods (R : Rec) (env : Env) (name : Str) (s : St) :
    (run R (bifBody env name) s).Post (fun s' => s'.b.modUpline = s.b.modUpline) := by
  refine run_post R (P := Effects name) (Rel := fun s s' => s'.b.modUpline = s.b.modUpline) (fun _ => rfl)
    (fun a b c h1 h2 => h2.trans h1) ?_ _ (effects env name) s
  intro o s r s' hP hs
  cases o with
  | modB f => simp only [step, ORes.ok.injEq] at hs; rw [← hs.2]; exact (hP s.b).2.2.1
  | pushFile k p => cases k <;> (simp only [step, ORes.ok.injEq] at hs; rw [← hs.2])
  | setData name v =>
    have := oresOpt_ok hs
    rw [Option.map_eq_some_iff] at this
    obtain ⟨_, _, rfl⟩ := this; rfl
  | setMoveto name v =>
    have := oresOpt_ok hs
    rw [Option.map_eq_some_iff] at this
    obtain ⟨_, _, rfl⟩ := this; rfl
  | setIndir sec key v =>
    have := oresOpt_ok hs
    rw [Option.map_eq_some_iff] at this
    obtain ⟨_, _, rfl⟩ := this; rfl
  | mergeIndir sec v =>
    have := oresOpt_ok hs
    rw [Option.map_eq_some_iff] at this
    obtain ⟨_, _, rfl⟩ := this; rfl
  | child src scope =>
    simp only [step, runChild] at hs
    split at hs
    · simp only [ORes.ok.injEq] at hs; rw [← hs.2]
    · simp at hs
    · simp at hs
  | childBlocks src bs scope =>
    simp only [step, runChild] at hs
    split at hs
    · simp only [ORes.ok.injEq] at hs; rw [← hs.2]
    · simp at hs
    · simp at hs
  | _ => simp only [step, ORes.ok.injEq] at hs; rw [← hs.2]

/-- **C69 (output).** Every BIF that is evaluated prints a text `x`, after the upline mark if it has the modifier `^`, without the white
space around it; whether `x` is empty is remembered for `else` and `coalesce`. -/
theorem C69_output (env : Env) (R : Rec) (sh sh' : Shared) (inh inh' : Inherit) (mods name src only out : Str)
    (hm : Mods mods) (hn : Named name) (hsel : Selected inh mods name only)
    (h : runBif env R sh inh (bifText mods name src) only = .ok out sh' inh') :
    ∃ x, out = trim (if '^' ∈ mods then c!"&#9224" ++ x else x) ∧
      inh'.lastBifOut = decide (x ≠ []) ∧ inh'.lastCoalesceOut = decide (x ≠ []) := by
  by_cases hmax : sh.count < sh.max
  · rw [runBif_text env R sh inh mods name src only hm hn hmax hsel] at h
    have hp := run_mods R env name (start sh inh mods name src only)
    have key : ∀ s' : St, s'.b.modUpline = (start sh inh mods name src only).b.modUpline →
        bifFinish s' = .ok out sh' inh' → ∃ x, out = trim (if '^' ∈ mods then c!"&#9224" ++ x else x) ∧
          inh'.lastBifOut = decide (x ≠ []) ∧ inh'.lastCoalesceOut = decide (x ≠ []) := by
      intro s' hu hf
      simp only [bifFinish, PRes.ok.injEq] at hf
      refine ⟨s'.b.out, ?_, ?_, ?_⟩
      · rw [← hf.1, hu]
        by_cases hc : '^' ∈ mods <;> simp [start, hc, backspace]
      · rw [← hf.2.2]; cases s'.b.out <;> simp
      · rw [← hf.2.2]; cases s'.b.out <;> simp
    cases hr : run R (bifBody env name) (start sh inh mods name src only) with
    | ok _ s' =>
      rw [hr] at h hp
      exact key s' hp h
    | err e s' =>
      rw [hr] at h hp
      simp only [bifResult] at h
      split at h
      · simp at h
      · refine key _ ?_ h
        exact hp
    | panic p => rw [hr] at h; simp [bifResult] at h
    | oof => rw [hr] at h; simp [bifResult] at h
  · unfold runBif at h
    rw [if_pos (by omega)] at h
    simp at h

/-- **C69 (trimmed).** No BIF prints white space around its output, in particular not around the values of variables. -/
theorem C69_trimmed (env : Env) (R : Rec) (sh sh' : Shared) (inh inh' : Inherit) (mods name src only out : Str)
    (hm : Mods mods) (hn : Named name) (hsel : Selected inh mods name only)
    (h : runBif env R sh inh (bifText mods name src) only = .ok out sh' inh') : Trimmed out := by
  obtain ⟨x, rfl, _⟩ := C69_output env R sh sh' inh inh' mods name src only out hm hn hsel h
  exact trimmed_trim _

theorem dropBackspace_plain {a r : Str} (ha : '&' ∉ a) (hl : ∀ b c, a = b ++ [c] → isWs c = false) :
    dropBackspace 0 (a ++ r) = a ++ dropBackspace 0 r := by
  induction a with
  | nil => rfl
  | cons c a ih =>
    simp only [List.mem_cons, not_or] at ha
    rw [List.cons_append, dropBackspace_keep, ih ha.2 ?_]
    · rfl
    · intro b d hb
      exact hl (c :: b) d (by rw [hb]; rfl)
    · rintro ⟨w, t, hw, he⟩
      -- the white space would cover all of `c :: a`, because the mark begins with `&`
      have hcover : ∀ (x w : Str), '&' ∉ x → Blank w → (∃ t r', x ++ r' = w ++ backspace ++ t) → ∃ v, w = x ++ v := by
        intro x
        induction x with
        | nil => intro w _ _ _; exact ⟨w, rfl⟩
        | cons d x ihx =>
          intro w hx hw ⟨t, r', he⟩
          simp only [List.mem_cons, not_or] at hx
          cases w with
          | nil =>
            simp only [List.cons_append, List.nil_append, backspace, List.cons.injEq] at he
            exact absurd he.1.symm hx.1
          | cons e w =>
            simp only [List.cons_append, List.cons.injEq] at he
            obtain ⟨v, hv⟩ := ihx w hx.2 (fun y hy => hw y (List.mem_cons_of_mem _ hy)) ⟨t, r', he.2⟩
            exact ⟨v, by rw [hv, he.1]; rfl⟩
      obtain ⟨v, hv⟩ := hcover (c :: a) w (by simp [ha.1, ha.2]) hw ⟨t, r, he⟩
      have hne : c :: a ≠ [] := by simp
      have h1 := hl _ _ (List.dropLast_concat_getLast hne).symm
      have h2 := hw ((c :: a).getLast hne) (by rw [hv]; exact List.mem_append_left _ (List.getLast_mem hne))
      rw [h1] at h2
      simp at h2

theorem replGo_plain {f t a r : Str} {d : Char} {f' : Str} (hf : f = d :: f') (ha : d ∉ a) :
    replGo f t 0 (a ++ r) = a ++ replGo f t 0 r := by
  induction a with
  | nil => rfl
  | cons c a ih =>
    simp only [List.mem_cons, not_or] at ha
    rw [List.cons_append, replGo_nomatch, ih ha.2]
    · rfl
    · rintro ⟨x, hx⟩
      rw [hf] at hx
      simp only [List.cons_append, List.cons.injEq] at hx
      exact ha.1 hx.1

theorem trimEnd_keep {a : Str} {c : Char} (hc : isWs c = false) (u : Str) : ∃ v, trimEnd (a ++ [c] ++ u) = a ++ [c] ++ v := by
  unfold trimEnd
  rw [List.reverse_append]
  have : ∀ t : Str, ∃ v, ((t ++ (a ++ [c]).reverse).dropWhile isWs) = v ++ (a ++ [c]).reverse := by
    intro t
    induction t with
    | nil => exact ⟨[], by simp [List.dropWhile_cons, hc]⟩
    | cons d t ih =>
      rw [List.cons_append, List.dropWhile_cons]
      split
      · exact ih
      · exact ⟨d :: t, rfl⟩
  obtain ⟨v, hv⟩ := this u.reverse
  exact ⟨v.reverse, by rw [hv]; simp⟩

theorem produces_plain {env : Env} {R : Rec} {only a s y : Str} {sh sh' : Shared} {inh inh' : Inherit} {e : Bool}
    (ha : '{' ∉ a) (hx : sh.exit = false) (h : Produces env R only (a ++ s) sh inh e y sh' inh') :
    ∃ z, y = a ++ z ∧ Produces env R only s sh inh e z sh' inh' := by
  induction a generalizing y with
  | nil => exact ⟨y, rfl, h⟩
  | cons c a ih =>
    simp only [List.mem_cons, not_or] at ha
    rcases produces_chr (s := a ++ s) (c := c) (fun ⟨x, hx⟩ => ha.1 (by simp only [List.cons_append, List.cons.injEq] at hx; exact hx.1)) h with h1 | ⟨_, z, rfl, h2⟩
    · rw [hx] at h1; simp at h1
    · obtain ⟨z', rfl, h3⟩ := ih ha.2 h2
      exact ⟨z', rfl, h3⟩

/-- **C69 (upline).** The white space before a BIF with the modifier `^` is taken out of the final text: after the text `a`, which does
not end in white space, comes the output of the BIF. -/
theorem C69_upline (env : Env) (R : Rec) (sh sh' : Shared) (inh inh' : Inherit) (e : Bool) (a w mods name src s only y : Str)
    (hm : Mods mods) (hn : Named name) (hup : '^' ∈ mods) (hb : IsBif (bifText mods name src))
    (hsel : Selected inh mods name only) (hx : sh.exit = false)
    (hc : ¬ (inh.alias = c!"coalesce" ∧ inh.lastCoalesceOut = true))
    (ha1 : '{' ∉ a) (ha2 : '&' ∉ a) (ha3 : ∀ b c, a = b ++ [c] → isWs c = false) (hw : Blank w)
    (h : Produces env R only (a ++ w ++ bifText mods name src ++ s) sh inh e y sh' inh') :
    ∃ z, y = a ++ w ++ c!"&#9224" ++ z ∧ replacements y = a ++ replacements z := by
  have hw1 : '{' ∉ w := fun hmem => absurd (hw _ hmem) (by decide)
  rw [List.append_assoc] at h
  obtain ⟨y1, rfl, h1⟩ := produces_plain (a := a ++ w) (by simp [ha1, hw1]) hx h
  rcases produces_block (.inl hb) h1 with h2 | ⟨_, h2, _⟩ | ⟨_, _, _, x, z, sh1, inh1, rfl, hr, _⟩
  · rw [hx] at h2; simp at h2
  · rcases h2 with h2 | h2
    · exact absurd h2 (fun h2 => not_both hb h2)
    · exact absurd h2 hc
  · obtain ⟨u, rfl, _⟩ := C69_output env R sh sh1 inh inh1 mods name src only x hm hn hsel hr
    rw [if_pos hup]
    obtain ⟨v, hv⟩ : ∃ v, trim (c!"&#9224" ++ u) = c!"&#9224" ++ v := by
      have h1 : trimStart (c!"&#9224" ++ u) = c!"&#9224" ++ u := by
        simp [trimStart, List.dropWhile_cons, show isWs '&' = false by decide]
      unfold trim
      rw [h1]
      exact trimEnd_keep (a := c!"&#922") (c := '4') (by decide) u
    rw [hv]
    refine ⟨v ++ z, by simp, ?_⟩
    unfold replacements replaceAll
    rw [if_neg (by decide), if_neg (by decide)]
    have : a ++ w ++ (c!"&#9224" ++ v ++ z) = a ++ (w ++ backspace ++ (v ++ z)) := by simp [backspace]
    rw [this, dropBackspace_plain ha2 ha3, dropBackspace_cut hw, replGo_plain rfl ha2]

/-- White space around values and in front of `^` goes; other white space stays. -/
example : Sample.outOf (Sample.go [(c!"x", .str c!"  X ")] c!"[ {:;x:} ]  {:^code; y :}  {:code; z :}") =
    some (c!"[ X ]y  z", c!"200") := by decide +kernel

/-- The premises of `C69_upline` are met by such a text. -/
example : Mods c!"^" ∧ Named c!"code" ∧ IsBif (bifText c!"^" c!"code" c!" y ") ∧ Selected Inherit.new c!"^" c!"code" [] ∧
    Blank c!" \n" := by
  refine ⟨by unfold Mods; decide, ⟨by decide, ?_⟩, ⟨c!"^code; y ", rfl, ?_, by decide⟩, .inl rfl, by unfold Blank; decide⟩
  · intro c r hc
    injection hc with h1 h2
    subst h1
    decide
  · exact bal_chars (s := c!"^code; y ") (by decide) (by decide)

end Nts
