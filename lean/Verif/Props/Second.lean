import Verif.Spec.Second
import Verif.Props.Only
import Verif.Props.Answer
import Verif.Props.Lang
import Verif.Props.Cache
import Verif.Spec.Sample
/-
C120: what the pass over the excluded parts does with the rest of the page.
-/
set_option autoImplicit false
namespace Nts
open Spec

theorem takeWhile_ne (d : Char) (a b : Str) (h : d ∉ a) : (a ++ [d] ++ b).takeWhile (· ≠ d) = a := by
  induction a with
  | nil => simp
  | cons c a ih =>
    simp only [List.mem_cons, not_or] at h
    simp only [List.cons_append]
    rw [List.takeWhile_cons_of_pos (by simp; exact fun e => h.1 e.symm)]
    rw [ih h.2]

theorem other_split {b full src : Str} (h : Other b) (hs : bifSplit b = some (full, src)) : contains c!"!cache" full = false := by
  obtain ⟨⟨x, rfl, _, _⟩, h2⟩ := h
  unfold bifSplit at hs
  rw [show bifOpen = c!"{:" from rfl, show bifClose = c!":}" from rfl, stripPrefixSuffix_mid] at hs
  cases hp : splitOnce c!";" x with
  | none => rw [hp] at hs; cases hs
  | some p =>
    obtain ⟨u, v⟩ := p
    rw [hp] at hs
    simp only [Option.map_some, Option.some.injEq, Prod.mk.injEq] at hs
    obtain ⟨rfl, _⟩ := hs
    obtain ⟨rfl, hn⟩ := (splitOnce_eq_some (by decide)).1 hp
    cases hc : contains c!"!cache" u with
    | false => rfl
    | true =>
      exfalso
      apply h2
      have hu : ';' ∉ u := by
        intro hm
        obtain ⟨p, q, rfl⟩ := List.append_of_mem hm
        have := hn p (q ++ c!";" ++ v) (by simp)
        simp at this
        omega
      rw [show c!"{:" ++ (u ++ c!";" ++ v) ++ c!":}" = (c!"{:" ++ u) ++ [';'] ++ (v ++ c!":}") by simp]
      rw [takeWhile_ne _ _ _ (by simp [hu])]
      obtain ⟨p, q, hpq⟩ := (contains_iff (by decide)).1 hc
      exact ⟨c!"{:" ++ p, q, by rw [← hpq]; simp⟩

/-- A BIF that is not selected is left as it is. -/
theorem other_run (env : Env) (R : Rec) {b : Str} (hb : Other b) {sh : Shared} {inh : Inherit} (hi : inh.inOnly = false) (hc : sh.count < sh.max) :
    runBif env R sh inh b c!"!cache" = .ok b (moreBifs 1 sh) { inh with bifCount := sh.count + 1 } := by
  unfold runBif
  rw [if_neg (by omega)]
  unfold bifParse
  cases hs : bifSplit b with
  | none => rfl
  | some p =>
    obtain ⟨full, src⟩ := p
    dsimp only
    rw [if_pos (by rw [other_split hb hs, hi]; rfl)]
    rfl

/-- How many BIFs were counted before does not matter for a BIF. -/
theorem runBif_bifCount (env : Env) (R : Rec) (sh : Shared) (inh : Inherit) (j : Nat) (b only : Str) :
    runBif env R sh { inh with bifCount := j } b only = runBif env R sh inh b only := rfl

/-- **C120 (before).** For all texts, states and definitions: the BIFs of a page that stand before the first excluded part are left as they are by the
pass over the excluded parts, and are counted; that pass goes on from there. -/
theorem before_run {env : Env} {R : Rec} {rest a : Str} {k : Nat} (h : Before rest a k) : ∀ {sh sh' : Shared} {inh inh' : Inherit} {e : Bool} {y : Str},
    sh.exit = false → inh.inOnly = false → inh.alias ≠ c!"coalesce" → sh.count + k ≤ sh.max →
    (∀ j, Produces env R c!"!cache" rest (moreBifs k sh) { inh with bifCount := j } e y sh' inh') →
    Produces env R c!"!cache" (a ++ rest) sh inh e (a ++ y) sh' inh' := by
  induction h with
  | nil =>
    intro sh sh' inh inh' e y _ _ _ _ h
    exact h inh.bifCount
  | chr c h1 _ _ ih =>
    intro sh sh' inh inh' e y hx hi ha hc h
    exact .chr c h1 (by simp [hx]) (ih hx hi ha hc h)
  | @one b a k hb _ ih =>
    intro sh sh' inh inh' e y hx hi ha hc h
    rw [List.append_assoc, List.append_assoc]
    refine .evaluated hx hb.1 (fun h => ha h.1) (other_run env R hb hi (by omega)) (ih (sh := moreBifs 1 sh) hx hi ha ?_ ?_)
    · show sh.count + 1 + k ≤ sh.max
      omega
    · intro j
      have e1 : moreBifs k (moreBifs 1 sh) = moreBifs (k + 1) sh := by
        unfold moreBifs
        simp [Nat.add_assoc, Nat.add_comm 1 k]
      rw [e1]
      exact h j

theorem produces_errorStays {env : Env} {n : Nat} {only s y : Str} {sh sh' : Shared} {inh inh' : Inherit} {e : Bool}
    (h : Produces env (runBlocks env n) only s sh inh e y sh' inh') : ErrorStays sh sh' := by
  induction h with
  | nil => exact id
  | stop => exact id
  | chr _ _ _ _ ih => exact ih
  | comment _ _ _ ih => exact ih
  | skipped _ _ _ _ _ ih => exact ih
  | @evaluated b s x y sh sh1 sh' inh inh1 inh' e h1 h2 h3 h4 hr ih =>
    have := runBif_rel errorStays_closed env (errorStays_rec env n) (fun _ => OpsIn_true _) sh inh b only
    rw [h4] at this
    exact fun hh => ih (this hh)

/-- What follows the first BIF that is evaluated is evaluated as code. -/
theorem produces_carried {env : Env} {n : Nat} {ol s y : Str} {sh sh' : Shared} {inh inh' : Inherit} {e : Bool}
    (h : Produces env (runBlocks env n) [] s sh inh e y sh' inh') : inh.inOnly = true → sh'.hasError = false →
    Produces env (runBlocks env n) ol s sh inh e y sh' inh' := by
  induction h with
  | nil => intro _ _; exact .nil _ _
  | stop h1 h2 => intro _ _; exact .stop h1 h2
  | chr c h1 h2 _ ih => intro hi he; exact .chr c h1 h2 (ih hi he)
  | comment h1 h2 _ ih => intro hi he; exact .comment h1 h2 (ih hi he)
  | skipped h1 h2 h3 h4 _ ih => intro hi he; exact .skipped h1 h2 h3 h4 (ih hi he)
  | @evaluated b s x y sh sh1 sh' inh inh1 inh' e h1 h2 h3 h4 hr ih =>
    intro hi he
    have he1 : sh1.hasError = false := stays_false (produces_errorStays hr) he
    have := carried_bif (carried ol env n) (errorStays_rec env n) hi h4 he1
    exact .evaluated h1 h2 h3 this.1 (ih this.2 he)

/-- The pass over a page that starts with an excluded part evaluates all of it, like a template. -/
theorem excluded_run {env : Env} {n : Nat} {src s y : Str} {sh sh' : Shared} {inh inh' : Inherit} {e : Bool} (hx : sh.exit = false)
    (hal : inh.alias ≠ c!"coalesce") (hb : IsBif (bifText c!"!" c!"cache" src))
    (h : Produces env (runBlocks env n) [] (bifText c!"!" c!"cache" src ++ s) sh inh e y sh' inh') (he : sh'.hasError = false) (j : Nat) :
    Produces env (runBlocks env n) c!"!cache" (bifText c!"!" c!"cache" src ++ s) sh { inh with bifCount := j } e y sh' inh' := by
  rcases produces_block (.inl hb) h with ⟨h0, _⟩ | ⟨_, h0 | h0, _⟩ | ⟨_, _, _, x, y', sh1, inh1, rfl, h1, h2⟩
  · rw [hx] at h0; cases h0
  · exact (not_both hb h0).elim
  · exact absurd h0.1 hal
  have he1 : sh1.hasError = false := stays_false (produces_errorStays h2) he
  have := carried_selected (carried c!"!cache" env n) (errorStays_rec env n) (by
    intro full src' hs
    rw [bifSplit_text _ _ _ (by unfold Mods; decide) named_cache] at hs
    simp only [Option.some.injEq, Prod.mk.injEq] at hs
    rw [← hs.1]
    rfl) h1 he1
  exact .evaluated hx hb (fun h => hal h.1) this.1 (produces_carried h2 this.2 he)

theorem before_wf {rest a : Str} {k : Nat} (h : Before rest a k) : ∀ {p : Nat} {l : List (Nat × Nat)}, WellFormed (p + a.length) rest l →
    ∃ l', WellFormed p (a ++ rest) l' := by
  induction h with
  | nil => intro p l hw; exact ⟨l, by simpa using hw⟩
  | @chr a k c h1 h2 _ ih =>
    intro p l hw
    obtain ⟨l', hl⟩ := ih (p := p + 1) (l := l) (by rw [show p + 1 + a.length = p + (c :: a).length by simp; omega]; exact hw)
    exact ⟨l', .chr c h1 h2 hl⟩
  | @one b a k hb _ ih =>
    intro p l hw
    obtain ⟨l', hl⟩ := ih (p := p + b.length) (l := l) (by rw [Nat.add_assoc, ← List.length_append]; exact hw)
    rw [List.append_assoc]
    exact ⟨_, .block (.inl hb.1) hl⟩

theorem initShared_inOnly {env : Env} {filePath raw raw' : Str} {sh sh' : Shared} {inh : Inherit}
    (h : initShared env filePath raw sh = .ok (raw', sh', inh)) : inh.inOnly = false ∧ inh.alias = [] := by
  unfold initShared at h
  split at h
  · simp at h
  dsimp only at h
  split at h
  · simp at h
  split at h
  · simp at h
  simp only [Except.ok.injEq, Prod.mk.injEq] at h
  obtain ⟨rfl, rfl, rfl⟩ := h
  exact ⟨rfl, rfl⟩

/-- **C120 (the second pass).** For every template and schema (`hinit`: what the render starts with), every state `sh` after the first pass
and every page `a ++ rest` it gave, where `rest` starts with an excluded part and `a` has `k` BIFs, none of them an excluded part: the
second pass leaves `a` as it is, to the letter, and evaluates *all* of `rest`, as if it were a template of its own: the excluded parts, and
all other BIFs that come after the first of them.  `hx` is this evaluation; it has no errors. -/
theorem C120_exact (env : Env) (filePath raw raw' : Str) (sh0 sh1 : Shared) (inh : Inherit)
    (hinit : initShared env filePath raw sh0 = .ok (raw', sh1, inh)) (sh sh' : Shared) (inh' : Inherit) (a src s x : Str) (k : Nat)
    (hb : IsBif (bifText c!"!" c!"cache" src)) (hwf : ∀ p, ∃ l, WellFormed p (bifText c!"!" c!"cache" src ++ s) l)
    (ha : Before (bifText c!"!" c!"cache" src ++ s) a k) (hexit : sh.exit = false) (hmax : sh.count + k ≤ sh.max)
    (hx : pass env (moreBifs k sh) inh (bifText c!"!" c!"cache" src ++ s) [] = .ok x sh' inh') (he : sh'.hasError = false) :
    ∃ e y, x = ended e y ∧ pass env sh inh (a ++ (bifText c!"!" c!"cache" src ++ s)) c!"!cache" = .ok (ended e (a ++ y)) sh' inh' := by
  obtain ⟨hi, hal⟩ := initShared_inOnly hinit
  rw [C24_passes hinit] at hx
  obtain ⟨l, hl⟩ := hwf 0
  obtain ⟨e, y, hp, rfl⟩ := (C68_blocks env sh.max _ _ _ _ _ _ _ l hl).1 hx
  refine ⟨e, y, rfl, ?_⟩
  rw [C24_passes hinit]
  obtain ⟨l1, hl1⟩ := hwf (0 + a.length)
  obtain ⟨l2, hl2⟩ := before_wf ha hl1
  refine (C68_blocks env sh.max _ _ _ _ _ _ _ l2 hl2).2 ⟨e, _, before_run ha hexit hi (by show inh.alias ≠ _; rw [hal]; decide) hmax (fun j => ?_), rfl⟩
  exact excluded_run (sh := moreBifs k sh) (inh := { inh with blockCount := inh.blockCount + 1 }) hexit (by show inh.alias ≠ _; rw [hal]; decide) hb hp he j

theorem kept_run {env : Env} {R : Rec} {a : Str} {k : Nat} (h : Before [] a k) : ∀ {sh : Shared} {inh : Inherit},
    sh.exit = false → inh.inOnly = false → inh.alias ≠ c!"coalesce" → sh.count + k ≤ sh.max →
    ∃ inh', Produces env R c!"!cache" a sh inh true a (moreBifs k sh) inh' := by
  induction h with
  | nil =>
    intro sh inh _ _ _ _
    exact ⟨inh, .nil _ _⟩
  | chr c h1 _ _ ih =>
    intro sh inh hx hi ha hc
    obtain ⟨i, h⟩ := ih hx hi ha hc
    exact ⟨i, .chr c (by simpa using h1) (by simp [hx]) h⟩
  | @one b a k hb _ ih =>
    intro sh inh hx hi ha hc
    obtain ⟨i, h⟩ := ih (sh := moreBifs 1 sh) (inh := { inh with bifCount := sh.count + 1 }) hx hi ha (by
      show sh.count + 1 + k ≤ sh.max
      omega)
    have e1 : moreBifs k (moreBifs 1 sh) = moreBifs (k + 1) sh := by
      unfold moreBifs
      simp [Nat.add_assoc, Nat.add_comm 1 k]
    rw [e1] at h
    exact ⟨i, .evaluated hx hb.1 (fun h => ha h.1) (other_run env R hb hi (by omega)) h⟩

/-- **C120 (nothing excluded).** In a page that has no excluded parts, the second pass leaves all BIFs as they are. -/
theorem C120_kept (env : Env) (filePath raw raw' : Str) (sh0 sh1 : Shared) (inh : Inherit)
    (hinit : initShared env filePath raw sh0 = .ok (raw', sh1, inh)) (sh : Shared) (a : Str) (k : Nat)
    (ha : Before [] a k) (hexit : sh.exit = false) (hmax : sh.count + k ≤ sh.max) :
    ∃ inh', pass env sh inh a c!"!cache" = .ok (trim a) (moreBifs k sh) inh' := by
  obtain ⟨hi, hal⟩ := initShared_inOnly hinit
  rw [C24_passes hinit]
  obtain ⟨l, hl⟩ := before_wf ha (p := 0) (.nil _)
  rw [List.append_nil] at hl
  obtain ⟨i, hp⟩ := kept_run (env := env) (R := runBlocks env sh.max) ha (inh := { inh with blockCount := inh.blockCount + 1 }) hexit hi
    (by show inh.alias ≠ _; rw [hal]; decide) hmax
  exact ⟨i, (C68_blocks env sh.max _ _ _ _ _ _ _ l hl).2 ⟨true, _, hp, rfl⟩⟩

/-- **C120 (render).** The same for `render`: when the first pass gives the page `a ++ rest`, the output is made (`endsRender`: moved parts, replacements, error
pages and redirects) of `a` as it is and the evaluation `y` of `rest`. -/
theorem C120_render (env : Env) (n : Nat) (w : World) (t : Tpl) (raw' : Str) (sh0 sh1 : Shared) (inh i : Inherit)
    (hbif : c!"{:" <:+: t.raw) (hnew : Shared.new env w t.schema = some sh0)
    (hinit : initShared env t.filePath t.raw sh0 = .ok (raw', sh1, inh)) (sh sh' : Shared) (inh' : Inherit) (a src s x : Str) (k : Nat)
    (hfirst : pass env sh1 inh raw' [] = .ok (a ++ (bifText c!"!" c!"cache" src ++ s)) sh i)
    (hb : IsBif (bifText c!"!" c!"cache" src)) (hwf : ∀ p, ∃ l, WellFormed p (bifText c!"!" c!"cache" src ++ s) l)
    (ha : Before (bifText c!"!" c!"cache" src ++ s) a k) (hexit : sh.exit = false) (hmax : sh.count + k ≤ sh.max)
    (hx : pass env (moreBifs k sh) inh (bifText c!"!" c!"cache" src ++ s) [] = .ok x sh' inh') (he : sh'.hasError = false) :
    ∃ e y, x = ended e y ∧ (¬ c!"{:!cache;" <:+: ended e (a ++ y) → ∀ out, endsRender sh' (ended e (a ++ y)) = some out →
      ∃ t', t.render env (n + 1) w = .ok t' ∧ t'.out = out ∧ t'.shared = sh') := by
  obtain ⟨e, y, h1, h2⟩ := C120_exact env t.filePath t.raw raw' sh0 sh1 inh hinit sh sh' inh' a src s x k hb hwf ha hexit hmax hx he
  refine ⟨e, y, h1, fun hc out ho => ?_⟩
  have hin : c!"{:!cache;" <:+: a ++ (bifText c!"!" c!"cache" src ++ s) :=
    ⟨a, src ++ c!":}" ++ s, by simp [bifText]⟩
  have hb' : contains bifOpen t.raw = true := (contains_iff (by decide)).2 hbif
  refine ⟨⟨raw', t.filePath, t.schema, sh', out⟩, ?_, rfl, rfl⟩
  unfold Tpl.render
  simp only [hb', Bool.not_true, Bool.false_eq_true, if_false]
  unfold renderWith
  rw [hnew]
  simp only
  rw [hinit]
  simp only
  rw [hfirst]
  simp only
  unfold cacheLoop
  rw [if_pos ((contains_iff (by decide)).2 hin), h2]
  simp only
  rw [cacheLoop_done env inh n _ _ hc]
  simp only [ho]

set_option maxRecDepth 10000 in
/-- **C120 (what fails).** Code that is shown, not evaluated, with the flag `noparse`, is shown when no excluded part comes before it, and is evaluated when
one does; so are data printed by `join`. -/
theorem C120_refuted :
    (Sample.outOf (Sample.go [(c!"s", .str c!"v")] c!"{:code; {:flg; noparse :} >> {:;s:} :}{:cache; /100/ >> {:!cache; x :} :}")).map (·.1) =
      some c!"{:;s:}x" ∧
    (Sample.outOf (Sample.go [(c!"s", .str c!"v")] c!"{:cache; /100/ >> {:!cache; x :} :}{:code; {:flg; noparse :} >> {:;s:} :}")).map (·.1) =
      some c!"xv" ∧
    (Sample.outOf (Sample.go [(c!"a", .arr [.str c!"{:code;{:;s:}:}"]), (c!"s", .str c!"v")] c!"{:join;|a|,|:}{:cache; /100/ >> {:!cache; x :} :}")).map (·.1) =
      some c!"{:code;{:;s:}:}x" ∧
    (Sample.outOf (Sample.go [(c!"a", .arr [.str c!"{:code;{:;s:}:}"]), (c!"s", .str c!"v")] c!"{:cache; /100/ >> {:!cache; x :} :}{:join;|a|,|:}")).map (·.1) =
      some c!"xv" := by
  decide +kernel

/-- A page after the first pass: a BIF shown as text, an excluded part, and another BIF shown as text. -/
def Sample.secondCode : Str := c!" y "
def Sample.secondRest : Str := bifText c!"!" c!"cache" Sample.secondCode ++ c!" {:;x:}"

theorem Sample.second_bif : IsBif (bifText c!"!" c!"cache" Sample.secondCode) := by
  refine ⟨c!"!cache; y ", rfl, ?_, by decide⟩
  repeat (first | exact .nil _ | refine .chr _ (by decide) (by decide) ?_)

theorem Sample.second_other : Other c!"{:;x:}" := by
  refine ⟨⟨c!";x", rfl, ?_, by decide⟩, by decide⟩
  exact .chr _ (by decide) (by decide) (.chr _ (by decide) (by decide) (.nil _))

theorem Sample.second_wf (p : Nat) : ∃ l, WellFormed p Sample.secondRest l :=
  ⟨_, .block (.inl Sample.second_bif) (.chr ' ' (by decide) (by decide) (.block (s := []) (.inl Sample.second_other.1) (.nil _)))⟩

/-- The evaluation of its end. -/
def Sample.secondRun : Option (Str × Bool × Bool × Bool) :=
  match Shared.new Sample.env Sample.world (Sample.schema 1000 [(c!"x", .str c!"v")] Sample.inherit) with
  | none => none
  | some sh0 =>
    match initShared Sample.env c!"f" c!"t" sh0 with
    | .error _ => none
    | .ok (_, sh1, inh) =>
      match pass Sample.env (moreBifs 1 sh1) inh Sample.secondRest [] with
      | .ok x sh' _ => some (x, sh'.hasError, sh1.exit, decide (sh1.count + 1 ≤ sh1.max))
      | _ => none

set_option maxRecDepth 10000 in
theorem Sample.second_run : Sample.secondRun = some (c!"y v", false, false, true) := by decide +kernel

/-- The premises of C120_exact and C120_kept are met. -/
example : ∃ (sh0 sh1 sh' : Shared) (inh inh' : Inherit) (raw' x : Str),
    Shared.new Sample.env Sample.world (Sample.schema 1000 [(c!"x", .str c!"v")] Sample.inherit) = some sh0 ∧
    initShared Sample.env c!"f" c!"t" sh0 = .ok (raw', sh1, inh) ∧
    Before Sample.secondRest c!"{:;x:}" 1 ∧ Before [] c!"{:;x:}" 1 ∧ sh1.exit = false ∧ sh1.count + 1 ≤ sh1.max ∧
    pass Sample.env (moreBifs 1 sh1) inh Sample.secondRest [] = .ok x sh' inh' ∧ sh'.hasError = false ∧ x = c!"y v" := by
  have h := Sample.second_run
  unfold Sample.secondRun at h
  split at h
  · cases h
  · next sh0 h0 =>
    split at h
    · cases h
    · next raw' sh1 inh h1 =>
      split at h
      · next x sh' inh' h2 =>
        simp only [Option.some.injEq, Prod.mk.injEq, decide_eq_true_eq] at h
        exact ⟨sh0, sh1, sh', inh, inh', raw', x, h0, h1, .one (a := []) Sample.second_other .nil, .one (a := []) Sample.second_other .nil, h.2.2.1, h.2.2.2,
          h2, h.2.1, h.1⟩
      · cases h

end Nts
