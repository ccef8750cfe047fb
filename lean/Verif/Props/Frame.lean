import Verif.Lemmas.Guard
import Verif.Lemmas.Ops
import Verif.Lemmas.BifText
import Verif.Props.Invariants
/-
C76: only the BIFs that are documented to change something change it.
-/
set_option autoImplicit false
namespace Nts
open Spec

/-- The name of a BIF (see `bifName_text`). -/
def Spec.bifName (raw : Str) : Str :=
  match bifSplit raw with
  | some (n, _) => n.dropWhile (fun c => c == '&' || c == '!' || c == '^' || c == '+')
  | none => []

theorem bifName_text (mods name src : Str) (hm : Mods mods) (hn : Named name) : bifName (bifText mods name src) = name := by
  unfold bifName
  rw [bifSplit_text mods name src hm hn]
  dsimp only
  rw [List.dropWhile_append]
  have : mods.dropWhile (fun c => c == '&' || c == '!' || c == '^' || c == '+') = [] := by
    clear hn
    induction mods with
    | nil => rfl
    | cons c r ih =>
      have hc := hm c (by simp)
      rw [List.dropWhile_cons, if_pos (by rcases hc with rfl | rfl | rfl | rfl <;> decide)]
      exact ih (fun d hd => hm d (List.mem_cons_of_mem _ hd))
  rw [this]
  simp only [List.isEmpty_nil, if_true]
  cases name with
  | nil => rfl
  | cons c r =>
    obtain ⟨_, h1, h2, h3, h4⟩ := hn.2 c r rfl
    simp [h1, h2, h3, h4]

theorem setModifiers_name {n : Str} : ∀ {b b' : BifS} {n' : Str}, setModifiers b n = some (b', n') →
    n' = n.dropWhile (fun c => c == '&' || c == '!' || c == '^' || c == '+') := by
  induction n with
  | nil => intro b b' n' h; simp [setModifiers] at h; simp [h.2]
  | cons c r ih =>
    intro b b' n' h
    unfold setModifiers at h
    by_cases h1 : c = '&'
    · rw [if_pos h1] at h; rw [ih h]; simp [h1]
    · rw [if_neg h1] at h
      by_cases h2 : c = '!'
      · rw [if_pos h2] at h; rw [ih h]; simp [h2]
      · rw [if_neg h2] at h
        by_cases h3 : c = '^'
        · rw [if_pos h3] at h; rw [ih h]; simp [h3]
        · rw [if_neg h3] at h
          by_cases h4 : c = '+'
          · rw [if_pos h4] at h; rw [ih h]; simp [h4]
          · rw [if_neg h4] at h
            split at h
            · simp at h
              rw [← h.2]
              simp [h1, h2, h3, h4]
            · simp at h

/-- The evaluation of texts (as `runBlocks`) that is given up as soon as a text to be evaluated, at whatever depth, contains a BIF with one
of the names `bad`. Where it succeeds it is the evaluation (`C76_same`). -/
def Spec.without (env : Env) (bad : List Str) : Nat → Rec
  | 0 => fun _ _ _ _ _ => .oof
  | n + 1 => fun sh inh src blocks only =>
    if ∃ b ∈ blocks, bifName (slice src b.1 b.2) ∈ bad then .oof
    else blocksGo env (without env bad n) src only 0 [] blocks sh inh

/-- Given up, or the same. -/
def Below {α : Type} (gone a b : α) : Prop := a = gone ∨ a = b

theorem parseSrc_below {R R' : Rec} (h : ∀ sh inh src bs only, Below .oof (R sh inh src bs only) (R' sh inh src bs only))
    (sh : Shared) (inh : Inherit) (src only : Str) : Below .oof (parseSrc R sh inh src only) (parseSrc R' sh inh src only) := by
  unfold parseSrc
  split
  · exact .inr rfl
  · exact h _ _ _ _ _

theorem runChild_below {s : St} {scope : Bool} {f f' : Shared → Inherit → PRes} (h : ∀ sh inh, Below .oof (f sh inh) (f' sh inh)) :
    Below .oof (runChild s scope f) (runChild s scope f') := by
  unfold runChild
  dsimp only
  rcases h (if scope then createBlockSchema s.sh s.inh else (s.sh, s.inh)).1 (childInherit s) with h | h
  · rw [h]; exact .inl rfl
  · rw [h]; exact .inr rfl

theorem step_below {R R' : Rec} (h : ∀ sh inh src bs only, Below .oof (R sh inh src bs only) (R' sh inh src bs only)) (o : Op) (s : St) :
    Below .oof (step R o s) (step R' o s) := by
  cases o with
  | child src scope => exact runChild_below (fun _ _ => parseSrc_below h _ _ _ _)
  | childBlocks src bs scope => exact runChild_below (fun _ _ => h _ _ _ _ _)
  | pushFile k p => cases k <;> exact .inr rfl
  | _ => exact .inr rfl

theorem run_below {R R' : Rec} (h : ∀ sh inh src bs only, Below .oof (R sh inh src bs only) (R' sh inh src bs only)) {α : Type}
    (p : Prog α) : ∀ s, Below .oof (run R p s) (run R' p s) := by
  induction p with
  | op o k ih =>
    intro s
    simp only [run]
    rcases step_below h o s with h1 | h1
    · rw [h1]; exact .inl rfl
    · rw [h1]
      cases step R' o s with
      | ok r s' => exact ih r s'
      | panic p => exact .inr rfl
      | oof => exact .inr rfl
  | _ => intro s; exact .inr rfl

theorem runBif_below {R R' : Rec} (env : Env) (h : ∀ sh inh src bs only, Below .oof (R sh inh src bs only) (R' sh inh src bs only))
    (sh : Shared) (inh : Inherit) (raw only : Str) : Below .oof (runBif env R sh inh raw only) (runBif env R' sh inh raw only) := by
  unfold runBif
  split
  · exact .inr rfl
  · unfold bifParse
    split
    · exact .inr rfl
    · split
      · exact .inr rfl
      · split
        · exact .inr rfl
        · next b name' _ =>
          rcases run_below h (bifBody env name') _ with h1 | h1
          · rw [h1]; exact .inl rfl
          · rw [h1]; exact .inr rfl

theorem blocksGo_below {R R' : Rec} (env : Env) (h : ∀ sh inh src bs only, Below .oof (R sh inh src bs only) (R' sh inh src bs only))
    (src only : Str) (bs : List (Nat × Nat)) : ∀ prevEnd out sh inh,
    Below .oof (blocksGo env R src only prevEnd out bs sh inh) (blocksGo env R' src only prevEnd out bs sh inh) := by
  induction bs with
  | nil => intro _ _ _ _; exact .inr rfl
  | cons b r ih =>
    intro prevEnd out sh inh
    obtain ⟨s, e⟩ := b
    simp only [blocksGo]
    split
    · exact .inr rfl
    · split
      · exact ih _ _ _ _
      · rcases runBif_below env h sh inh (slice src s e) only with h1 | h1
        · rw [h1]; exact .inl rfl
        · rw [h1]
          cases runBif env R' sh inh (slice src s e) only with
          | ok x sh' inh' => exact ih _ _ _ _
          | panic p => exact .inr rfl
          | oof => exact .inr rfl

theorem without_below (env : Env) (bad : List Str) (n : Nat) (sh : Shared) (inh : Inherit) (src : Str) (bs : List (Nat × Nat)) (only : Str) :
    Below .oof (without env bad n sh inh src bs only) (runBlocks env n sh inh src bs only) := by
  induction n generalizing sh inh src bs only with
  | zero => exact .inl rfl
  | succ n ih =>
    unfold without runBlocks
    split
    · exact .inl rfl
    · exact blocksGo_below env ih _ _ _ _ _ _ _

/-- **C76 (the same evaluation).** Where `without` succeeds, it is the evaluation. -/
theorem C76_same (env : Env) (bad : List Str) (n : Nat) (sh sh' : Shared) (inh inh' : Inherit) (src only x : Str) (bs : List (Nat × Nat))
    (h : without env bad n sh inh src bs only = .ok x sh' inh') : runBlocks env n sh inh src bs only = .ok x sh' inh' := by
  rcases without_below env bad n sh inh src bs only with h1 | h1
  · rw [h1] at h; exact absurd h (fun h => nomatch h)
  · rw [← h1, h]

section
variable {P : Op → Prop} {Rel : Shared → Shared → Prop}

theorem runBif_named (hc : GSteps (fun _ => True) P Rel) {R : Rec} (env : Env) (hR : GRec (fun _ => True) Rel R)
    (sh : Shared) (inh : Inherit) (raw only : Str) (hbody : OpsG (fun _ => True) P (bifBody env (bifName raw))) :
    (runBif env R sh inh raw only).Post (Rel sh) := by
  unfold runBif
  split
  · trivial
  · next hlt =>
    have hcount := hc.count sh (by omega)
    unfold bifParse
    split
    · split
      · exact hcount
      · split
        · trivial
        · exact hc.trans _ _ _ hcount (hc.err _ _)
    · next name src hsp =>
      split
      · exact hcount
      · split
        · trivial
        · next b name' hmod =>
          have hname : name' = bifName raw := by
            unfold bifName
            rw [hsp]
            exact setModifiers_name hmod
          rw [← hname] at hbody
          have := bifResult_g hc env (run_g hc hR _ hbody
            { sh := { sh with count := sh.count + 1 }, inh := { { inh with bifCount := sh.count + 1 } with inOnly := true },
              b := { b with name := name', alias := name' }, raw := raw, only := only } trivial)
          revert this
          generalize bifResult env _ = res
          intro this
          cases res with
          | ok o sh' inh' => exact hc.trans _ _ _ hcount this
          | panic p => trivial
          | oof => trivial

theorem blocksGo_named (hc : GSteps (fun _ => True) P Rel) {R : Rec} (env : Env) (hR : GRec (fun _ => True) Rel R)
    (src only : Str) (bs : List (Nat × Nat)) (hbody : ∀ b ∈ bs, OpsG (fun _ => True) P (bifBody env (bifName (slice src b.1 b.2)))) :
    ∀ prevEnd out sh inh, (blocksGo env R src only prevEnd out bs sh inh).Post (Rel sh) := by
  induction bs with
  | nil => intro _ _ sh _; exact hc.refl sh
  | cons b r ih =>
    intro prevEnd out sh inh
    have hb := hbody b (by simp)
    have ih := ih (fun b' hb' => hbody b' (List.mem_cons_of_mem _ hb'))
    obtain ⟨s, e⟩ := b
    simp only [blocksGo]
    split
    · exact hc.refl sh
    · split
      · exact ih _ _ _ _
      · have h1 := runBif_named hc env hR sh inh (slice src s e) only hb
        cases hx : runBif env R sh inh (slice src s e) only with
        | ok x sh' inh' =>
          rw [hx] at h1
          have h2 := ih e ((if prevEnd < s then out ++ slice src prevEnd s else out) ++ x) sh' inh'
          simp only
          revert h2
          generalize blocksGo env R src only e _ r sh' inh' = res
          intro h2
          cases res with
          | ok o sh2 inh2 => exact hc.trans _ _ _ h1 h2
          | panic p => trivial
          | oof => trivial
        | panic p => trivial
        | oof => trivial

theorem without_rel (hc : GSteps (fun _ => True) P Rel) (env : Env) (bad : List Str)
    (hbody : ∀ name, name ∉ bad → ∀ o, Effects name o → P o) (n : Nat) : GRec (fun _ => True) Rel (without env bad n) := by
  induction n with
  | zero => intro sh inh src bs only _; trivial
  | succ n ih =>
    intro sh inh src bs only _
    unfold without
    split
    · trivial
    · next hb =>
      refine blocksGo_named hc env ih src only bs (fun b hm => ?_) 0 [] sh inh
      exact OpsG_of (OpsIn_mono (hbody _ (fun h => hb ⟨b, hm, h⟩)) (effects env _))

end

/-- The status is as before, or it is the one of an unmatched delimiter. -/
def Spec.StatusKept (a b : Shared) : Prop :=
  b.exit = a.exit ∧ b.redirectJs = a.redirectJs ∧
    ((b.statusCode = a.statusCode ∧ b.statusParam = a.statusParam ∧ b.statusText = a.statusText) ∨ b.statusCode = c!"500")

/-- Operations that do not set the status. -/
def NoStatus : Op → Prop
  | .setStatus _ _ => False
  | .setExit _ => False
  | .setRedirectJs _ => False
  | _ => True

theorem statusKept_steps : GSteps (fun _ => True) NoStatus StatusKept where
  refl _ := ⟨rfl, rfl, .inl ⟨rfl, rfl, rfl⟩⟩
  trans a b c h1 h2 := by
    refine ⟨h2.1.trans h1.1, h2.2.1.trans h1.2.1, ?_⟩
    rcases h2.2.2 with h | h
    · rcases h1.2.2 with g | g
      · exact .inl ⟨h.1.trans g.1, h.2.1.trans g.2.1, h.2.2.trans g.2.2⟩
      · exact .inr (h.1.trans g)
    · exact .inr h
  keep _ _ _ _ := trivial
  indir _ _ := ⟨rfl, rfl, .inl ⟨rfl, rfl, rfl⟩⟩
  unmatched _ _ := ⟨rfl, rfl, .inr rfl⟩
  err _ _ := ⟨rfl, rfl, .inl ⟨rfl, rfl, rfl⟩⟩
  tick _ _ := ⟨rfl, rfl, .inl ⟨rfl, rfl, rfl⟩⟩
  write _ _ _ _ _ _ := ⟨rfl, rfl, .inl ⟨rfl, rfl, rfl⟩⟩
  flags _ _ := ⟨rfl, rfl, .inl ⟨rfl, rfl, rfl⟩⟩
  status _ _ _ _ h := h.elim
  exit _ _ _ h := h.elim
  redirectJs _ _ _ h := h.elim
  alreadyJs _ := ⟨rfl, rfl, .inl ⟨rfl, rfl, rfl⟩⟩
  data _ _ _ _ _ _ _ := ⟨rfl, rfl, .inl ⟨rfl, rfl, rfl⟩⟩
  moveto _ _ _ _ _ _ _ := ⟨rfl, rfl, .inl ⟨rfl, rfl, rfl⟩⟩
  count _ _ := ⟨rfl, rfl, .inl ⟨rfl, rfl, rfl⟩⟩

/-- **C76 (status).** An evaluation, to whatever depth, in which no `exit` and no `redirect` occurs does not end the page and does not set
the status - except to 500, for unmatched delimiters. -/
theorem C76_status (env : Env) (n : Nat) (sh sh' : Shared) (inh inh' : Inherit) (src only x : Str) (bs : List (Nat × Nat))
    (h : without env [c!"exit", c!"redirect"] n sh inh src bs only = .ok x sh' inh') : StatusKept sh sh' := by
  have := without_rel statusKept_steps env [c!"exit", c!"redirect"] (fun name hn o ho => by
    simp only [List.mem_cons, List.not_mem_nil, or_false] at hn
    cases o with
    | setStatus c p => exact hn ho
    | setExit b => exact hn ho
    | setRedirectJs b => exact hn (.inr ho)
    | _ => trivial) n sh inh src bs only trivial
  rw [h] at this
  exact this

/-- Operations that do not set the entry `k` of the schema. -/
def NoEntry (k : Str) : Op → Prop
  | .setData _ _ => k ≠ c!"data"
  | .setMoveto _ _ => k ≠ c!"__moveto"
  | _ => True

theorem entry_steps {k : Str} (hk : k ≠ c!"__error") :
    GSteps (fun _ => True) (NoEntry k) (fun a b => b.schema.index k = a.schema.index k) where
  refl _ := rfl
  trans _ _ _ h1 h2 := h2.trans h1
  keep _ _ _ _ := trivial
  indir _ _ := rfl
  unmatched _ _ := rfl
  err _ _ := pushError_index hk
  tick _ _ := rfl
  write _ _ _ _ _ _ := rfl
  flags _ _ := rfl
  status _ _ _ _ _ := rfl
  exit _ _ _ _ := rfl
  redirectJs _ _ _ _ := rfl
  alreadyJs _ := rfl
  data _ _ _ _ _ hp h := index_modIndex_ne h (Ne.symm hp)
  moveto _ _ _ _ _ hp h := index_modIndex_ne h (Ne.symm hp)
  count _ _ := rfl

/-- **C76 (data).** An evaluation in which no `each`, `for`, `eval` (and no `count`) occurs does not change the data of the schema. -/
theorem C76_data (env : Env) (n : Nat) (sh sh' : Shared) (inh inh' : Inherit) (src only x : Str) (bs : List (Nat × Nat))
    (h : without env [c!"each", c!"for", c!"eval", c!"count"] n sh inh src bs only = .ok x sh' inh') :
    sh'.schema.index c!"data" = sh.schema.index c!"data" := by
  have := without_rel (entry_steps (k := c!"data") (by decide)) env [c!"each", c!"for", c!"eval", c!"count"] (fun name hn o ho => by
    simp only [List.mem_cons, List.not_mem_nil, or_false] at hn
    cases o with
    | setData _ _ => exact fun _ => hn ho
    | setMoveto _ _ => exact fun h => absurd h (by decide)
    | _ => trivial) n sh inh src bs only trivial
  rw [h] at this
  exact this

/-- **C76 (moveto).** An evaluation in which no `moveto` occurs does not remember any code to be moved. -/
theorem C76_moveto (env : Env) (n : Nat) (sh sh' : Shared) (inh inh' : Inherit) (src only x : Str) (bs : List (Nat × Nat))
    (h : without env [c!"moveto"] n sh inh src bs only = .ok x sh' inh') :
    sh'.schema.index c!"__moveto" = sh.schema.index c!"__moveto" := by
  have := without_rel (entry_steps (k := c!"__moveto") (by decide)) env [c!"moveto"] (fun name hn o ho => by
    simp only [List.mem_cons, List.not_mem_nil, or_false] at hn
    cases o with
    | setData _ _ => exact fun h => absurd h (by decide)
    | setMoveto _ _ => exact fun _ => hn ho
    | _ => trivial) n sh inh src bs only trivial
  rw [h] at this
  exact this

/-- Operations that do not write files. -/
def NoWrite : Op → Prop
  | .writeFile _ _ _ => False
  | _ => True

theorem files_steps : GSteps (fun _ => True) NoWrite (fun a b => b.w.fs = a.w.fs) where
  refl _ := rfl
  trans _ _ _ h1 h2 := h2.trans h1
  keep _ _ _ _ := trivial
  indir _ _ := rfl
  unmatched _ _ := rfl
  err _ _ := rfl
  tick _ _ := rfl
  write _ _ _ _ _ h := h.elim
  flags _ _ := rfl
  status _ _ _ _ _ := rfl
  exit _ _ _ _ := rfl
  redirectJs _ _ _ _ := rfl
  alreadyJs _ := rfl
  data _ _ _ _ _ _ _ := rfl
  moveto _ _ _ _ _ _ _ := rfl
  count _ _ := rfl

/-- **C76 (files).** An evaluation in which no `cache` and no `obj` occurs does not write any file. -/
theorem C76_files (env : Env) (n : Nat) (sh sh' : Shared) (inh inh' : Inherit) (src only x : Str) (bs : List (Nat × Nat))
    (h : without env [c!"cache", c!"obj"] n sh inh src bs only = .ok x sh' inh') : sh'.w.fs = sh.w.fs := by
  have := without_rel files_steps env [c!"cache", c!"obj"] (fun name hn o ho => by
    simp only [List.mem_cons, List.not_mem_nil, or_false] at hn
    cases o with
    | writeFile _ _ _ => exact hn ho
    | _ => trivial) n sh inh src bs only trivial
  rw [h] at this
  exact this

/-- Was the evaluation of this text finished? -/
def Sample.finishes (bad : List Str) (src : Str) : Option Str :=
  match extractBlocks src with
  | .ok bs =>
    match without Sample.env bad 5 (Sample.shared (Sample.schema 1000 [(c!"x", .str c!"X")] Sample.inherit)) Inherit.new src bs [] with
    | .ok x _ _ => some x
    | _ => none
  | .error _ => none

set_option maxRecDepth 10000 in
/-- The premises are met, by nested evaluations; and not by those with the BIF. -/
example :
    Sample.finishes [c!"exit", c!"redirect"] c!"a{:code; {:;x:}{:!bool; y >> n :} :}{:each; x k v >> e :}" = some c!"aXn" ∧
    Sample.finishes [c!"exit", c!"redirect"] c!"a{:code; {:;x:}{:!bool; y >> {:!exit; 404 :} :} :}" = none ∧
    Sample.finishes [c!"each", c!"for", c!"eval", c!"count"] c!"{:filled; x >> {:;x:} :}" = some c!"X" := by
  refine ⟨?_, ?_, ?_⟩ <;> decide +kernel

end Nts
