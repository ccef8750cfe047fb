import Verif.Spec.Unseen
import Verif.Props.HolesAge
import Verif.Props.Steady
/-
C122: with excluded parts, the cache is invisible up to white space.
-/
set_option autoImplicit false
namespace Nts
open Spec

/-! Pieces. -/

theorem trimStart_nil {t : Str} : trimStart t = [] ↔ Blank t := by
  constructor
  · intro h
    obtain ⟨a, ha, h1⟩ := trimStart_eq t
    rw [h, List.append_nil] at ha
    rw [ha]
    exact h1
  · intro h
    have := trimStart_append t []
    rw [if_pos h, List.append_nil] at this
    exact this

theorem trimEnd_nil {t : Str} : trimEnd t = [] ↔ Blank t := by
  constructor
  · intro h
    obtain ⟨a, ha, h1⟩ := trimEnd_eq t
    rw [h, List.nil_append] at ha
    rw [ha]
    exact h1
  · intro h
    have := trimEnd_append [] t
    rw [if_pos h, List.nil_append] at this
    exact this

theorem trimLeft_spec : ∀ (s : List Seg), segHoles (trimLeft s) = segHoles s ∧ segText (trimLeft s) = trimStart (segText s)
  | [] => ⟨rfl, rfl⟩
  | .text t :: s => by
    obtain ⟨h1, h2⟩ := trimLeft_spec s
    by_cases h : trimStart t = []
    · simp only [trimLeft, if_pos h]
      exact ⟨h1, by rw [h2, segText, trimStart_append, if_pos (trimStart_nil.1 h)]⟩
    · simp only [trimLeft, if_neg h]
      exact ⟨rfl, by rw [segText, segText, trimStart_append, if_neg (fun e => h (trimStart_nil.2 e))]⟩
  | .hole l :: s => ⟨rfl, by rw [trimLeft, segText, holeText_start]⟩

theorem trimRight_spec : ∀ (s : List Seg), segHoles (trimRight s) = segHoles s ∧ segText (trimRight s) = trimEnd (segText s)
  | [] => ⟨rfl, rfl⟩
  | .text t :: s => by
    obtain ⟨h1, h2⟩ := trimRight_spec s
    by_cases h : trimEnd (segText s) = []
    · simp only [trimRight, if_pos h]
      refine ⟨h1, ?_⟩
      rw [segText, h2, h, List.append_nil, segText, trimEnd_append, if_pos (trimEnd_nil.1 h)]
    · simp only [trimRight, if_neg h]
      exact ⟨h1, by rw [segText, h2, segText, trimEnd_append, if_neg (fun e => h (trimEnd_nil.2 e))]⟩
  | .hole l :: s => by
    obtain ⟨h1, h2⟩ := trimRight_spec s
    exact ⟨by rw [trimRight, segHoles, h1, segHoles], by rw [trimRight, segText, h2, segText, holeText_end]⟩

theorem trimSegs_unpadded (s : List Seg) : Unpadded s (trimSegs s) :=
  ⟨by rw [trimSegs, (trimRight_spec _).1, (trimLeft_spec _).1], by rw [trimSegs, (trimRight_spec _).2, (trimLeft_spec _).2]; rfl⟩

/-- The pieces with the excluded parts as they are without a cache. -/
def fillBare (k : Kind) : List Seg → Str
  | [] => []
  | .text t :: s => t ++ fillBare k s
  | .hole l :: s => trim (k.bareAll c!"cache" l) ++ fillBare k s

theorem fillBare_append (k : Kind) (a b : List Seg) : fillBare k (a ++ b) = fillBare k a ++ fillBare k b := by
  induction a with
  | nil => rfl
  | cons x a ih => cases x <;> simp [fillBare, ih]

theorem fillBare_text (k : Kind) : ∀ (s : List Seg), segHoles s = [] → fillBare k s = segText s
  | [], _ => rfl
  | .text t :: s, h => by rw [fillBare, segText, fillBare_text k s h]
  | .hole _ :: _, h => by simp [segHoles] at h

theorem inked_append (a b : Str) : inked (a ++ b) = inked a ++ inked b := List.filter_append ..

theorem inked_blank {a : Str} (h : Blank a) : inked a = [] := by
  unfold inked
  rw [List.filter_eq_nil_iff]
  intro c hc
  simp [h c hc]

theorem inked_trimStart (s : Str) : inked (trimStart s) = inked s := by
  obtain ⟨a, ha, h1⟩ := trimStart_eq s
  rw [show inked s = inked (a ++ trimStart s) from by rw [← ha], inked_append, inked_blank h1, List.nil_append]

theorem inked_trimEnd (s : Str) : inked (trimEnd s) = inked s := by
  obtain ⟨a, ha, h1⟩ := trimEnd_eq s
  rw [show inked s = inked (trimEnd s ++ a) from by rw [← ha], inked_append, inked_blank h1, List.append_nil]

theorem inked_trim (s : Str) : inked (trim s) = inked s := by
  unfold trim
  rw [inked_trimEnd, inked_trimStart]

theorem inked_left (k : Kind) : ∀ (s : List Seg), inked (fillBare k (trimLeft s)) = inked (fillBare k s)
  | [] => rfl
  | .text t :: s => by
    by_cases h : trimStart t = []
    · simp only [trimLeft, if_pos h, fillBare]
      rw [inked_append, inked_blank (trimStart_nil.1 h), inked_left k s, List.nil_append]
    · simp only [trimLeft, if_neg h, fillBare]
      rw [inked_append, inked_append, inked_trimStart]
  | .hole l :: s => rfl

theorem inked_right (k : Kind) : ∀ (s : List Seg), inked (fillBare k (trimRight s)) = inked (fillBare k s)
  | [] => rfl
  | .text t :: s => by
    simp only [trimRight]
    split
    · simp only [fillBare]
      rw [inked_append, inked_append, inked_trimEnd, inked_right k s]
    · simp only [fillBare]
      rw [inked_append, inked_append, inked_right k s]
  | .hole l :: s => by
    simp only [trimRight, fillBare]
    rw [inked_append, inked_append, inked_right k s]

theorem inked_segs (k : Kind) (s : List Seg) : inked (fillBare k (trimSegs s)) = inked (fillBare k s) := by
  rw [trimSegs, inked_right, inked_left]

mutual
theorem leaves_bare (k : Kind) : ∀ (x : Item) (al : Str) (c : Bool), inked (fillBare k (k.leaves al c x)) = inked (k.bare al x)
  | .plain l, al, c => by simp only [Kind.leaves, Kind.bare, fillBare, List.append_nil]
  | .cached e i o body, al, c => by
    simp only [Kind.leaves, Kind.bare]
    rw [inked_segs, leavesAll_bare k body, inked_trim]
  | .hole body, al, c => by
    simp only [Kind.leaves, Kind.bare]
    split
    · simp only [fillBare, List.append_nil]
    · rw [inked_segs, leavesAll_bare k body, inked_trim]
theorem leavesAll_bare (k : Kind) : ∀ (l : List Item) (al : Str) (c : Bool), inked (fillBare k (k.leavesAll al c l)) = inked (k.bareAll al l)
  | [], al, c => by simp only [Kind.leavesAll, Kind.bareAll, fillBare]
  | x :: l, al, c => by
    simp only [Kind.leavesAll, Kind.bareAll]
    rw [fillBare_append, inked_append, inked_append, leaves_bare k x, leavesAll_bare k l]
end

theorem pass_bare (k : Kind) : ∀ (y : List Seg), inked (fillBare k (k.pass y)) = inked (fillBare k y)
  | [] => rfl
  | .text t :: s => by
    simp only [Kind.pass, fillBare]
    rw [inked_append, inked_append, pass_bare k s]
  | .hole l :: s => by
    simp only [Kind.pass, fillBare]
    rw [fillBare_append, inked_append, inked_append, pass_bare k s, inked_segs, leavesAll_bare, inked_trim]

theorem after_bare (k : Kind) : ∀ (j : Nat) (y : List Seg), inked (fillBare k (k.after j y)) = inked (fillBare k y)
  | 0, y => rfl
  | j + 1, y => by
    simp only [Kind.after]
    rw [after_bare k j, inked_segs, pass_bare]

/-- **C122 (the same up to white space).** When all excluded parts are completed, the page is, up to white space, what it shows without a cache. -/
theorem C122_inked (k : Kind) (l : List Item) (j : Nat) (h : segHoles (k.after j (trimSegs (k.leavesAll [] false l))) = []) :
    inked (segText (k.after j (trimSegs (k.leavesAll [] false l)))) = inked (k.bareAll [] l) := by
  rw [← fillBare_text k _ h, after_bare, inked_segs, leavesAll_bare]

/-! The entries. -/

/-- What a cache holds in a history of such requests. -/
def HoldsItems (env : Env) (C : Caching) (known : Item → Prop) (kinds : Kind → Prop) (w : World) : Prop :=
  ∀ text expires en, w.fs (entryFile env C.dir C.pre text expires) = some en →
    ∃ e i o body k data, known (.cached e i o body) ∧ kinds k ∧ k.data data ∧
      itemFile env k.S C data e i o body = entryFile env C.dir C.pre text expires ∧
      en.content = some (trim (segText (k.leavesAll c!"cache" true body)))

theorem HoldsItems.fs {env : Env} {C : Caching} {known : Item → Prop} {kinds : Kind → Prop} {w w' : World} (h : HoldsItems env C known kinds w)
    (hw : w'.fs = w.fs) : HoldsItems env C known kinds w' := by
  intro text expires en hen
  rw [hw] at hen
  exact h text expires en hen

mutual
theorem item_unseen {env : Env} {C : Caching} {known : Item → Prop} {kinds : Kind → Prop} (hf : FaithfulItems env C known kinds)
    {k : Kind} (hk : kinds k) : ∀ (x : Item) (al : Str) (c : Bool) (m : Mem) (w : World),
    known x → k.SteadyItem al x → k.data m.data → k.defs m.defs → HoldsItems env C known kinds w →
    (x.means env k.S C al c m w).1 = segText (k.leaves al c x) ∧ k.data (x.means env k.S C al c m w).2.1.data ∧
      k.defs (x.means env k.S C al c m w).2.1.defs ∧ HoldsItems env C known kinds (x.means env k.S C al c m w).2.2
  | .plain l, al, c, m, w, hx, hs, hd, hdf, hh => by
    simp only [Kind.SteadyItem] at hs
    simp only [Item.means, Kind.leaves, segText, List.append_nil]
    obtain ⟨h1, h2, h3⟩ := hs m hd hdf
    exact ⟨h1, h2, h3, hh⟩
  | .hole body, al, c, m, w, hx, hs, hd, hdf, hh => by
    simp only [Kind.SteadyItem] at hs
    simp only [Item.means, Kind.leaves]
    split
    · simp only [segText, List.append_nil]
      exact ⟨trivial, hd, hdf, hh⟩
    · obtain ⟨h1, h2, h3, h4⟩ := items_unseen hf hk body c!"cache" false { m with bifs := m.bifs + 1 } w (hf.excluded body hx) hs hd hdf hh
      refine ⟨?_, h2, hdf, h4⟩
      show trim (trim _) = _
      rw [h1, trim_idem, (trimSegs_unpadded _).2]
  | .cached e i o body, al, c, m, w, hx, hs, hd, hdf, hh => by
    simp only [Kind.SteadyItem] at hs
    have hon := hf.on k hk m.data hd
    simp only [Item.means, Kind.leaves, hon, decide_true, Bool.or_true, (trimSegs_unpadded _).2]
    have body_run : ∀ w1 : World, w1.fs = w.fs →
        (blockIn (itemsMean env k.S C c!"cache" true body) { m with bifs := m.bifs + 1 } w1).1 = trim (segText (k.leavesAll c!"cache" true body)) ∧
        k.data (blockIn (itemsMean env k.S C c!"cache" true body) { m with bifs := m.bifs + 1 } w1).2.1.data ∧
        k.defs (blockIn (itemsMean env k.S C c!"cache" true body) { m with bifs := m.bifs + 1 } w1).2.1.defs ∧
        HoldsItems env C known kinds (blockIn (itemsMean env k.S C c!"cache" true body) { m with bifs := m.bifs + 1 } w1).2.2 := by
      intro w1 hw
      obtain ⟨h1, h2, h3, h4⟩ := items_unseen hf hk body c!"cache" true { m with bifs := m.bifs + 1 } w1 (hf.inner e i o body hx) hs hd hdf (hh.fs hw)
      exact ⟨congrArg trim h1, h2, hdf, h4⟩
    generalize hfile : itemFile env k.S C m.data e i o body = file
    unfold cachedIn
    rw [if_pos hon]
    cases hfr : freshIn env e file w with
    | some text =>
      dsimp only
      refine ⟨?_, hd, hdf, hh.fs (looked_fs file w)⟩
      unfold freshIn at hfr
      cases hen : w.fs file with
      | none => rw [hen] at hfr; simp at hfr
      | some en =>
        rw [hen] at hfr
        simp only at hfr
        split at hfr
        · simp at hfr
        · simp only [Option.some.injEq] at hfr
          rw [← hfile] at hen
          obtain ⟨e', i', o', body', k', data', h1, h2, h3, h4, h5⟩ := hh _ _ en hen
          have := hf.entries _ _ _ _ _ _ _ _ h1 hx _ _ _ _ h2 hk h3 hd h4
          rw [← hfr, h5, Option.getD_some, this, trim_idem]
    | none =>
      dsimp only
      obtain ⟨h1, h2, h3, h4⟩ := body_run (looked file w) (looked_fs file w)
      refine ⟨by rw [h1, trim_idem], h2, h3, ?_⟩
      intro text expires en hen
      simp only [storedIn] at hen
      split at hen
      · next heq =>
        simp only [Option.some.injEq] at hen
        exact ⟨e, i, o, body, k, m.data, hx, hk, hd, hfile.trans heq.symm, by rw [← hen, h1]⟩
      · exact h4 text expires en hen
theorem items_unseen {env : Env} {C : Caching} {known : Item → Prop} {kinds : Kind → Prop} (hf : FaithfulItems env C known kinds)
    {k : Kind} (hk : kinds k) : ∀ (l : List Item) (al : Str) (c : Bool) (m : Mem) (w : World),
    (∀ x ∈ l, known x) → k.SteadyItems al l → k.data m.data → k.defs m.defs → HoldsItems env C known kinds w →
    (itemsMean env k.S C al c l m w).1 = segText (k.leavesAll al c l) ∧ k.data (itemsMean env k.S C al c l m w).2.1.data ∧
      k.defs (itemsMean env k.S C al c l m w).2.1.defs ∧ HoldsItems env C known kinds (itemsMean env k.S C al c l m w).2.2
  | [], al, c, m, w, hx, hs, hd, hdf, hh => by
    simp only [itemsMean, Kind.leavesAll, segText]
    exact ⟨trivial, hd, hdf, hh⟩
  | x :: l, al, c, m, w, hx, hs, hd, hdf, hh => by
    simp only [Kind.SteadyItems] at hs
    simp only [itemsMean, Kind.leavesAll]
    obtain ⟨h1, h2, h3, h4⟩ := item_unseen hf hk x al c m w (hx x (by simp)) hs.1 hd hdf hh
    obtain ⟨g1, g2, g3, g4⟩ := items_unseen hf hk l al c _ _ (fun y hy => hx y (by simp [hy])) hs.2 h2 h3 h4
    exact ⟨by rw [h1, g1, segText_append], g2, g3, g4⟩
end

/-- The excluded parts in pieces are steady parts of known parts. -/
def HolesFor (k : Kind) (known : Item → Prop) (y : List Seg) : Prop := ∀ b ∈ segHoles y, known (.hole b) ∧ k.SteadyItems c!"cache" b

theorem holes_unseen {env : Env} {C : Caching} {known : Item → Prop} {kinds : Kind → Prop} (hf : FaithfulItems env C known kinds)
    {k : Kind} (hk : kinds k) : ∀ (rest : List (List Item × Str)) (m : Mem) (w : World),
    (∀ x ∈ rest, known (.hole x.1) ∧ k.SteadyItems c!"cache" x.1) → k.data m.data → k.defs m.defs → HoldsItems env C known kinds w →
    (holesShow env k.S C rest m w).1 = (rest.map (fun x => trim (segText (k.leavesAll c!"cache" false x.1)) ++ x.2)).flatten ∧
      k.data (holesShow env k.S C rest m w).2.1.data ∧
      k.defs (holesShow env k.S C rest m w).2.1.defs ∧ HoldsItems env C known kinds (holesShow env k.S C rest m w).2.2
  | [], m, w, hx, hd, hdf, hh => by
    simp only [holesShow]
    exact ⟨rfl, hd, hdf, hh⟩
  | (b, u) :: rest, m, w, hx, hd, hdf, hh => by
    simp only [holesShow]
    have hb := hx (b, u) (by simp)
    obtain ⟨h1, h2, h3, h4⟩ := items_unseen hf hk b c!"cache" false { m with bifs := m.bifs + 1 } w (hf.excluded b hb.1) hb.2 hd hdf hh
    obtain ⟨g1, g2, g3, g4⟩ := holes_unseen hf hk rest (holeIn (itemsMean env k.S C c!"cache" false b) m w).2.1
      (holeIn (itemsMean env k.S C c!"cache" false b) m w).2.2 (fun y hy => hx y (by simp [hy])) h2 hdf h4
    refine ⟨?_, g2, g3, g4⟩
    rw [g1, List.map_cons, List.flatten_cons, List.append_assoc]
    congr 1
    show trim (trim _) = _
    rw [h1, trim_idem]

theorem pass_rest (k : Kind) : ∀ (y : List Seg), segText (k.pass y) =
    segFirst y ++ ((segRest y).map (fun x => trim (segText (k.leavesAll c!"cache" false x.1)) ++ x.2)).flatten
  | [] => rfl
  | .text t :: s => by
    simp only [Kind.pass, segText, segFirst, segRest]
    rw [pass_rest k s, List.append_assoc]
  | .hole l :: s => by
    simp only [Kind.pass, segFirst, segRest, List.map_cons, List.flatten_cons, List.nil_append]
    rw [segText_append, pass_rest k s, (trimSegs_unpadded _).2, List.append_assoc]

theorem servedItems_holds {env : Env} {C : Caching} {known : Item → Prop} {kinds : Kind → Prop} (hf : FaithfulItems env C known kinds)
    {w0 w : World} (h : ServedItems env C known kinds w0 w)
    (h0 : ∀ text expires, w0.fs (entryFile env C.dir C.pre text expires) = none) : HoldsItems env C known kinds w := by
  induction h with
  | start =>
    intro text expires en h
    rw [h0] at h
    simp at h
  | ask k l m _ hk hl hs hd hdf ih => exact (items_unseen hf hk l [] false m _ hl hs hd hdf ih).2.2.2
  | complete k rest m _ hk hr hd hdf ih => exact (holes_unseen hf hk rest m _ hr hd hdf ih).2.2.2
  | other _ hw ih =>
    intro text expires en hen
    rcases hw text expires with h | h
    · rw [h] at hen
      exact ih text expires en hen
    · rw [h] at hen
      simp at hen

/-! The excluded parts that are left. -/

mutual
theorem leaves_holes {P : Item → Prop} (hin : ∀ e i o body, P (.cached e i o body) → ∀ x ∈ body, P x) (hex : ∀ body, P (.hole body) → ∀ x ∈ body, P x)
    (k : Kind) : ∀ (x : Item) (al : Str) (c : Bool), P x → ∀ b ∈ segHoles (k.leaves al c x), P (.hole b)
  | .plain l, al, c, _, b, hb => by simp [Kind.leaves, segHoles] at hb
  | .cached e i o body, al, c, h, b, hb => by
    simp only [Kind.leaves] at hb
    rw [(trimSegs_unpadded _).1] at hb
    exact leavesAll_holes hin hex k body _ true (hin e i o body h) b hb
  | .hole body, al, c, h, b, hb => by
    simp only [Kind.leaves] at hb
    split at hb
    · simp only [segHoles, List.mem_singleton] at hb
      rw [hb]
      exact h
    · rw [(trimSegs_unpadded _).1] at hb
      exact leavesAll_holes hin hex k body _ false (hex body h) b hb
theorem leavesAll_holes {P : Item → Prop} (hin : ∀ e i o body, P (.cached e i o body) → ∀ x ∈ body, P x) (hex : ∀ body, P (.hole body) → ∀ x ∈ body, P x)
    (k : Kind) : ∀ (l : List Item) (al : Str) (c : Bool), (∀ x ∈ l, P x) → ∀ b ∈ segHoles (k.leavesAll al c l), P (.hole b)
  | [], al, c, _, b, hb => by simp [Kind.leavesAll, segHoles] at hb
  | x :: l, al, c, h, b, hb => by
    simp only [Kind.leavesAll] at hb
    rw [segHoles_append, List.mem_append] at hb
    rcases hb with hb | hb
    · exact leaves_holes hin hex k x al c (h x (by simp)) b hb
    · exact leavesAll_holes hin hex k l al c (fun y hy => h y (by simp [hy])) b hb
end

theorem pass_holes {P : Item → Prop} (hin : ∀ e i o body, P (.cached e i o body) → ∀ x ∈ body, P x) (hex : ∀ body, P (.hole body) → ∀ x ∈ body, P x)
    (k : Kind) : ∀ (y : List Seg), (∀ b ∈ segHoles y, P (.hole b)) → ∀ b ∈ segHoles (k.pass y), P (.hole b)
  | [], _, b, hb => by simp [Kind.pass, segHoles] at hb
  | .text t :: s, h, b, hb => by
    simp only [Kind.pass, segHoles] at hb
    exact pass_holes hin hex k s h b hb
  | .hole l :: s, h, b, hb => by
    simp only [Kind.pass] at hb
    rw [segHoles_append, List.mem_append, (trimSegs_unpadded _).1] at hb
    rcases hb with hb | hb
    · exact leavesAll_holes hin hex k l _ false (hex l (h l (by simp [segHoles]))) b hb
    · exact pass_holes hin hex k s (fun y hy => h y (by simp [segHoles, hy])) b hb

theorem steady_mem {k : Kind} {al : Str} : ∀ {l : List Item}, k.SteadyItems al l → ∀ x ∈ l, ∃ al, k.SteadyItem al x
  | [], _, x, hx => by simp at hx
  | y :: l, h, x, hx => by
    simp only [Kind.SteadyItems] at h
    rcases List.mem_cons.1 hx with rfl | hx
    · exact ⟨al, h.1⟩
    · exact steady_mem h.2 x hx

/-- A part as it has to be: known, steady, as required. -/
def PartFor (k : Kind) (known : Item → Prop) (exps : List Str) (x : Item) : Prop := known x ∧ (∃ al, k.SteadyItem al x) ∧ HoleOk k.S exps x

theorem partFor_inner {env : Env} {C : Caching} {known : Item → Prop} {kinds : Kind → Prop} (hf : FaithfulItems env C known kinds) (k : Kind) (exps : List Str) :
    ∀ e i o body, PartFor k known exps (.cached e i o body) → ∀ x ∈ body, PartFor k known exps x := by
  intro e i o body ⟨h1, ⟨al, h2⟩, h3⟩ x hx
  simp only [Kind.SteadyItem] at h2
  exact ⟨hf.inner e i o body h1 x hx, steady_mem h2 x hx, holeOk_items body h3.1 h3.2 x hx⟩

theorem partFor_excluded {env : Env} {C : Caching} {known : Item → Prop} {kinds : Kind → Prop} (hf : FaithfulItems env C known kinds) (k : Kind) (exps : List Str) :
    ∀ body, PartFor k known exps (.hole body) → ∀ x ∈ body, PartFor k known exps x := by
  intro body ⟨h1, ⟨al, h2⟩, h3⟩ x hx
  simp only [Kind.SteadyItem] at h2
  exact ⟨hf.excluded body h1 x hx, steady_mem h2 x hx, holeOk_items body h3.1 h3.2 x hx⟩

/-- The passes complete the page, with the text that depends on the kind and the page only, and continue the history. -/
theorem kind_passes {env : Env} {C : Caching} {known : Item → Prop} {kinds : Kind → Prop} (hf : FaithfulItems env C known kinds)
    {k : Kind} (hk : kinds k) {exps : List Str} {max : Nat} {w0 : World} (h0 : ∀ text expires, w0.fs (entryFile env C.dir C.pre text expires) = none) :
    ∀ (j : Nat) (y : List Seg) (m : Mem) (w : World), (∀ b ∈ segHoles y, PartFor k known exps (.hole b)) → k.Takes j y → k.Within env C max j y m w →
      k.data m.data → k.defs m.defs → ServedItems env C known kinds w0 w →
      ∃ m' w', Completes env k.S C exps max (segText y) m w j (segText (k.after j y)) m' w' ∧ k.data m'.data ∧ k.defs m'.defs ∧
        ServedItems env C known kinds w0 w'
  | 0, y, m, w, _, ht, _, hd, hdf, hs => ⟨m, w, .done ht.2.2, hd, hdf, hs⟩
  | j + 1, y, m, w, hp, ht, hw, hd, hdf, hs => by
    obtain ⟨hne, hcalm⟩ := ht.1 0 (by omega)
    simp only [Kind.after] at hne hcalm
    simp only [Kind.Within] at hw
    have hrest : ∀ x ∈ segRest y, known (.hole x.1) ∧ k.SteadyItems c!"cache" x.1 := by
      intro x hx
      obtain ⟨h1, ⟨al, h2⟩, _⟩ := hp x.1 (by rw [← segRest_holes]; exact List.mem_map_of_mem hx)
      simp only [Kind.SteadyItem] at h2
      exact ⟨h1, h2⟩
    obtain ⟨h1, h2, h3, h4⟩ := holes_unseen hf hk (segRest y) (again m) w hrest hd hdf (servedItems_holds hf hs h0)
    have htext : trim (segFirst y ++ (holesShow env k.S C (segRest y) (again m) w).1) = segText (trimSegs (k.pass y)) := by
      rw [(trimSegs_unpadded _).2, pass_rest, h1]
    obtain ⟨m', w', g1, g2, g3, g4⟩ := kind_passes hf hk (exps := exps) (max := max) h0 j (trimSegs (k.pass y)) _ _
      (by
        intro b hb
        rw [(trimSegs_unpadded _).1] at hb
        exact pass_holes (partFor_inner hf k exps) (partFor_excluded hf k exps) k y hp b hb)
      ⟨fun i hi => by have := ht.1 (i + 1) (by omega); simpa only [Kind.after] using this, by have := ht.2; simpa only [Kind.after] using this⟩
      hw.2 h2 h3 (.complete k (segRest y) (again m) hs hk hrest hd hdf)
    refine ⟨m', w', ?_, g2, g3, g4⟩
    simp only [Kind.after]
    rw [segText_split]
    rw [← htext] at g1
    cases hr : segRest y with
    | nil =>
      exfalso
      apply hne
      rw [← segRest_holes, hr]
      rfl
    | cons p rest =>
      obtain ⟨b, u⟩ := p
      rw [hr] at g1 hw
      refine .pass _ _ _ _ hcalm.1 ?_ hw.1 g1
      intro x hx
      rw [← hr] at hx
      obtain ⟨_, _, h5⟩ := hp x.1 (by rw [← segRest_holes]; exact List.mem_map_of_mem hx)
      exact ⟨h5.1, h5.2, hcalm.2 x hx⟩

/-! ### C122 -/

/-- **C122 (history).** In every history of requests of the kinds, from a cache without entries, the first pass of a page whose templates are steady leaves what it
leaves at the first request: `leavesAll`, which depends on the kind and the page only. -/
theorem C122_history (env : Env) (C : Caching) (known : Item → Prop) (kinds : Kind → Prop) (hf : FaithfulItems env C known kinds) (w0 w : World)
    (h : ServedItems env C known kinds w0 w) (h0 : ∀ text expires, w0.fs (entryFile env C.dir C.pre text expires) = none)
    (k : Kind) (hk : kinds k) (l : List Item) (hl : ∀ x ∈ l, known x) (hs : k.SteadyItems [] l) (m : Mem) (hd : k.data m.data) (hdf : k.defs m.defs) :
    (itemsMean env k.S C [] false l m w).1 = segText (k.leavesAll [] false l) ∧ k.data (itemsMean env k.S C [] false l m w).2.1.data ∧
      k.defs (itemsMean env k.S C [] false l m w).2.1.defs :=
  have := items_unseen hf hk l [] false m w hl hs hd hdf (servedItems_holds hf h h0)
  ⟨this.1, this.2.1, this.2.2.1⟩

/-- **C122 (no cache).** `bareAll` is what the page shows in a site where the cache is disabled, whatever is in the directory of the cache: cached parts and excluded parts
are blocks. -/
theorem C122_without (env : Env) (C : Caching) (hC : C.disabled = true) (k : Kind) (l : List Item) (hs : k.SteadyItems [] l) (m : Mem) (w : World)
    (hd : k.data m.data) (hdf : k.defs m.defs) : (itemsMean env k.S C [] false l m w).1 = k.bareAll [] l := by
  have hoff : ∀ data, ¬ C.on data := by
    intro data h
    rw [h.1] at hC
    cases hC
  have key : ∀ n, (∀ (x : Item) (al : Str) (m : Mem) (w : World), sizeOf x < n → k.SteadyItem al x → k.data m.data → k.defs m.defs →
        (x.means env k.S C al false m w).1 = k.bare al x ∧ k.data (x.means env k.S C al false m w).2.1.data ∧ k.defs (x.means env k.S C al false m w).2.1.defs) ∧
      (∀ (l : List Item) (al : Str) (m : Mem) (w : World), sizeOf l < n → k.SteadyItems al l → k.data m.data → k.defs m.defs →
        (itemsMean env k.S C al false l m w).1 = k.bareAll al l ∧ k.data (itemsMean env k.S C al false l m w).2.1.data ∧
          k.defs (itemsMean env k.S C al false l m w).2.1.defs) := by
    intro n
    induction n with
    | zero => exact ⟨fun _ _ _ _ h => absurd h (by omega), fun _ _ _ _ h => absurd h (by omega)⟩
    | succ n ih =>
      refine ⟨?_, ?_⟩
      · intro x al m w hn hs hd hdf
        cases x with
        | plain l =>
          simp only [Kind.SteadyItem] at hs
          simp only [Item.means, Kind.bare]
          exact hs m hd hdf
        | hole body =>
          simp only [Kind.SteadyItem] at hs
          simp only [Item.means, Kind.bare, Bool.false_eq_true, if_false]
          simp only [Item.hole.sizeOf_spec] at hn
          obtain ⟨h1, h2, h3⟩ := ih.2 body c!"cache" { m with bifs := m.bifs + 1 } w (by omega) hs hd hdf
          exact ⟨by show trim (trim _) = _; rw [h1, trim_idem], h2, hdf⟩
        | cached e i o body =>
          simp only [Kind.SteadyItem] at hs
          simp only [Item.means, Kind.bare, hoff, decide_false, Bool.or_false]
          unfold cachedIn
          rw [if_neg (hoff _)]
          simp only [Item.cached.sizeOf_spec] at hn
          obtain ⟨h1, h2, h3⟩ := ih.2 body c!"cache" { m with bifs := m.bifs + 1 } w (by omega) hs hd hdf
          exact ⟨by show trim (trim _) = _; rw [h1, trim_idem], h2, hdf⟩
      · intro l al m w hn hs hd hdf
        cases l with
        | nil =>
          simp only [itemsMean, Kind.bareAll]
          exact ⟨trivial, hd, hdf⟩
        | cons x l =>
          simp only [Kind.SteadyItems] at hs
          simp only [itemsMean, Kind.bareAll]
          simp only [List.cons.sizeOf_spec] at hn
          obtain ⟨h1, h2, h3⟩ := ih.1 x al m w (by omega) hs.1 hd hdf
          obtain ⟨g1, g2, g3⟩ := ih.2 l al _ (x.means env k.S C al false m w).2.2 (by omega) hs.2 h2 h3
          exact ⟨by rw [h1, g1], g2, g3⟩
  exact ((key (sizeOf l + 1)).2 l [] m w (by omega) hs hd hdf).1

/-- **C122 (renders).** The render of such a page in such a history prints a text that depends on the kind and the page only — so all requests of the kind get the same
page, whatever the history — and that is, up to white space, what the page shows without a cache.  The history goes on. -/
theorem C122_render (env : Env) (n j : Nat) (w w0 : World) (t : Tpl) (k : Kind) (C : Caching) (l : List Item) (sh : Shared) (s d defs : Obj)
    (hnew : Shared.new env w t.schema = some sh) (hS : SiteOf env sh k.S) (hC : CachingOf sh C) (hW : Writable env)
    (hap : NotEntries env k.S C) (hsane : Spec.Sane env (livesItems l) w)
    (hok : ItemsOk k.S [] l) (hraw : t.raw = printItems l) (hb : c!"{:" <:+: printItems l)
    (hs : t.schema = .obj s) (hd : Obj.get? c!"data" s = some (.obj d))
    (hinh : Obj.get? c!"inherit" s = some (.obj defs)) (hdefs : Defs k.S defs)
    (hmax : (itemsMean env k.S C [] false l (startMem d defs) w).2.1.bifs ≤ sh.max)
    (known : Item → Prop) (kinds : Kind → Prop) (hf : FaithfulItems env C known kinds) (hist : ServedItems env C known kinds w0 w)
    (h0 : ∀ text expires, w0.fs (entryFile env C.dir C.pre text expires) = none)
    (hk : kinds k) (hl : ∀ x ∈ l, known x) (hst : k.SteadyItems [] l) (hkd : k.data (startMem d defs).data) (hkf : k.defs defs)
    (hj : j ≤ n) (ht : k.Takes j (trimSegs (k.leavesAll [] false l)))
    (hwithin : k.Within env C sh.max j (trimSegs (k.leavesAll [] false l)) (itemsMean env k.S C [] false l (startMem d defs) w).2.1
      (itemsMean env k.S C [] false l (startMem d defs) w).2.2) :
    ∃ t' text, t.render env n w = .ok t' ∧ t'.out = replacements (trim text) ∧ text = segText (k.after j (trimSegs (k.leavesAll [] false l))) ∧
      inked text = inked (k.bareAll [] l) ∧ ServedItems env C known kinds w0 t'.shared.w := by
  obtain ⟨h1, h2, h3⟩ := C122_history env C known kinds hf w0 w hist h0 k hk l hl hst (startMem d defs) hkd hkf
  have hparts : ∀ b ∈ segHoles (trimSegs (k.leavesAll [] false l)), PartFor k known (livesItems l) (.hole b) := by
    intro b hb
    rw [(trimSegs_unpadded _).1] at hb
    exact leavesAll_holes (partFor_inner hf k _) (partFor_excluded hf k _) k l [] false
      (fun x hx => ⟨hl x hx, steady_mem hst x hx, holeOk_items l hok (fun _ h => h) x hx⟩) b hb
  obtain ⟨m', w', g1, g2, g3, g4⟩ := kind_passes hf hk (exps := livesItems l) (max := sh.max) h0 j _ _ _ hparts ht hwithin h2 h3
    (.ask k l (startMem d defs) hist hk hl hst hkd hkf)
  rw [(trimSegs_unpadded _).2, ← h1] at g1
  obtain ⟨t', k1, k2, k3, k4⟩ := C119_render env n j w w' t k.S C l (livesItems l) sh s d defs _ m' hnew hS hC hW hap (fun _ h => h) hsane hok hraw hb hs hd
    hinh hdefs hmax g1 hj
  refine ⟨t', _, k1, k2.out, rfl, C122_inked k l j ht.2.1, ?_⟩
  rw [k4]
  exact g4

/-! Templates without traces. -/

mutual
/-- All the templates of a part are without traces. -/
def Spec.Item.traceless (al : Str) : Item → Bool
  | .plain l => settledAll al false false l && (keepsDataAll l && keepsDefsAll l)
  | .cached _ _ _ body => tracelessItems c!"cache" body
  | .hole body => tracelessItems c!"cache" body
/-- Those of a page. -/
def Spec.tracelessItems (al : Str) : List Item → Bool
  | [] => true
  | x :: l => x.traceless al && tracelessItems al l
end

mutual
theorem steady_item (S : Site) (data defs : Obj) : ∀ (x : Item) (al : Str), x.traceless al = true → (kindOf S data defs).SteadyItem al x
  | .plain l, al, h => by
    simp only [Item.traceless, Bool.and_eq_true] at h
    simp only [Kind.SteadyItem]
    exact C121_steady S data defs al l h.1 h.2.1 h.2.2
  | .cached _ _ _ body, al, h => by
    simp only [Item.traceless] at h
    simp only [Kind.SteadyItem]
    exact steady_items S data defs body _ h
  | .hole body, al, h => by
    simp only [Item.traceless] at h
    simp only [Kind.SteadyItem]
    exact steady_items S data defs body _ h
theorem steady_items (S : Site) (data defs : Obj) : ∀ (l : List Item) (al : Str), tracelessItems al l = true → (kindOf S data defs).SteadyItems al l
  | [], al, _ => by simp only [Kind.SteadyItems]
  | x :: l, al, h => by
    simp only [tracelessItems, Bool.and_eq_true] at h
    simp only [Kind.SteadyItems]
    exact ⟨steady_item S data defs x al h.1, steady_items S data defs l al h.2⟩
end

/-! Examples: a part that is the same for all visitors, with an excluded part that shows the name of the visitor. -/

/-- The cached part. -/
def Sample.helloBody : List Item :=
  [.plain [.text c!"<p>", .leaf .lang, .text c!" "], .hole [.plain Sample.holeCode], .plain [.text c!"</p>"]]
/-- The page. -/
def Sample.helloPage : List Item := [.cached c!"100" [] [] Sample.helloBody]

example : printItems Sample.helloPage = c!"{:cache; /100/// >> <p>{:lang;:} {:!cache; [{:;x:}] :}</p> :}" := by decide +kernel

/-- The data of a visitor. -/
def Sample.visitor (x : Str) : Obj := (startMem [(c!"x", .str x)] Sample.pageDefs).data
/-- The kind of the requests of a visitor. -/
def Sample.visit (x : Str) : Kind := kindOf Sample.pageSite (Sample.visitor x) Sample.pageDefs
/-- All visitors. -/
def Sample.visits (k : Kind) : Prop := ∃ x, k = Sample.visit x
/-- The parts of the page. -/
def Sample.helloKnown : Item → Prop
  | .plain _ => True
  | .cached _ _ _ body => body = Sample.helloBody
  | .hole body => body = [.plain Sample.holeCode]

theorem Sample.hello_left (x : Str) : segText ((Sample.visit x).leavesAll c!"cache" true Sample.helloBody) = c!"<p>en {:!cache; [{:;x:}] :}</p>" := by
  rfl

theorem Sample.hello_faithful : FaithfulItems Sample.envC Sample.caching Sample.helloKnown Sample.visits := by
  refine ⟨?_, ?_, ?_, ?_⟩
  · rintro k ⟨x, rfl⟩ data rfl
    exact of_decide_eq_true rfl
  · intro e i o body h x hx
    simp only [Sample.helloKnown] at h
    subst h
    simp only [Sample.helloBody, List.mem_cons, List.not_mem_nil, or_false] at hx
    rcases hx with rfl | rfl | rfl <;> simp [Sample.helloKnown]
  · intro body h x hx
    simp only [Sample.helloKnown] at h
    subst h
    simp only [List.mem_cons, List.not_mem_nil, or_false] at hx
    subst hx
    trivial
  · rintro e i o body e' i' o' body' h h' k k' data data' ⟨x, rfl⟩ ⟨x', rfl⟩ _ _ _
    simp only [Sample.helloKnown] at h h'
    rw [h, h', Sample.hello_left, Sample.hello_left]

theorem Sample.hello_traceless : tracelessItems [] Sample.helloPage = true := by decide +kernel

theorem Sample.hello_known : ∀ x ∈ Sample.helloPage, Sample.helloKnown x := by
  intro x hx
  simp only [Sample.helloPage, List.mem_cons, List.not_mem_nil, or_false] at hx
  subst hx
  rfl

/-- What is left of the page after the first pass, for any visitor. -/
theorem Sample.hello_page_left (x : Str) : trimSegs ((Sample.visit x).leavesAll [] false Sample.helloPage) =
    [.text c!"<p>en ", .hole [.plain Sample.holeCode], .text c!"</p>"] := by rfl

/-- After the second pass. -/
theorem Sample.hello_page_done : (Sample.visit c!"X").after 1 [.text c!"<p>en ", .hole [.plain Sample.holeCode], .text c!"</p>"] =
    [.text c!"<p>en ", .text c!"[X]", .text c!"</p>"] := by rfl

theorem Sample.hello_takes : (Sample.visit c!"X").Takes 1 (trimSegs ((Sample.visit c!"X").leavesAll [] false Sample.helloPage)) := by
  rw [Sample.hello_page_left]
  refine ⟨?_, ?_, ?_⟩
  · intro i hi
    obtain rfl : i = 0 := by omega
    simp only [Kind.after]
    refine ⟨by simp [segHoles], by unfold Calm; decide, ?_⟩
    intro x hx
    simp only [segRest, segFirst, List.mem_cons, List.not_mem_nil, or_false] at hx
    subst hx
    unfold Calm
    decide
  · rw [Sample.hello_page_done]
    rfl
  · rw [Sample.hello_page_done]
    decide

theorem Sample.helloPage_ok : ItemsOk Sample.pageSite [] Sample.helloPage := by
  simp only [Sample.helloPage, Sample.helloBody, ItemsOk, Item.Ok, and_true]
  refine ⟨by unfold ArgOk; decide, by unfold ArgOk; decide, by unfold ArgOk; decide, ?_, Sample.holeCode_ok, ?_⟩
  · simp only [AllOk, Node.Ok, Leaf.Ok, and_true, true_and]
    exact ⟨textOk_of (by decide), textOk_of (by decide)⟩
  · simp only [AllOk, Node.Ok, and_true]
    exact textOk_of (by decide)

set_option maxRecDepth 10000 in
/-- The premises of C122_render are met, by the first request of a visitor. -/
example : ∃ t', Sample.askHole Sample.helloPage c!"X" Sample.pageWorld = .ok t' ∧ t'.out = c!"<p>en [X]</p>" ∧
    ServedItems Sample.envC Sample.caching Sample.helloKnown Sample.visits Sample.pageWorld t'.shared.w := by
  obtain ⟨t', text, h1, h2, h3, h4, h5⟩ := C122_render Sample.envC 10 1 Sample.pageWorld Sample.pageWorld
    (Sample.tpl (Sample.schema 1000 [(c!"x", .str c!"X")] Sample.pageDefs) (printItems Sample.helloPage)) (Sample.visit c!"X") Sample.caching
    Sample.helloPage _ _ [(c!"x", .str c!"X")] Sample.pageDefs rfl (Sample.page_site rfl).1 (Sample.page_site rfl).2
    ⟨fun _ _ => rfl, fun _ _ => rfl, fun _ _ => rfl⟩ Sample.page_apart Sample.hole_sane Sample.helloPage_ok rfl (by decide +kernel) rfl rfl rfl
    ⟨.inr ⟨_, rfl⟩, rfl, rfl⟩ (by decide +kernel) Sample.helloKnown Sample.visits Sample.hello_faithful .start Sample.no_entries ⟨c!"X", rfl⟩
    Sample.hello_known (steady_items _ _ _ _ _ Sample.hello_traceless) rfl rfl (by decide) Sample.hello_takes (by
      simp only [Kind.Within, and_true]
      rw [Sample.hello_page_left]
      decide +kernel)
  refine ⟨t', h1, ?_, h5⟩
  rw [h2, h3, Sample.hello_page_left, Sample.hello_page_done]
  decide +kernel

set_option maxRecDepth 10000 in
/-- A visitor after another: the second gets the cached part of the first, and the own name. -/
example : (Sample.outOf (Sample.askHole Sample.helloPage c!"A" Sample.pageWorld)).map (·.1) = some c!"<p>en [A]</p>" ∧
    (Sample.outOf (Sample.askHole Sample.helloPage c!"B" (Sample.after 2 (Sample.askHole Sample.helloPage c!"A" Sample.pageWorld)))).map (·.1) =
      some c!"<p>en [B]</p>" := by decide +kernel

/-- The premises of C122_history are met by that history. -/
example : ∃ w, ServedItems Sample.envC Sample.caching Sample.helloKnown Sample.visits Sample.pageWorld w ∧ w.tick ≠ Sample.pageWorld.tick ∧
    (itemsMean Sample.envC Sample.pageSite Sample.caching [] false Sample.helloPage (startMem [(c!"x", .str c!"B")] Sample.pageDefs) w).1 =
      c!"<p>en {:!cache; [{:;x:}] :}</p>" := by
  have h := ServedItems.ask (env := Sample.envC) (C := Sample.caching) (known := Sample.helloKnown) (kinds := Sample.visits) (Sample.visit c!"A")
    Sample.helloPage (startMem [(c!"x", .str c!"A")] Sample.pageDefs) (.start (w0 := Sample.pageWorld)) ⟨_, rfl⟩ Sample.hello_known
    (steady_items _ _ _ _ _ Sample.hello_traceless) rfl rfl
  refine ⟨_, h, by decide +kernel, ?_⟩
  rw [show Sample.pageSite = (Sample.visit c!"B").S from rfl, (C122_history Sample.envC Sample.caching Sample.helloKnown Sample.visits Sample.hello_faithful _ _ h Sample.no_entries (Sample.visit c!"B") ⟨_, rfl⟩
    Sample.helloPage Sample.hello_known (steady_items _ _ _ _ _ Sample.hello_traceless) (startMem [(c!"x", .str c!"B")] Sample.pageDefs) rfl rfl).1]
  rfl

end Nts
