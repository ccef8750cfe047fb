import Verif.Props.Holes
import Verif.Props.LangUse
/-
C119: excluded parts in the history of a cache.
-/
set_option autoImplicit false
namespace Nts
open Spec

/-! Pieces. -/

theorem segText_append (a b : List Seg) : segText (a ++ b) = segText a ++ segText b := by
  induction a with
  | nil => rfl
  | cons x a ih => cases x <;> simp [segText, ih]

theorem segHoles_append (a b : List Seg) : segHoles (a ++ b) = segHoles a ++ segHoles b := by
  induction a with
  | nil => rfl
  | cons x a ih => cases x <;> simp [segHoles, ih]

/-- The text before the first excluded part, the excluded parts and what follows them make the text. -/
theorem segText_split (s : List Seg) : segText s = segFirst s ++ holesText (segRest s) := by
  induction s with
  | nil => rfl
  | cons x s ih => cases x <;> simp [segText, segFirst, segRest, holesText, ih]

theorem segRest_holes (s : List Seg) : (segRest s).map (·.1) = segHoles s := by
  induction s with
  | nil => rfl
  | cons x s ih => cases x <;> simp [segHoles, segRest, ih]

theorem holeText_start (l : List Item) (s : Str) : trimStart (holeText l ++ s) = holeText l ++ s := by
  simp [holeText, bifText, trimStart, isWs]

theorem holeText_end (l : List Item) (s : Str) : trimEnd (holeText l ++ s) = holeText l ++ trimEnd s := by
  have e : holeText l = ('{' :: ':' :: (c!"!cache;" ++ (c!" " ++ printItems l ++ c!" ") ++ c!":")) ++ ['}'] := by simp [holeText, bifText]
  have := trimEnd_through (x := '{' :: ':' :: (c!"!cache;" ++ (c!" " ++ printItems l ++ c!" ") ++ c!":")) (u := s) (c := '}') (by decide)
  rw [e]
  simpa using this

theorem trimmed_start : ∀ (s : List Seg), ∃ s', segHoles s' = segHoles s ∧ segText s' = trimStart (segText s)
  | [] => ⟨[], rfl, rfl⟩
  | .text t :: s => by
    by_cases h : Blank t
    · obtain ⟨s', h1, h2⟩ := trimmed_start s
      refine ⟨s', h1, ?_⟩
      rw [h2, segText, trimStart_append, if_pos h]
    · exact ⟨.text (trimStart t) :: s, rfl, by rw [segText, segText, trimStart_append, if_neg h]⟩
  | .hole l :: s => ⟨.hole l :: s, rfl, by rw [segText, holeText_start]⟩

theorem trimmed_end : ∀ (s : List Seg), ∃ s', segHoles s' = segHoles s ∧ segText s' = trimEnd (segText s)
  | [] => ⟨[], rfl, rfl⟩
  | .text t :: s => by
    obtain ⟨s', h1, h2⟩ := trimmed_end s
    by_cases h : Blank (segText s)
    · refine ⟨.text (trimEnd t) :: s', h1, ?_⟩
      have hn : trimEnd (segText s) = [] := by have := trimEnd_blank (s := []) h; rw [List.nil_append] at this; exact this
      rw [segText, segText, h2, hn, trimEnd_append, if_pos h, List.append_nil]
    · refine ⟨.text t :: s', h1, ?_⟩
      rw [segText, segText, h2, trimEnd_append, if_neg h]
  | .hole l :: s => by
    obtain ⟨s', h1, h2⟩ := trimmed_end s
    refine ⟨.hole l :: s', by simp [segHoles, h1], ?_⟩
    rw [segText, segText, h2, holeText_end]

/-- White space around pieces can be removed. -/
theorem trimmed_exists (s : List Seg) : ∃ s', Unpadded s s' := by
  obtain ⟨s1, h1, h2⟩ := trimmed_start s
  obtain ⟨s2, h3, h4⟩ := trimmed_end s1
  refine ⟨s2, h3.trans h1, ?_⟩
  rw [h4, h2]
  rfl

/-! Filling. -/

theorem filled_more {vs vs' : List Evaluation} {d : Nat} (hv : ∀ v ∈ vs, v ∈ vs') {t : Nat} {c : Bool} {al : Str} {l : List Item} {s : List Seg}
    (h : FilledBy vs d t c al l s) : ∀ {t' : Nat}, t' ≤ t → FilledBy vs' d t' c al l s := by
  induction h with
  | nil t c al => intro t' _; exact .nil _ _ _
  | plain v h1 h2 h3 _ ih => intro t' ht; exact .plain v (hv v h1) h2 (by omega) (ih ht)
  | hole l _ ih => intro t' ht; exact .hole l (ih ht)
  | evaluated _ h2 _ ih1 ih2 => intro t' ht; exact .evaluated (ih1 ht) h2 (ih2 ht)
  | stored _ h2 _ ih1 ih2 => intro t' ht; exact .stored (ih1 (by omega)) h2 (ih2 ht)
  | off _ h2 _ ih1 ih2 => intro t' ht; exact .off (ih1 ht) h2 (ih2 ht)

theorem filled_append {vs : List Evaluation} {d : Nat} {t : Nat} {c : Bool} {al : Str} {l : List Item} {s : List Seg}
    (h : FilledBy vs d t c al l s) : ∀ {l' : List Item} {s' : List Seg}, FilledBy vs d t c al l' s' → FilledBy vs d t c al (l ++ l') (s ++ s') := by
  induction h with
  | nil t al => intro l' s' h; simpa using h
  | plain v h1 h2 h3 _ ih => intro l' s' h; exact .plain v h1 h2 h3 (ih h)
  | hole l _ ih => intro l' s' h; exact .hole l (ih h)
  | evaluated h1 h2 _ ih1 ih2 =>
    intro l' s' h
    rw [List.cons_append, List.append_assoc]
    exact .evaluated h1 h2 (ih2 h)
  | stored h1 h2 _ ih1 ih2 =>
    intro l' s' h
    rw [List.cons_append, List.append_assoc]
    exact .stored h1 h2 (ih2 h)
  | off h1 h2 _ ih1 ih2 =>
    intro l' s' h
    rw [List.cons_append, List.append_assoc]
    exact .off h1 h2 (ih2 h)

/-- What a cache holds after a history that started without entries. -/
def StockedItems (env : Env) (C : Caching) (known : Item → Prop) (d : Nat) (vs : List Evaluation) (w : World) : Prop :=
  ∀ text expires en, w.fs (entryFile env C.dir C.pre text expires) = some en →
    ∃ e i o body S data x t, known (.cached e i o body) ∧ itemFile env S C data e i o body = entryFile env C.dir C.pre text expires ∧
      en.content = some (trim (segText x)) ∧ en.mtime ≤ t + d ∧ FilledBy vs d t true c!"cache" body x

theorem StockedItems.more {env : Env} {C : Caching} {known : Item → Prop} {d : Nat} {vs vs' : List Evaluation} {w w' : World}
    (h : StockedItems env C known d vs w) (hv : ∀ v ∈ vs, v ∈ vs')
    (hw : ∀ text expires, w'.fs (entryFile env C.dir C.pre text expires) = w.fs (entryFile env C.dir C.pre text expires)) :
    StockedItems env C known d vs' w' := by
  intro text expires en hen
  rw [hw] at hen
  obtain ⟨e, i, o, body, S, data, x, t, h1, h2, h3, h4, h5⟩ := h text expires en hen
  exact ⟨e, i, o, body, S, data, x, t, h1, h2, h3, h4, filled_more hv h5 (Nat.le_refl _)⟩

mutual
/-- The clock does not go back. -/
theorem item_tick (env : Env) (S : Site) (C : Caching) : ∀ (x : Item) (al : Str) (c : Bool) (m : Mem) (w : World),
    w.tick ≤ (x.means env S C al c m w).2.2.tick
  | .plain l, al, c, m, w => by simp only [Item.means]; exact Nat.le_refl _
  | .cached e i o body, al, c, m, w => by
    simp only [Item.means]
    exact cachedIn_tick (fun m w => items_tick env S C body _ _ m w) _ _
  | .hole l, al, c, m, w => by
    simp only [Item.means]
    split
    · exact Nat.le_refl _
    · exact items_tick env S C l c!"cache" false { m with bifs := m.bifs + 1 } w
theorem items_tick (env : Env) (S : Site) (C : Caching) : ∀ (l : List Item) (al : Str) (c : Bool) (m : Mem) (w : World),
    w.tick ≤ (itemsMean env S C al c l m w).2.2.tick
  | [], al, c, m, w => by simp only [itemsMean]; exact Nat.le_refl _
  | x :: l, al, c, m, w => by
    simp only [itemsMean]
    exact Nat.le_trans (item_tick env S C x al c m w) (items_tick env S C l al c _ _)
end

mutual
theorem item_filled {env : Env} {S : Site} {C : Caching} {known : Item → Prop} (hsep : SeparateItems env C known) {d lo hi T : Nat}
    (hclock : ∀ t, lo ≤ t → t ≤ hi → T ≤ env.now t ∧ env.now t ≤ T + d) : ∀ (x : Item) (al : Str) (c : Bool) (m : Mem) (w : World)
    (vs : List Evaluation), known x → StockedItems env C known d vs w → lo ≤ w.tick → (x.means env S C al c m w).2.2.tick ≤ hi →
    (∃ s, FilledBy (vs ++ x.evaluates env S C T al c m w) d T c al [x] s ∧ (x.means env S C al c m w).1 = segText s) ∧
      StockedItems env C known d (vs ++ x.evaluates env S C T al c m w) (x.means env S C al c m w).2.2
  | .plain l, al, c, m, w, vs, hk, hst, hlo, hhi => by
    simp only [Item.means, Item.evaluates]
    refine ⟨⟨[.text (meansAll S al l m).1], ?_, by simp [segText]⟩, hst.more (by simp +contextual) (fun _ _ => rfl)⟩
    exact FilledBy.plain (d := d) (t := T) (vs := vs ++ [⟨S, al, l, m, T⟩]) (al := al) ⟨S, al, l, m, T⟩ (by simp) rfl (Nat.le_refl _) (.nil _ _ _)
  | .hole l, al, c, m, w, vs, hk, hst, hlo, hhi => by
    cases c with
    | true =>
      simp only [Item.means, Item.evaluates, if_true, List.append_nil]
      exact ⟨⟨[.hole l], .hole l (.nil _ _ _), by simp [segText]⟩, hst⟩
    | false =>
      simp only [Item.means, Item.evaluates, Bool.false_eq_true, if_false] at hhi ⊢
      obtain ⟨⟨x, h1, hx⟩, h2⟩ := items_filled hsep hclock l c!"cache" false { m with bifs := m.bifs + 1 } w vs (hsep.excluded l hk) hst hlo hhi
      refine ⟨?_, h2⟩
      obtain ⟨z, hz⟩ := trimmed_exists x
      refine ⟨z ++ [], .evaluated h1 hz (.nil T false al), ?_⟩
      rw [List.append_nil, hz.2, ← hx]
      exact trim_idem _
  | .cached e i o body, al, c, m, w, vs, hk, hst, hlo, hhi => by
    -- the text of a part that is evaluated
    have fresh : ∀ (q : Bool) (w1 : World), w1.fs = w.fs → lo ≤ w1.tick →
        (blockIn (itemsMean env S C c!"cache" q body) { m with bifs := m.bifs + 1 } w1).2.2.tick ≤ hi →
        (∃ s, FilledBy (vs ++ itemsEvaluate env S C T c!"cache" q body { m with bifs := m.bifs + 1 } w1) d T q c!"cache" body s ∧
            (itemsMean env S C c!"cache" q body { m with bifs := m.bifs + 1 } w1).1 = segText s) ∧
          StockedItems env C known d (vs ++ itemsEvaluate env S C T c!"cache" q body { m with bifs := m.bifs + 1 } w1)
            (blockIn (itemsMean env S C c!"cache" q body) { m with bifs := m.bifs + 1 } w1).2.2 := by
      intro q w1 hfs h1 h2
      exact items_filled hsep hclock body c!"cache" q _ w1 vs (hsep.inner e i o body hk) (hst.more (fun _ h => h) (fun _ _ => by rw [hfs])) h1 h2
    have wrap : ∀ {us : List Evaluation} {t : Nat} {y : List Seg}, FilledBy us d t true c!"cache" body y → T - (lifetime e + d) ≤ t →
        ∃ s, FilledBy us d T c al [.cached e i o body] s ∧ trim (trim (segText y)) = segText s := by
      intro us t y h1 h2
      obtain ⟨z, hz⟩ := trimmed_exists y
      refine ⟨z ++ [], .stored (filled_more (fun _ h => h) h1 h2) hz (.nil T c al), ?_⟩
      rw [List.append_nil, hz.2, trim_idem]
    simp only [Item.means, Item.evaluates] at hhi ⊢
    generalize hf : itemFile env S C m.data e i o body = file at hhi ⊢
    unfold cachedIn at hhi ⊢
    by_cases hon : C.on m.data
    · have hon' : C.on ({ m with bifs := m.bifs + 1 } : Mem).data := hon
      rw [if_pos hon'] at hhi ⊢
      rw [if_pos hon]
      rw [decide_eq_true hon, Bool.or_true] at hhi ⊢
      cases hfr : freshIn env e file w with
      | some text =>
        rw [hfr] at hhi
        simp only at hhi ⊢
        have hm2 : StockedItems env C known d (vs ++ []) (looked file w) :=
          hst.more (by simp) (fun _ _ => by rw [looked_fs])
        refine ⟨?_, hm2⟩
        unfold freshIn at hfr
        cases hen : w.fs file with
        | none => rw [hen] at hfr; simp at hfr
        | some en =>
          rw [hen] at hfr
          simp only at hfr
          split at hfr
          · simp at hfr
          · next hx =>
            simp only [Option.some.injEq] at hfr
            have hen' := hen
            rw [← hf] at hen'
            obtain ⟨e', i', o', body', S', data', x, t, h1, h2, h3, h4, h5⟩ := hst _ _ en hen'
            have := hsep.entries _ _ _ _ _ _ _ _ h1 hk _ _ _ _ h2
            subst this
            rw [h3] at hfr
            simp only [Option.getD_some] at hfr
            rw [← hfr, List.append_nil]
            have hT := (hclock w.tick hlo (Nat.le_trans (looked_tick file w) hhi)).1
            exact wrap h5 (by omega)
      | none =>
        rw [hfr] at hhi
        simp only at hhi ⊢
        have hle : (blockIn (itemsMean env S C c!"cache" true body) { m with bifs := m.bifs + 1 } (looked file w)).2.2.tick ≤ hi :=
          Nat.le_trans (Nat.le_succ _) hhi
        obtain ⟨⟨x, h1, hx⟩, h2⟩ := fresh true (looked file w) (looked_fs file w) (Nat.le_trans hlo (looked_tick file w)) hle
        refine ⟨?_, ?_⟩
        · obtain ⟨s, k1, k2⟩ := wrap h1 (by omega)
          refine ⟨s, k1, ?_⟩
          rw [← k2, ← hx]
          rfl
        · intro text expires en hen
          simp only [storedIn] at hen
          split at hen
          · next heq =>
            simp only [Option.some.injEq] at hen
            refine ⟨e, i, o, body, S, m.data, x, T, hk, hf.trans heq.symm, by rw [← hen, ← hx]; rfl, ?_, h1⟩
            rw [← hen]
            refine (hclock _ ?_ hle).2
            exact Nat.le_trans (Nat.le_trans hlo (looked_tick file w)) (items_tick env S C body _ _ _ _)
          · exact h2 text expires en hen
    · have hon' : ¬ C.on ({ m with bifs := m.bifs + 1 } : Mem).data := hon
      rw [if_neg hon'] at hhi ⊢
      rw [if_neg hon]
      rw [decide_eq_false hon, Bool.or_false] at hhi ⊢
      obtain ⟨⟨x, h1, hx⟩, h2⟩ := fresh c w rfl hlo hhi
      refine ⟨?_, h2⟩
      obtain ⟨z, hz⟩ := trimmed_exists x
      refine ⟨z ++ [], .off h1 hz (.nil T c al), ?_⟩
      rw [List.append_nil, hz.2, ← hx]
      exact trim_idem _
theorem items_filled {env : Env} {S : Site} {C : Caching} {known : Item → Prop} (hsep : SeparateItems env C known) {d lo hi T : Nat}
    (hclock : ∀ t, lo ≤ t → t ≤ hi → T ≤ env.now t ∧ env.now t ≤ T + d) : ∀ (l : List Item) (al : Str) (c : Bool) (m : Mem) (w : World)
    (vs : List Evaluation), (∀ x ∈ l, known x) → StockedItems env C known d vs w → lo ≤ w.tick → (itemsMean env S C al c l m w).2.2.tick ≤ hi →
    (∃ s, FilledBy (vs ++ itemsEvaluate env S C T al c l m w) d T c al l s ∧ (itemsMean env S C al c l m w).1 = segText s) ∧
      StockedItems env C known d (vs ++ itemsEvaluate env S C T al c l m w) (itemsMean env S C al c l m w).2.2
  | [], al, c, m, w, vs, hk, hst, hlo, hhi => by
    simp only [itemsMean, itemsEvaluate, List.append_nil]
    exact ⟨⟨[], .nil _ _ _, rfl⟩, hst⟩
  | x :: l, al, c, m, w, vs, hk, hst, hlo, hhi => by
    simp only [itemsMean, itemsEvaluate] at hhi ⊢
    obtain ⟨⟨s1, h1, e1⟩, h2⟩ := item_filled (S := S) hsep hclock x al c m w vs (hk x (by simp)) hst hlo
      (Nat.le_trans (items_tick env S C l al c _ _) hhi)
    obtain ⟨⟨s2, h3, e2⟩, h4⟩ := items_filled (S := S) hsep hclock l al c _ _ _ (fun y hy => hk y (by simp [hy])) h2
      (Nat.le_trans hlo (item_tick env S C x al c m w)) hhi
    rw [← List.append_assoc]
    refine ⟨⟨s1 ++ s2, filled_append (l := [x]) (filled_more (fun v hv => List.mem_append.2 (.inl hv)) h1 (Nat.le_refl _)) h3, ?_⟩, h4⟩
    rw [segText_append, e1, e2]
end

theorem asked_stockedItems {env : Env} {C : Caching} {known : Item → Prop} (hsep : SeparateItems env C known) {d : Nat} {w0 w : World}
    {vs : List Evaluation} (h : AskedItems env C known d w0 vs w) (h0 : ∀ text expires, w0.fs (entryFile env C.dir C.pre text expires) = none) :
    StockedItems env C known d vs w := by
  induction h with
  | start =>
    intro text expires en h
    rw [h0] at h
    simp at h
  | ask S l m _ hk hc ih => exact (items_filled hsep (fun t h1 h2 => hc t h1 h2) l [] false m _ _ hk ih (Nat.le_refl _) (Nat.le_refl _)).2
  | other _ hw ih => exact ih.more (fun _ h => h) hw

mutual
/-- The evaluations of a request have its time. -/
theorem item_when (env : Env) (S : Site) (C : Caching) (T : Nat) : ∀ (x : Item) (al : Str) (c : Bool) (m : Mem) (w : World),
    ∀ v ∈ x.evaluates env S C T al c m w, v.at' = T
  | .plain l, al, c, m, w, v, hv => by
    simp only [Item.evaluates, List.mem_cons, List.not_mem_nil, or_false] at hv
    rw [hv]
  | .cached e i o body, al, c, m, w, v, hv => by
    simp only [Item.evaluates] at hv
    split at hv
    · split at hv
      · simp at hv
      · exact items_when env S C T body _ _ _ _ v hv
    · exact items_when env S C T body _ _ _ _ v hv
  | .hole l, al, c, m, w, v, hv => by
    simp only [Item.evaluates] at hv
    split at hv
    · simp at hv
    · exact items_when env S C T l _ _ _ _ v hv
theorem items_when (env : Env) (S : Site) (C : Caching) (T : Nat) : ∀ (l : List Item) (al : Str) (c : Bool) (m : Mem) (w : World),
    ∀ v ∈ itemsEvaluate env S C T al c l m w, v.at' = T
  | [], al, c, m, w, v, hv => by simp [itemsEvaluate] at hv
  | x :: l, al, c, m, w, v, hv => by
    simp only [itemsEvaluate, List.mem_append] at hv
    rcases hv with hv | hv
    · exact item_when env S C T x al c m w v hv
    · exact items_when env S C T l al c _ _ v hv
end

/-- What holds for the parts of a page, and for the parts in them, holds for the excluded parts that are left. -/
theorem filled_all {P : Item → Prop} (hin : ∀ e i o body, P (.cached e i o body) → ∀ x ∈ body, P x) (hex : ∀ body, P (.hole body) → ∀ x ∈ body, P x)
    {vs : List Evaluation} {d : Nat} {t : Nat} {c : Bool} {al : Str} {l : List Item} {s : List Seg} (h : FilledBy vs d t c al l s) :
    (∀ x ∈ l, P x) → ∀ b ∈ segHoles s, P (.hole b) := by
  have sides : ∀ {x y s : List Seg}, Unpadded x y → (∀ b ∈ segHoles x, P (.hole b)) → (∀ b ∈ segHoles s, P (.hole b)) →
      ∀ b ∈ segHoles (y ++ s), P (.hole b) := by
    intro x y s h h1 h2 b hb
    rw [segHoles_append, h.1] at hb
    rcases List.mem_append.1 hb with hb | hb
    · exact h1 b hb
    · exact h2 b hb
  induction h with
  | nil t c al => intro _ b hb; simp [segHoles] at hb
  | plain v _ _ _ _ ih => intro hP; exact ih (fun x hx => hP x (by simp [hx]))
  | hole l _ ih =>
    intro hP b hb
    simp only [segHoles, List.mem_cons] at hb
    rcases hb with rfl | hb
    · exact hP _ (by simp)
    · exact ih (fun x hx => hP x (by simp [hx])) b hb
  | evaluated _ h2 _ ih1 ih2 => intro hP; exact sides h2 (ih1 (hex _ (hP _ List.mem_cons_self))) (ih2 (fun x hx => hP x (by simp [hx])))
  | stored _ h2 _ ih1 ih2 => intro hP; exact sides h2 (ih1 (hin _ _ _ _ (hP _ List.mem_cons_self))) (ih2 (fun x hx => hP x (by simp [hx])))
  | off _ h2 _ ih1 ih2 => intro hP; exact sides h2 (ih1 (hin _ _ _ _ (hP _ List.mem_cons_self))) (ih2 (fun x hx => hP x (by simp [hx])))

/-- A pass over the excluded parts is the evaluation of the page of the excluded parts and the texts after them. -/
theorem holesShow_items (env : Env) (S : Site) (C : Caching) : ∀ (rest : List (List Item × Str)) (m : Mem) (w : World),
    itemsMean env S C [] false (restItems rest) m w = holesShow env S C rest m w
  | [], m, w => rfl
  | (l, t) :: rest, m, w => by
    simp only [restItems, itemsMean, holesShow, holesShow_items env S C rest, Item.means]
    simp [meansAll, Node.means]

/-! ### C119 -/

mutual
/-- The excluded parts of a part, in order. -/
def Spec.Item.holes : Item → List (List Item)
  | .plain _ => []
  | .cached _ _ _ body => holesAll body
  | .hole l => [l]
/-- Those of a page. -/
def Spec.holesAll : List Item → List (List Item)
  | [] => []
  | x :: l => x.holes ++ holesAll l
end

/-- **C119 (never stored).** Whatever evaluations a part of a page that is stored in the cache is filled with, its excluded parts are there as
they are written, all of them and in order: there is no evaluation of an excluded part in it. -/
theorem C119_stored (vs : List Evaluation) (d t : Nat) (al : Str) (l : List Item) (s : List Seg) (h : FilledBy vs d t true al l s) :
    segHoles s = holesAll l := by
  generalize hc : true = c at h
  induction h with
  | nil t c al => rfl
  | plain v h1 h2 h3 _ ih => simp [segHoles, holesAll, Item.holes, ih hc]
  | hole l _ ih => simp [segHoles, holesAll, Item.holes, ih hc]
  | evaluated _ _ _ _ _ => cases hc
  | stored _ h2 _ ih1 ih2 => simp [segHoles_append, h2.1, holesAll, Item.holes, ih1 rfl, ih2 hc]
  | off _ h2 _ ih1 ih2 => simp [segHoles_append, h2.1, holesAll, Item.holes, ih1 hc, ih2 hc]

/-- **C119 (how old).** For every history of a cache that had no entries at the start — any number of requests, with any data, for any sites
and pages of templates, cached parts and excluded parts, and any other activity between them that leaves the entries as they are — in
which every request takes at most `d` seconds, and such that cached parts that share an entry have the same parts in them: what a
request has for its page before it is completed is made of evaluations in this request, for what is not in a stored part; and, for each
stored part, of evaluations of its templates in requests that began at most the lifetime and `d` before, with the excluded parts still
to be evaluated. -/
theorem C119_age (env : Env) (C : Caching) (known : Item → Prop) (hsep : SeparateItems env C known) (d : Nat) (w0 w : World)
    (vs : List Evaluation) (h : AskedItems env C known d w0 vs w) (h0 : ∀ text expires, w0.fs (entryFile env C.dir C.pre text expires) = none)
    (S : Site) (l : List Item) (m : Mem) (hk : ∀ x ∈ l, known x)
    (hc : ∀ t, w.tick ≤ t → t ≤ (itemsMean env S C [] false l m w).2.2.tick → env.now w.tick ≤ env.now t ∧ env.now t ≤ env.now w.tick + d) :
    ∃ s, FilledBy (vs ++ itemsEvaluate env S C (env.now w.tick) [] false l m w) d (env.now w.tick) false [] l s ∧
      (itemsMean env S C [] false l m w).1 = segText s :=
  (items_filled hsep (fun t h1 h2 => hc t h1 h2) l [] false m _ _ hk (asked_stockedItems hsep h h0) (Nat.le_refl _) (Nat.le_refl _)).1

theorem rest_known {P : Item → Prop} (hp : ∀ l, P (.plain l)) (rest : List (List Item × Str)) (h : ∀ b ∈ rest.map (·.1), P (.hole b)) :
    ∀ x ∈ restItems rest, P x := by
  induction rest with
  | nil => intro x hx; simp [restItems] at hx
  | cons p rest ih =>
    obtain ⟨b, t⟩ := p
    intro x hx
    simp only [restItems, List.mem_cons] at hx
    rcases hx with rfl | rfl | hx
    · exact h b (by simp)
    · exact hp _
    · exact ih (fun b hb => h b (by simp only [List.map_cons, List.mem_cons]; exact .inr hb)) x hx

/-- **C119 (a pass).** Also a pass over the excluded parts that are left continues the history of the cache, and what it gives is made of evaluations
in this pass, for what is not in a stored part, and, for the stored parts in the excluded parts, of evaluations as old as C119_age says: the
pieces that `Passes` requires always exist. -/
theorem C119_pass (env : Env) (C : Caching) (known : Item → Prop) (hsep : SeparateItems env C known) (d : Nat) (w0 w : World)
    (vs : List Evaluation) (h : AskedItems env C known d w0 vs w) (h0 : ∀ text expires, w0.fs (entryFile env C.dir C.pre text expires) = none)
    (S : Site) (y : List Seg) (m : Mem) (hk : ∀ b ∈ segHoles y, known (.hole b))
    (hc : ∀ t, w.tick ≤ t → t ≤ (holesShow env S C (segRest y) m w).2.2.tick → env.now w.tick ≤ env.now t ∧ env.now t ≤ env.now w.tick + d) :
    ∃ q now z y', q = holesShow env S C (segRest y) m w ∧ now = itemsEvaluate env S C (env.now w.tick) [] false (restItems (segRest y)) m w ∧
      AskedItems env C known d w0 (vs ++ now) q.2.2 ∧ (∀ v ∈ now, v.at' = env.now w.tick) ∧
      FilledBy (vs ++ now) d (env.now w.tick) false [] (restItems (segRest y)) z ∧ q.1 = segText z ∧ (∀ b ∈ segHoles z, known (.hole b)) ∧
      Unpadded (.text (segFirst y) :: z) y' := by
  have hk2 : ∀ x ∈ restItems (segRest y), known x := rest_known hsep.plain _ (by rw [segRest_holes]; exact hk)
  rw [← holesShow_items] at hc ⊢
  obtain ⟨z, h1, h2⟩ := C119_age env C known hsep d w0 w vs h h0 S _ m hk2 hc
  obtain ⟨y', hy'⟩ := trimmed_exists (.text (segFirst y) :: z)
  exact ⟨_, itemsEvaluate env S C (env.now w.tick) [] false (restItems (segRest y)) m w, z, y', rfl, rfl, .ask S _ m h hk2 hc,
    fun v hv => items_when env S C _ _ [] _ _ _ v hv, h1, h2, filled_all hsep.inner hsep.excluded h1 hk2, hy'⟩

/-- Excluded and cached parts as required, wherever they are. -/
def HoleOk (S : Site) (exps : List Str) : Item → Prop
  | .plain _ => True
  | .cached _ _ _ body => ItemsOk S c!"cache" body ∧ ∀ e ∈ livesItems body, e ∈ exps
  | .hole body => ItemsOk S c!"cache" body ∧ ∀ e ∈ livesItems body, e ∈ exps

theorem holeOk_items {S : Site} {exps : List Str} {al : Str} : ∀ (l : List Item), ItemsOk S al l → (∀ e ∈ livesItems l, e ∈ exps) →
    ∀ x ∈ l, HoleOk S exps x
  | [], _, _, x, hx => by simp at hx
  | y :: l, h, he, x, hx => by
    simp only [ItemsOk] at h
    simp only [livesItems, List.mem_append] at he
    rcases List.mem_cons.1 hx with rfl | hx
    · cases x with
      | plain l => trivial
      | cached e i o body =>
        simp only [Item.Ok] at h
        exact ⟨h.1.2.2.2, fun a ha => he a (.inl (by simp only [Item.lives]; exact List.mem_cons_of_mem _ ha))⟩
      | hole body =>
        simp only [Item.Ok] at h
        exact ⟨h.1, fun a ha => he a (.inl (by simpa only [Item.lives] using ha))⟩
    · exact holeOk_items l h.2 (fun e h => he e (.inr h)) x hx

theorem filled_holeOk {S : Site} {exps : List Str} {vs : List Evaluation} {d : Nat} {t : Nat} {c : Bool} {al : Str} {l : List Item} {s : List Seg}
    (h : FilledBy vs d t c al l s) (hl : ∀ x ∈ l, HoleOk S exps x) : ∀ b ∈ segHoles s, HoleOk S exps (.hole b) :=
  filled_all (P := HoleOk S exps) (fun _ _ _ body hb => holeOk_items body hb.1 hb.2) (fun body hb => holeOk_items body hb.1 hb.2) h hl

/-- The passes are those that complete the page, and continue the history of the cache. -/
theorem passes_run {env : Env} {S : Site} {C : Caching} {known : Item → Prop} (hsep : SeparateItems env C known) {d max k : Nat} {exps : List Str}
    {w0 w w' : World} (h0 : ∀ text expires, w0.fs (entryFile env C.dir C.pre text expires) = none) {vs vs' : List Evaluation} {y y' : List Seg}
    {m m' : Mem} (h : Passes env S C d max vs y m w k vs' y' m' w') : AskedItems env C known d w0 vs w →
    (∀ b ∈ segHoles y, known (.hole b)) → (∀ b ∈ segHoles y, HoleOk S exps (.hole b)) →
    AskedItems env C known d w0 vs' w' ∧ Completes env S C exps max (segText y) m w k (segText y') m' w' := by
  induction h with
  | done hne => intro hA _ _; exact ⟨hA, .done hne⟩
  | @pass vs vs' y z y' y'' m m' w w' k hne hcalm hmax hclock hz hq hy' _ ih =>
    intro hA hk hok
    obtain ⟨_, _, _, _, rfl, rfl, k1, _⟩ := C119_pass env C known hsep d w0 w vs hA h0 S y (again m) hk hclock
    have hk2 := rest_known hsep.plain _ (by rw [segRest_holes]; exact hk)
    have hok2 := rest_known (P := HoleOk S exps) (fun _ => trivial) _ (by rw [segRest_holes]; exact hok)
    obtain ⟨g1, g2⟩ := ih k1 (by
        intro b hb
        rw [hy'.1] at hb
        exact filled_all hsep.inner hsep.excluded hz hk2 b hb) (by
        intro b hb
        rw [hy'.1] at hb
        exact filled_holeOk hz hok2 b hb)
    refine ⟨g1, ?_⟩
    rw [segText_split]
    rw [hy'.2, segText, ← hq] at g2
    cases hrest : segRest y with
    | nil =>
      exfalso
      apply hne
      rw [← segRest_holes, hrest]
      rfl
    | cons p rest =>
      obtain ⟨b, u⟩ := p
      rw [hrest] at g2 hmax
      refine .pass _ _ _ _ hcalm.1 ?_ hmax g2
      intro x hx
      rw [← hrest] at hx
      have := hok x.1 (by rw [← segRest_holes]; exact List.mem_map_of_mem hx)
      exact ⟨this.1, this.2, hcalm.2 x hx⟩

/-- **C119 (requests).** The render of a page with excluded parts continues the history of the cache.  There are pieces that fill the page as
C119_age says (without white space around them), and for every way in which they are completed by passes over the excluded parts that are left — with
the site and the data of *this* request, each pass filled as C119_pass says — the render prints the result, and the history goes on.  The passes
need that the texts have no BIFs and that the limit of BIFs is not reached. -/
theorem C119_requests (env : Env) (n : Nat) (w : World) (t : Tpl) (S : Site) (C : Caching) (l : List Item) (sh : Shared) (s d defs : Obj)
    (hnew : Shared.new env w t.schema = some sh) (hS : SiteOf env sh S) (hC : CachingOf sh C) (hW : Writable env)
    (hap : NotEntries env S C) (hsane : Spec.Sane env (livesItems l) w)
    (hok : ItemsOk S [] l) (hraw : t.raw = printItems l) (hb : c!"{:" <:+: printItems l)
    (hs : t.schema = .obj s) (hd : Obj.get? c!"data" s = some (.obj d))
    (hinh : Obj.get? c!"inherit" s = some (.obj defs)) (hdefs : Defs S defs)
    (hmax : (itemsMean env S C [] false l (startMem d defs) w).2.1.bifs ≤ sh.max)
    (known : Item → Prop) (hsep : SeparateItems env C known) (takes : Nat) (w0 : World) (vs : List Evaluation)
    (hist : AskedItems env C known takes w0 vs w) (h0 : ∀ text expires, w0.fs (entryFile env C.dir C.pre text expires) = none)
    (hk : ∀ x ∈ l, known x)
    (hc : ∀ k, w.tick ≤ k → k ≤ (itemsMean env S C [] false l (startMem d defs) w).2.2.tick →
      env.now w.tick ≤ env.now k ∧ env.now k ≤ env.now w.tick + takes) :
    ∃ r now x y, r = itemsMean env S C [] false l (startMem d defs) w ∧ AskedItems env C known takes w0 (vs ++ now) r.2.2 ∧
      (∀ v ∈ now, v.at' = env.now w.tick) ∧ FilledBy (vs ++ now) takes (env.now w.tick) false [] l x ∧ Unpadded x y ∧
      ∀ k vs' y' m' w', Passes env S C takes sh.max (vs ++ now) y r.2.1 r.2.2 k vs' y' m' w' → k ≤ n →
        AskedItems env C known takes w0 vs' w' ∧
        ∃ t', t.render env n w = .ok t' ∧ t'.out = replacements (trim (segText y')) ∧ t'.shared.schema.index c!"data" = .obj m'.data ∧
          t'.shared.w = w' := by
  obtain ⟨x, hx1, hx2⟩ := C119_age env C known hsep takes w0 w vs hist h0 S l (startMem d defs) hk hc
  obtain ⟨y, hy⟩ := trimmed_exists x
  have hnow : AskedItems env C known takes w0 (vs ++ itemsEvaluate env S C (env.now w.tick) [] false l (startMem d defs) w) _ :=
    .ask S l (startMem d defs) hist hk hc
  refine ⟨_, itemsEvaluate env S C (env.now w.tick) [] false l (startMem d defs) w, x, y, rfl, hnow,
    fun v hv => items_when env S C _ l [] _ _ _ v hv, hx1, hy, ?_⟩
  intro k vs' y' m' w' hp hkn
  obtain ⟨h1, h2⟩ := passes_run (exps := livesItems l) hsep h0 hp hnow (by rw [hy.1]; exact filled_all hsep.inner hsep.excluded hx1 hk)
    (by rw [hy.1]; exact filled_holeOk hx1 (holeOk_items l hok (fun _ h => h)))
  rw [hy.2, ← hx2] at h2
  obtain ⟨t', g1, g2, g3, g4⟩ := C119_render env n k w w' t S C l (livesItems l) sh s d defs _ m' hnew hS hC hW hap (fun _ h => h) hsane hok hraw hb hs hd
    hinh hdefs hmax h2 hkn
  exact ⟨h1, t', g1, g2.out, g3, g4⟩

/-! Texts without braces. -/

/-- The texts of the pieces. -/
def segTexts : List Seg → Str
  | [] => []
  | .text t :: s => t ++ segTexts s
  | .hole _ :: s => segTexts s

/-- How many characters `c` the excluded parts have. -/
def holesCount (c : Char) : List (List Item) → Nat
  | [] => 0
  | l :: r => (holeText l).count c + holesCount c r

theorem segText_count (c : Char) (s : List Seg) : (segText s).count c = (segTexts s).count c + holesCount c (segHoles s) := by
  induction s with
  | nil => rfl
  | cons x s ih => cases x <;> simp [segText, segTexts, segHoles, holesCount, ih] <;> omega

theorem trim_count {c : Char} (hc : isWs c = false) (s : Str) : (trim s).count c = s.count c := by
  obtain ⟨a, b, h1, h2, h3⟩ := trim_parts s
  have hb : ∀ w : Str, Blank w → w.count c = 0 := fun w hw => List.count_eq_zero.2 (fun h => by rw [hw c h] at hc; cases hc)
  have e : s.count c = (a ++ (trim s ++ b)).count c := by rw [← h1]
  rw [e, List.count_append, List.count_append, hb a h2, hb b h3]
  omega

theorem unpadded_texts {c : Char} (hc : isWs c = false) {x y : List Seg} (h : Unpadded x y) (hx : c ∉ segTexts x) : c ∉ segTexts y := by
  have h1 := segText_count c x
  have h2 := segText_count c y
  rw [h.1, h.2, trim_count hc, h1, List.count_eq_zero.2 hx] at h2
  exact List.count_eq_zero.1 (by omega)

theorem segTexts_append (a b : List Seg) : segTexts (a ++ b) = segTexts a ++ segTexts b := by
  induction a with
  | nil => rfl
  | cons x a ih => cases x <;> simp [segTexts, ih]

theorem filled_texts {c : Char} (hc : isWs c = false) {vs : List Evaluation} {d : Nat} {t : Nat} {q : Bool} {al : Str} {l : List Item} {s : List Seg}
    (h : FilledBy vs d t q al l s) (hv : ∀ v ∈ vs, c ∉ v.text) : c ∉ segTexts s := by
  induction h with
  | nil t q al => simp [segTexts]
  | plain v h1 h2 h3 _ ih => simp only [segTexts]; exact not_mem_append (hv v h1) ih
  | hole l _ ih => exact ih
  | evaluated _ h2 _ ih1 ih2 => rw [segTexts_append]; exact not_mem_append (unpadded_texts hc h2 ih1) ih2
  | stored _ h2 _ ih1 ih2 => rw [segTexts_append]; exact not_mem_append (unpadded_texts hc h2 ih1) ih2
  | off _ h2 _ ih1 ih2 => rw [segTexts_append]; exact not_mem_append (unpadded_texts hc h2 ih1) ih2

theorem segFirst_sub (s : List Seg) : ∀ c ∈ segFirst s, c ∈ segTexts s := by
  induction s with
  | nil => simp [segFirst]
  | cons x s ih =>
    cases x with
    | text t =>
      intro c hc
      simp only [segFirst, segTexts, List.mem_append] at hc ⊢
      rcases hc with hc | hc
      · exact .inl hc
      · exact .inr (ih c hc)
    | hole l => intro c hc; simp [segFirst] at hc

theorem segRest_sub (s : List Seg) : ∀ z ∈ segRest s, ∀ c ∈ z.2, c ∈ segTexts s := by
  induction s with
  | nil => simp [segRest]
  | cons x s ih =>
    cases x with
    | text t =>
      intro z hz c hc
      simp only [segRest] at hz
      simp only [segTexts, List.mem_append]
      exact .inr (ih z hz c hc)
    | hole l =>
      intro z hz c hc
      simp only [segRest, List.mem_cons] at hz
      simp only [segTexts]
      rcases hz with rfl | hz
      · exact segFirst_sub s c hc
      · exact ih z hz c hc

theorem calm_of {t : Str} (h1 : '{' ∉ t) (h2 : '}' ∉ t) : Calm t :=
  ⟨fun h => h1 (h.subset (by simp)), fun h => h2 (h.subset (by simp))⟩

/-- **C119 (texts).** When no evaluation gives braces, the pieces a page is filled with have no BIFs in their texts: what `Passes` requires. -/
theorem C119_texts (vs : List Evaluation) (hv : ∀ v ∈ vs, '{' ∉ v.text ∧ '}' ∉ v.text) (d t : Nat) (q : Bool) (al : Str) (l : List Item)
    (x y : List Seg) (h : FilledBy vs d t q al l x) (hy : Unpadded x y) : CalmSegs y := by
  have h1 := unpadded_texts (c := '{') (by decide) hy (filled_texts (by decide) h (fun v hx => (hv v hx).1))
  have h2 := unpadded_texts (c := '}') (by decide) hy (filled_texts (by decide) h (fun v hx => (hv v hx).2))
  exact ⟨calm_of (fun hx => h1 (segFirst_sub y _ hx)) (fun hx => h2 (segFirst_sub y _ hx)),
    fun z hz => calm_of (fun hx => h1 (segRest_sub y z hz _ hx)) (fun hx => h2 (segRest_sub y z hz _ hx))⟩

theorem before_unique {a b u v : Str} (ha : '{' ∉ a) (hb : '{' ∉ b) (h : a ++ '{' :: u = b ++ '{' :: v) : a = b ∧ u = v := by
  induction a generalizing b with
  | nil =>
    cases b with
    | nil => simpa using h
    | cons c b => simp only [List.nil_append, List.cons_append, List.cons.injEq] at h; exact absurd (by simp [← h.1]) hb
  | cons c a ih =>
    cases b with
    | nil => simp only [List.nil_append, List.cons_append, List.cons.injEq] at h; exact absurd (by simp [h.1]) ha
    | cons c' b =>
      simp only [List.cons_append, List.cons.injEq] at h
      obtain ⟨rfl, h⟩ := h
      obtain ⟨rfl, rfl⟩ := ih (fun hx => ha (List.mem_cons_of_mem _ hx)) (fun hx => hb (List.mem_cons_of_mem _ hx)) h
      exact ⟨rfl, rfl⟩

/-- **C119 (one excluded part).** A page that is a cached part with a template `a`, an excluded part with the code `h` and a template `b`, in a site with
the cache on.  What a request has, before it is completed, is a text of `a`, the excluded part and a text of `b`, where the texts are from evaluations in
requests that began at most the lifetime (and `d`) before; and completed it is these texts with the code `h` evaluated by this request
between them. -/
theorem C119_one (env : Env) (C : Caching) (w : World) (d T : Nat) (us : List Evaluation) (S : Site) (m : Mem) (e i o : Str) (a h b : List Node)
    (hv : ∀ v ∈ us, '{' ∉ v.text ∧ '}' ∉ v.text) (x y : List Seg) (hon : ∀ v ∈ us, v.l ≠ h)
    (hx : FilledBy us d T false [] [.cached e i o [.plain a, .hole [.plain h], .plain b]] x) (hy : Unpadded x y) :
    ∃ va ∈ us, ∃ vb ∈ us, va.l = a ∧ vb.l = b ∧ T ≤ va.at' + (lifetime e + d) ∧ T ≤ vb.at' + (lifetime e + d) ∧
      segFirst y ++ (holesShow env S C (segRest y) m w).1 =
        trimStart va.text ++ (trim (meansAll S c!"cache" h { m with bifs := m.bifs + 1 }).1 ++ trimEnd vb.text) := by
  have h1 := unpadded_texts (c := '{') (by decide) hy (filled_texts (by decide) hx (fun v hx => (hv v hx).1))
  cases hx with
  | off g1 g2 g3 =>
    exfalso
    cases g1 with
    | plain va k1 k2 k3 k4 =>
      cases k4 with
      | evaluated j1 j2 j3 =>
        cases j1 with
        | plain v' j1 _ _ _ => exact hon v' j1 rfl
  | stored g1 g2 g3 =>
    cases g3
    cases g1 with
    | plain va k1 k2 k3 k4 =>
      cases k4 with
      | hole _ k5 =>
        cases k5 with
        | plain vb j1 j2 j3 j4 =>
          cases j4
          rename_i z
          refine ⟨va, k1, vb, j1, rfl, rfl, by omega, by omega, ?_⟩
          rw [List.append_nil] at hy
          have hh : segHoles y = [[.plain h]] := by rw [hy.1, g2.1]; rfl
          have ht : segText y = trimStart va.text ++ (holeText [.plain h] ++ trimEnd vb.text) := by
            rw [hy.2, g2.2, trim_idem]
            simp only [segText, List.append_nil]
            have e1 : trimStart (va.text ++ (holeText [.plain h] ++ vb.text)) = trimStart va.text ++ (holeText [.plain h] ++ vb.text) := by
              rw [trimStart_append]
              split
              · next hbl =>
                have : trimStart va.text = [] := by have := trimStart_blank (s := []) hbl; rw [List.append_nil] at this; exact this
                rw [this, holeText_start, List.nil_append]
              · rfl
            unfold trim
            rw [e1, trimEnd_append, if_neg, holeText_end]
            intro hbl
            have := hbl '{' (by simp [holeText, bifText])
            revert this
            decide
          have hr := segRest_holes y
          rw [hh] at hr
          cases hrest : segRest y with
          | nil => rw [hrest] at hr; simp at hr
          | cons p r =>
            obtain ⟨l', u⟩ := p
            rw [hrest] at hr
            simp only [List.map_cons, List.cons.injEq, List.map_eq_nil_iff] at hr
            obtain ⟨hl', rfl⟩ := hr
            subst hl'
            rw [segText_split, hrest] at ht
            simp only [holesText, List.append_nil] at ht
            have hf : '{' ∉ segFirst y := fun hx => h1 (segFirst_sub y _ hx)
            have hva : '{' ∉ trimStart va.text := fun hx => (hv va k1).1 (by
              obtain ⟨a, ha, _⟩ := trimStart_eq va.text
              rw [ha]
              exact List.mem_append.2 (.inr hx))
            have hcons : ∀ s : Str, holeText [.plain h] ++ s = '{' :: (c!":!cache;" ++ (c!" " ++ printItems [.plain h] ++ c!" ") ++ c!":}" ++ s) := by
              intro s; simp [holeText, bifText]
            rw [hcons, hcons] at ht
            obtain ⟨q1, q2⟩ := before_unique hf hva ht
            rw [q1, List.append_cancel_left q2]
            simp [holesShow, holeIn, blockIn, itemsMean, Item.means, trim_idem]

/-! Examples. -/

/-- The code of an excluded part. -/
def Sample.holeCode : List Node := [.text c!"[", .var false c!"x", .text c!"]"]
/-- What is in the cached part. -/
def Sample.holeBody : List Item := [.plain [.text c!"<p>", .var false c!"x"], .hole [.plain Sample.holeCode], .plain [.text c!"</p>"]]
/-- The page. -/
def Sample.holePage : List Item := [.cached c!"100" [] [] Sample.holeBody]

example : printItems Sample.holePage = c!"{:cache; /100/// >> <p>{:;x:}{:!cache; [{:;x:}] :}</p> :}" := by decide +kernel

theorem Sample.holeCode_ok : AllOk Sample.pageSite c!"cache" Sample.holeCode := by
  simp only [Sample.holeCode, AllOk, Node.Ok, and_true]
  exact ⟨textOk_of (by decide), nameOk_of (by decide), textOk_of (by decide)⟩

theorem Sample.holePage_ok : ItemsOk Sample.pageSite [] Sample.holePage := by
  simp only [Sample.holePage, Sample.holeBody, ItemsOk, Item.Ok, and_true]
  refine ⟨by unfold ArgOk; decide, by unfold ArgOk; decide, by unfold ArgOk; decide, ?_, Sample.holeCode_ok, ?_⟩
  · simp only [AllOk, Node.Ok, and_true]
    exact ⟨textOk_of (by decide), nameOk_of (by decide)⟩
  · simp only [AllOk, Node.Ok, and_true]
    exact textOk_of (by decide)

/-- A request. -/
def Sample.askHole (l : List Item) (x : Str) (w : World) : RRes :=
  (Sample.tpl (Sample.schema 1000 [(c!"x", .str x)] Sample.pageDefs) (printItems l)).render Sample.envC 10 w

theorem Sample.hole_lives : ∀ x ∈ livesItems Sample.holePage, x = c!"100" := by
  intro x hx
  simpa [Sample.holePage, Sample.holeBody, livesItems, Item.lives] using hx

theorem Sample.hole_sane : Spec.Sane Sample.envC (livesItems Sample.holePage) Sample.pageWorld := by
  have h100 : lifetime c!"100" = 100 := by decide +kernel
  refine ⟨Sample.page_sane.readable, ?_, ?_⟩
  · intro file e x h hx
    simp only [Sample.pageWorld] at h
    split at h
    · simp only [Option.some.injEq] at h
      subst h
      rw [Sample.hole_lives x hx, h100]
      decide
    · simp at h
  · intro t x hx
    have : Sample.envC.now t ≤ 1500 := by simp only [Sample.envC]; omega
    rw [Sample.hole_lives x hx, h100]
    omega

set_option maxRecDepth 10000 in
/-- Two requests: the second shows the cached part of the first, and its own excluded part. -/
example :
    (Sample.outOf (Sample.askHole Sample.holePage c!"A" Sample.pageWorld)).map (·.1) = some c!"<p>A[A]</p>" ∧
    (Sample.outOf (Sample.askHole Sample.holePage c!"B" (Sample.after 50 (Sample.askHole Sample.holePage c!"A" Sample.pageWorld)))).map (·.1) =
      some c!"<p>A[B]</p>" := by
  decide +kernel

set_option maxRecDepth 10000 in
/-- The premises of C119_render are met. -/
example : ∃ (k : Nat) (text : Str) (m' : Mem) (w' : World) (t' : Tpl), k ≤ 10 ∧ Sample.askHole Sample.holePage c!"X" Sample.pageWorld = .ok t' ∧ TextResult t' text m'.bifs ∧
    t'.shared.schema.index c!"data" = .obj m'.data ∧ t'.shared.w = w' ∧ text = c!"<p>X[X]</p>" := by
  have hcomp : ∃ text m' w', text = c!"<p>X[X]</p>" ∧ Completes Sample.envC Sample.pageSite Sample.caching (livesItems Sample.holePage) 1000 (c!"<p>X" ++ holesText [([.plain Sample.holeCode], c!"</p>")])
      (itemsMean Sample.envC Sample.pageSite Sample.caching [] false Sample.holePage (startMem [(c!"x", .str c!"X")] Sample.pageDefs) Sample.pageWorld).2.1
      (itemsMean Sample.envC Sample.pageSite Sample.caching [] false Sample.holePage (startMem [(c!"x", .str c!"X")] Sample.pageDefs) Sample.pageWorld).2.2
      1 text m' w' :=
    ⟨_, _, _, by decide +kernel, .pass c!"<p>X" [.plain Sample.holeCode] c!"</p>" [] (by unfold Calm; decide) (by
      intro x hx
      simp only [List.mem_cons, List.not_mem_nil, or_false] at hx
      subst hx
      exact ⟨by simp only [ItemsOk, Item.Ok, and_true]; exact Sample.holeCode_ok, by simp [livesItems, Item.lives], by unfold Calm; decide⟩)
      (by decide +kernel) (.done (by decide +kernel))⟩
  have htext : trim (itemsMean Sample.envC Sample.pageSite Sample.caching [] false Sample.holePage (startMem [(c!"x", .str c!"X")] Sample.pageDefs)
      Sample.pageWorld).1 = c!"<p>X" ++ holesText [([.plain Sample.holeCode], c!"</p>")] := by decide +kernel
  rw [← htext] at hcomp
  obtain ⟨text, m', w', ht, hcomp⟩ := hcomp
  obtain ⟨t', h1, h2, h3, h4⟩ := C119_render Sample.envC 10 1 Sample.pageWorld _
    (Sample.tpl (Sample.schema 1000 [(c!"x", .str c!"X")] Sample.pageDefs) (printItems Sample.holePage))
    Sample.pageSite Sample.caching Sample.holePage (livesItems Sample.holePage) _ _ [(c!"x", .str c!"X")] Sample.pageDefs _ _
    rfl (Sample.page_site rfl).1 (Sample.page_site rfl).2
    ⟨fun _ _ => rfl, fun _ _ => rfl, fun _ _ => rfl⟩ Sample.page_apart (fun _ h => h) Sample.hole_sane Sample.holePage_ok rfl (by decide +kernel) rfl rfl rfl
    ⟨.inr ⟨_, rfl⟩, rfl, rfl⟩ (by decide +kernel) hcomp (by decide)
  exact ⟨1, text, m', w', t', by decide, h1, h2, h3, h4, ht⟩

/-- A page with a cached part with an excluded part with a cached part with an excluded part. -/
def Sample.deepPage : List Item := [.cached c!"100" c!"a" [] [.plain [.text c!"<p>", .var false c!"x"],
  .hole [.plain Sample.holeCode, .cached c!"10" c!"b" [] [.plain [.text c!"<i>", .var false c!"x", .text c!"</i>"], .hole [.plain [.var false c!"x"]]]],
  .plain [.text c!"</p>"]]]

example : printItems Sample.deepPage =
    c!"{:cache; /100/a// >> <p>{:;x:}{:!cache; [{:;x:}]{:cache; /10/b// >> <i>{:;x:}</i>{:!cache; {:;x:} :} :} :}</p> :}" := by decide +kernel

set_option maxRecDepth 10000 in
/-- Three requests: the cached parts are those of the first request as long as they last, the excluded parts those of the request. -/
example :
    (Sample.outOf (Sample.askHole Sample.deepPage c!"A" Sample.pageWorld)).map (·.1) = some c!"<p>A[A]<i>A</i>A</p>" ∧
    (Sample.outOf (Sample.askHole Sample.deepPage c!"B" (Sample.after 5 (Sample.askHole Sample.deepPage c!"A" Sample.pageWorld)))).map (·.1) =
      some c!"<p>A[B]<i>A</i>B</p>" ∧
    (Sample.outOf (Sample.askHole Sample.deepPage c!"B" (Sample.after 50 (Sample.askHole Sample.deepPage c!"A" Sample.pageWorld)))).map (·.1) =
      some c!"<p>A[B]<i>B</i>B</p>" := by
  decide +kernel

/-- The parts of the page. -/
def Sample.holeKnown : Item → Prop
  | .plain _ => True
  | .cached _ _ _ body => body = Sample.holeBody
  | .hole body => body = [.plain Sample.holeCode]

theorem Sample.hole_separate : SeparateItems Sample.envC Sample.caching Sample.holeKnown := by
  refine ⟨fun _ => trivial, ?_, ?_, ?_⟩
  · intro e i o body h x hx
    simp only [Sample.holeKnown] at h
    subst h
    simp only [Sample.holeBody, List.mem_cons, List.not_mem_nil, or_false] at hx
    rcases hx with rfl | rfl | rfl <;> simp [Sample.holeKnown]
  · intro body h x hx
    simp only [Sample.holeKnown] at h
    subst h
    simp only [List.mem_cons, List.not_mem_nil, or_false] at hx
    subst hx
    trivial
  · intro e i o body e' i' o' body' h h' S data S' data' hf
    simp only [Sample.holeKnown] at h h'
    rw [h, h']

theorem Sample.holePage_known : ∀ x ∈ Sample.holePage, Sample.holeKnown x := by
  intro x hx
  simp only [Sample.holePage, List.mem_cons, List.not_mem_nil, or_false] at hx
  subst hx
  rfl

set_option maxRecDepth 10000 in
/-- The premises of C119_age, C119_texts and C119_one are met by a history of a request, some time, and another request. -/
example : ∃ vs w, AskedItems Sample.envC Sample.caching Sample.holeKnown 5 Sample.pageWorld vs w ∧ vs.length = 2 ∧ Sample.timeOf w = 1051 ∧
    ∃ x y, (itemsMean Sample.envC Sample.pageSite Sample.caching [] false Sample.holePage (startMem [(c!"x", .str c!"B")] Sample.pageDefs) w).1 =
        segText x ∧ Unpadded x y ∧ CalmSegs y ∧
      ∃ va ∈ vs, ∃ vb ∈ vs, va.l = [.text c!"<p>", .var false c!"x"] ∧ vb.l = [.text c!"</p>"] ∧
        segFirst y ++ (holesShow Sample.envC Sample.pageSite Sample.caching (segRest y) (startMem [(c!"x", .str c!"B")] Sample.pageDefs) w).1 =
          trimStart va.text ++ (c!"[B]" ++ trimEnd vb.text) := by
  have hA := AskedItems.ask (env := Sample.envC) (C := Sample.caching) (known := Sample.holeKnown) (d := 5) Sample.pageSite Sample.holePage
    (startMem [(c!"x", .str c!"A")] Sample.pageDefs) (.start (w0 := Sample.pageWorld))
    Sample.holePage_known (Sample.clock_close (by decide +kernel))
  have hO := AskedItems.other (w' := ⟨(itemsMean Sample.envC Sample.pageSite Sample.caching [] false Sample.holePage
    (startMem [(c!"x", .str c!"A")] Sample.pageDefs) Sample.pageWorld).2.2.fs, 51⟩) hA (fun _ _ => rfl)
  obtain ⟨x, hx1, hx2⟩ := C119_age Sample.envC Sample.caching Sample.holeKnown Sample.hole_separate 5 _ _ _ hO Sample.no_entries Sample.pageSite
    Sample.holePage (startMem [(c!"x", .str c!"B")] Sample.pageDefs) Sample.holePage_known
    (Sample.clock_close (by decide +kernel))
  obtain ⟨y, hy⟩ := trimmed_exists x
  have hnow : itemsEvaluate Sample.envC Sample.pageSite Sample.caching (Sample.envC.now 51) [] false Sample.holePage
      (startMem [(c!"x", .str c!"B")] Sample.pageDefs) ⟨(itemsMean Sample.envC Sample.pageSite Sample.caching [] false Sample.holePage
        (startMem [(c!"x", .str c!"A")] Sample.pageDefs) Sample.pageWorld).2.2.fs, 51⟩ = [] :=
    List.length_eq_zero_iff.1 (by decide +kernel)
  rw [hnow, List.append_nil] at hx1
  have hvs : ∀ v ∈ [] ++ itemsEvaluate Sample.envC Sample.pageSite Sample.caching (Sample.envC.now Sample.pageWorld.tick) [] false Sample.holePage
      (startMem [(c!"x", .str c!"A")] Sample.pageDefs) Sample.pageWorld, ('{' ∉ v.text ∧ '}' ∉ v.text) ∧ v.l.length ≠ 3 := by
    decide +kernel
  obtain ⟨va, h1, vb, h2, h3, h4, _, _, h5⟩ := C119_one Sample.envC Sample.caching _ 5 _ _ Sample.pageSite (startMem [(c!"x", .str c!"B")] Sample.pageDefs) _ _ _ _ _ _
    (fun v hv => (hvs v hv).1) x y (fun v hv he => (hvs v hv).2 (by rw [he]; rfl)) hx1 hy
  refine ⟨_, _, hO, by decide +kernel, by decide +kernel, x, y, hx2, hy,
    C119_texts _ (fun v hv => (hvs v hv).1) 5 _ _ _ _ x y hx1 hy, va, h1, vb, h2, h3, h4, ?_⟩
  rw [h5]
  exact congrArg (fun z => trimStart va.text ++ (z ++ trimEnd vb.text)) (by decide +kernel)

set_option maxRecDepth 10000 in
/-- The premises of C119_requests are met: a first request. -/
example : ∃ r now x, r = itemsMean Sample.envC Sample.pageSite Sample.caching [] false Sample.holePage
      (startMem [(c!"x", .str c!"X")] Sample.pageDefs) Sample.pageWorld ∧
    AskedItems Sample.envC Sample.caching Sample.holeKnown 5 Sample.pageWorld ([] ++ now) r.2.2 ∧
    FilledBy ([] ++ now) 5 (Sample.envC.now Sample.pageWorld.tick) false [] Sample.holePage x := by
  obtain ⟨r, now, x, y, hr, hA, hw, hx, hy, h⟩ := C119_requests Sample.envC 10 Sample.pageWorld
    (Sample.tpl (Sample.schema 1000 [(c!"x", .str c!"X")] Sample.pageDefs) (printItems Sample.holePage))
    Sample.pageSite Sample.caching Sample.holePage _ _ [(c!"x", .str c!"X")] Sample.pageDefs
    rfl (Sample.page_site rfl).1 (Sample.page_site rfl).2
    ⟨fun _ _ => rfl, fun _ _ => rfl, fun _ _ => rfl⟩ Sample.page_apart Sample.hole_sane Sample.holePage_ok rfl (by decide +kernel) rfl rfl rfl
    ⟨.inr ⟨_, rfl⟩, rfl, rfl⟩ (by decide +kernel) Sample.holeKnown Sample.hole_separate 5 Sample.pageWorld [] .start Sample.no_entries
    Sample.holePage_known (Sample.clock_close (by decide +kernel))
  exact ⟨r, now, x, hr, hA, hx⟩

/-- The page before it is completed. -/
def Sample.holeLeft : List Seg := [.text c!"<p>A", .hole [.plain Sample.holeCode], .text c!"</p>"]

set_option maxRecDepth 10000 in
/-- The premises of C119_pass are met, and there are passes that complete a page. -/
example : ∃ vs' y' m' w', Passes Sample.envC Sample.pageSite Sample.caching 5 1000 [] Sample.holeLeft
      (startMem [(c!"x", .str c!"B")] Sample.pageDefs) Sample.pageWorld 1 vs' y' m' w' ∧ segText y' = c!"<p>A[B]</p>" := by
  have hclock := Sample.clock_close (w := Sample.pageWorld) (w' := (holesShow Sample.envC Sample.pageSite Sample.caching (segRest Sample.holeLeft)
    (again (startMem [(c!"x", .str c!"B")] Sample.pageDefs)) Sample.pageWorld).2.2) (by decide +kernel)
  obtain ⟨q, now, z, y', rfl, rfl, _, _, h1, h2, _, h3⟩ := C119_pass Sample.envC Sample.caching Sample.holeKnown Sample.hole_separate 5
    Sample.pageWorld Sample.pageWorld [] .start Sample.no_entries Sample.pageSite Sample.holeLeft
    (again (startMem [(c!"x", .str c!"B")] Sample.pageDefs)) (by
      intro b hb
      simp only [Sample.holeLeft, segHoles, List.mem_cons, List.not_mem_nil, or_false] at hb
      subst hb
      rfl) hclock
  have ht : segText y' = c!"<p>A[B]</p>" := by
    rw [h3.2, segText, ← h2]
    decide +kernel
  refine ⟨_, y', _, _, .pass (by simp [Sample.holeLeft, segHoles]) ?_ (by decide +kernel) hclock h1 h2 h3 (.done (by rw [ht]; decide)), ht⟩
  refine ⟨by unfold Calm; decide, ?_⟩
  intro x hx
  simp only [Sample.holeLeft, segRest, segFirst, List.mem_cons, List.not_mem_nil, or_false] at hx
  subst hx
  unfold Calm
  decide

set_option maxRecDepth 10000 in
/-- **C119 (what fails).** An excluded part does not always show what it shows when it is not in a cached part: the parameters and the variables
of the loops of the cached part it is in are not there when it is evaluated (nor, of course, are they in later requests). -/
theorem C119_refuted :
    (Sample.outOf (Sample.go [] c!"{:code; {:param; p >> v :}{:!cache; [{:param; p :}] :} :}")).map (·.1) = some c!"[v]" ∧
    (Sample.outOf (Sample.go [] c!"{:cache; /100/ >> {:code; {:param; p >> v :}{:!cache; [{:param; p :}] :} :} :}")).map (·.1) = some c!"[]" ∧
    (Sample.outOf (Sample.go [] c!"{:for; i 1..3 >> {:!cache; [{:;i:}] :} :}")).map (·.1) = some c!"[1][2][3]" ∧
    (Sample.outOf (Sample.go [] c!"{:cache; /100/ >> {:for; i 1..3 >> {:!cache; [{:;i:}] :} :} :}")).map (·.1) = some c!"[][][]" := by
  decide +kernel

end Nts
