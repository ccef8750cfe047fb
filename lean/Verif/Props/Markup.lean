import Verif.Spec.Markup
import Verif.Props.LangUse
import Verif.Spec.Sample
/-
C116: data cannot change the markup of a page.
-/
set_option autoImplicit false
namespace Nts
open Spec

theorem read_append (s : Place) (x y : Str) : s.read (x ++ y) = (s.read x).read y := by
  unfold Place.read; rw [List.foldl_append]

theorem read_cons (s : Place) (c : Char) (y : Str) : s.read (c :: y) = (s.step c).read y := rfl

/-- The characters that leave a place for data. -/
theorem step_safe {s : Place} (hs : s.safe = true) {c : Char} (h1 : c ≠ '<') (h2 : c ≠ '"') (h3 : c ≠ '\'') : s.step c = s := by
  cases s <;> simp [Place.safe] at hs <;> simp [Place.step, stepRaw, h1, h2, h3]

theorem markup_append (s : Place) (x y : Str) : markup s (x ++ y) = markup s x ++ markup (s.read x) y := by
  induction x generalizing s with
  | nil => rfl
  | cons c x ih =>
    simp only [List.cons_append, markup, read_cons]
    split
    · next h => rw [ih, h.2]
    · rw [ih]; rfl

theorem calm_append (s : Place) (x y : Str) : calm s (x ++ y) = (calm s x && calm (s.read x) y) := by
  induction x generalizing s with
  | nil => rfl
  | cons c x ih => simp only [List.cons_append, calm, read_cons, ih, Bool.and_assoc]

/-- A text without `<` and quotes stays where it is. -/
theorem inert_stays {s : Place} (hs : s.safe = true) {x : Str} (hx : '<' ∉ x ∧ '"' ∉ x ∧ '\'' ∉ x) :
    s.read x = s ∧ calm s x = true ∧ markup s x = [] := by
  induction x with
  | nil => exact ⟨rfl, rfl, rfl⟩
  | cons c x ih =>
    simp only [List.mem_cons, not_or] at hx
    obtain ⟨h1, h2, h3⟩ := ih ⟨hx.1.2, hx.2.1.2, hx.2.2.2⟩
    have := step_safe hs (Ne.symm hx.1.1) (Ne.symm hx.2.1.1) (Ne.symm hx.2.2.1)
    refine ⟨?_, ?_, ?_⟩
    · rw [read_cons, this, h1]
    · simp only [calm, this, h2, hs, Bool.or_true, Bool.and_self]
    · simp only [markup, this, hs, and_self, if_true, h3]

theorem blank_inert {x : Str} (h : Blank x) : '<' ∉ x ∧ '"' ∉ x ∧ '\'' ∉ x :=
  ⟨fun hx => absurd (h _ hx) (by decide), fun hx => absurd (h _ hx) (by decide), fun hx => absurd (h _ hx) (by decide)⟩

theorem clean_inert {x : Str} (h : Clean true x) : '<' ∉ x ∧ '"' ∉ x ∧ '\'' ∉ x :=
  ⟨fun hx => h.1 _ hx (by decide), fun hx => h.1 _ hx (by decide), fun hx => h.1 _ hx (by decide)⟩

/-- White space at the end that is read to a place for data is read from it. -/
theorem calm_back {s : Place} {x : Str} (hx : Blank x) (hc : calm s x = true) (h : (s.read x).safe = true) : s.safe = true := by
  induction x generalizing s with
  | nil => exact h
  | cons c x ih =>
    simp only [calm, Bool.and_eq_true, Bool.or_eq_true, Bool.not_eq_true'] at hc
    have h1 := ih (fun d hd => hx d (by simp [hd])) hc.2 h
    have h2 := hx c (by simp)
    rcases hc.1.2 with (h3 | h3) | h3
    · rw [h2] at h3; cases h3
    · rw [h1] at h3; cases h3
    · exact h3

/-- What an output does to a reader. -/
structure Calmly (s : Place) (out : Str) (s' : Place) (k : Str) : Prop where
  from_ : s.safe = true
  to_ : s'.safe = true
  read : s.read out = s'
  calm : calm s out = true
  markup : markup s out = k

theorem Calmly.nil {s : Place} (h : s.safe = true) : Calmly s [] s [] := ⟨h, h, rfl, rfl, rfl⟩

theorem Calmly.append {s s1 s2 : Place} {x y k j : Str} (h : Calmly s x s1 k) (h' : Calmly s1 y s2 j) : Calmly s (x ++ y) s2 (k ++ j) := by
  refine ⟨h.from_, h'.to_, ?_, ?_, ?_⟩
  · rw [read_append, h.read, h'.read]
  · rw [calm_append, h.calm, h.read, h'.calm]; rfl
  · rw [markup_append, h.markup, h.read, h'.markup]

theorem Calmly.inert {s : Place} (h : s.safe = true) {x : Str} (hx : '<' ∉ x ∧ '"' ∉ x ∧ '\'' ∉ x) : Calmly s x s [] := by
  obtain ⟨h1, h2, h3⟩ := inert_stays h hx
  exact ⟨h, h, h1, h2, h3⟩

theorem Calmly.tail {s s' : Place} {w x k : Str} (hw : Blank w) (h : Calmly s (w ++ x) s' k) : Calmly s x s' k := by
  obtain ⟨h1, h2, h3⟩ := inert_stays h.from_ (blank_inert hw)
  refine ⟨h.from_, h.to_, ?_, ?_, ?_⟩
  · rw [← h.read, read_append, h1]
  · have := h.calm
    rw [calm_append, h1, h2] at this
    simpa using this
  · rw [← h.markup, markup_append, h1, h3]; rfl

theorem Calmly.init {s s' : Place} {w x k : Str} (hw : Blank w) (h : Calmly s (x ++ w) s' k) : Calmly s x s' k := by
  have hc := h.calm
  rw [calm_append, Bool.and_eq_true] at hc
  have hr := h.read
  rw [read_append] at hr
  have hs : (s.read x).safe = true := calm_back hw hc.2 (by rw [hr]; exact h.to_)
  obtain ⟨h1, h2, h3⟩ := inert_stays hs (blank_inert hw)
  rw [h1] at hr
  refine ⟨h.from_, h.to_, hr, hc.1, ?_⟩
  have := h.markup
  rw [markup_append, h3, List.append_nil] at this
  exact this

theorem Calmly.trim {s s' : Place} {x k : Str} (h : Calmly s x s' k) : Calmly s (trim x) s' k := by
  obtain ⟨w, hw, hb⟩ := trimStart_eq x
  rw [hw] at h
  have h1 := h.tail hb
  obtain ⟨u, hu, hub⟩ := trimEnd_eq (trimStart x)
  rw [hu] at h1
  exact h1.init hub

/-- A text that cannot leave a place for data. -/
def Inert (t : Str) : Prop := '<' ∉ t ∧ '"' ∉ t ∧ '\'' ∉ t

theorem inert_iff {t : Str} : inert t = true ↔ Inert t := by
  unfold inert Inert
  simp only [Bool.and_eq_true, Bool.not_eq_true', List.contains_eq_mem, decide_eq_false_iff_not, and_assoc]

theorem made_inert {x : Str} (h : MadeOf Inert x) : Inert x :=
  ⟨built_char (by decide) (fun _ h => h.1) h, built_char (by decide) (fun _ h => h.2.1) h, built_char (by decide) (fun _ h => h.2.2) h⟩

/-- From `s` to `s'`, with one of these markups, and the data and the definitions stay guarded. -/
def LeadsTo (S : Site) (loc : Value) (s s' : Place) (K : Str → Prop) (run : Mem → Str × Mem) : Prop :=
  ∀ m, Guarded S Inert loc m → (∃ k, K k ∧ Calmly s (run m).1 s' k) ∧ Guarded S Inert loc (run m).2

theorem leads_block {S : Site} {loc : Value} {s s' : Place} {K : Str → Prop} {plus : Bool} {run : Mem → Str × Mem}
    (h : LeadsTo S loc s s' K run) : LeadsTo S loc s s' K (blockOf plus run) := by
  intro m hm
  obtain ⟨⟨k, hk, h1⟩, h2⟩ := h m hm
  refine ⟨⟨k, hk, h1.trim⟩, h2.ctx, ?_, ?_⟩
  · cases plus
    · exact hm.params
    · exact h2.params
  · cases plus
    · exact hm.locale
    · exact h2.locale

theorem leads_bif {S : Site} {loc : Value} {s : Place} {K : Str → Prop} {al : Str} {run : Mem → Str × Mem}
    (hs : s.safe = true) (h : LeadsTo S loc s s K run) (hk : al = c!"coalesce" → K []) : LeadsTo S loc s s K (bifOf al run) := by
  intro m hm
  unfold bifOf
  split
  · next hc => exact ⟨⟨[], hk hc.1, .nil hs⟩, hm⟩
  · obtain ⟨⟨k, hk, h1⟩, h2⟩ := h { m with bifs := m.bifs + 1 } ⟨hm.ctx, hm.params, hm.locale⟩
    exact ⟨⟨k, hk, h1.trim⟩, h2.ctx, h2.params, h2.locale⟩

theorem leads_loop {S : Site} {loc : Value} {s : Place} {K : Str → Prop} {plus : Bool} {run : Mem → Str × Mem}
    (hs : s.safe = true) (h : LeadsTo S loc s s K run) :
    ∀ (l : List (List (Str × Value))) (m : Mem), (∀ vs ∈ l, ∀ kv ∈ vs, kv.1 ≠ c!"CONTEXT") → Guarded S Inert loc m →
    (∃ ks : List Str, ks.length = l.length ∧ (∀ k ∈ ks, K k) ∧ Calmly s (loopOf plus run l m).1 s ks.flatten) ∧
      Guarded S Inert loc (loopOf plus run l m).2
  | [], m, _, hm => ⟨⟨[], rfl, by simp, .nil hs⟩, hm⟩
  | vs :: l, m, hl, hm => by
    simp only [loopOf]
    obtain ⟨⟨k, hk, h1⟩, h2⟩ := leads_block (plus := plus) h { m with data := setAll vs m.data }
      (hm.data (keeps_setAll _ _ (hl vs (by simp))))
    obtain ⟨⟨ks, h5, h6, h3⟩, h4⟩ := leads_loop hs h l _ (fun vs hv => hl vs (by simp [hv])) h2
    refine ⟨⟨k :: ks, by simp [h5], ?_, h1.append h3⟩, h4⟩
    intro j hj
    rcases List.mem_cons.1 hj with rfl | hj
    · exact hk
    · exact h6 j hj

theorem stays_some {b : Bool} {s s' : Place} (h : stays b s = some s') : b = true ∧ s' = s := by
  unfold stays at h
  split at h
  · next hb => exact ⟨hb, (Option.some.inj h).symm⟩
  · cases h

theorem stays_ends {l : List Node} {s s' : Place} (h : stays (endsAll l s == some s) s = some s') : endsAll l s = some s ∧ s' = s := by
  obtain ⟨h1, h2⟩ := stays_some h
  exact ⟨by simpa using h1, h2⟩

theorem all_inert {l : List Str} (h : l.all inert = true) : ∀ t ∈ l, Inert t := fun t ht => inert_iff.1 (List.all_eq_true.1 h t ht)

theorem opt_coalesce {opt : Bool} {al : Str} (ho : al = c!"coalesce" → opt = true) {k : Str → Prop} :
    al = c!"coalesce" → (opt = true ∧ ([] : Str) = []) ∨ k [] := fun h => .inl ⟨ho h, rfl⟩

theorem LeadsTo.mono {S : Site} {loc : Value} {s s' : Place} {K K' : Str → Prop} {run : Mem → Str × Mem} (h : LeadsTo S loc s s' K run)
    (hk : ∀ k, K k → K' k) : LeadsTo S loc s s' K' run := by
  intro m hm
  obtain ⟨⟨k, h1, h2⟩, h3⟩ := h m hm
  exact ⟨⟨k, hk k h1, h2⟩, h3⟩

mutual
theorem leads_node (S : Site) (loc : Value)
    (htr : ∀ key, Inert (shownAs S.F (resolvePointer ((loc.index c!"trans").index S.lang) key))) :
    ∀ (x : Node) (al : Str) (opt : Bool) (s s' : Place), (al = c!"coalesce" → opt = true) → s.safe = true → x.ends s = some s' →
      x.Ok S al → x.Filters S → c!"CONTEXT" ∉ x.binds → LeadsTo S loc s s' (Node.Shape opt x s) (x.means S al)
  | .text t, al, opt, s, s', ho, hs, he, hc, hf, hk => by
    intro m hm
    simp only [Node.ends] at he
    split at he
    · next h =>
      cases he
      simp only [Node.means, Node.Shape]
      exact ⟨⟨_, rfl, hs, h.2, rfl, h.1, rfl⟩, hm⟩
    · cases he
  | .var amp name, al, opt, s, s', ho, hs, he, hc, hf, hk => by
    simp only [Node.ends, Option.some.injEq] at he
    subst he
    intro m hm
    simp only [Node.Filters] at hf
    simp only [Node.means, Node.Shape]
    refine leads_bif (K := fun k => k = []) hs (fun m hm => ⟨?_, hm⟩) (fun _ => rfl) m hm
    refine ⟨[], rfl, Calmly.inert hs (clean_inert ?_)⟩
    have hb : (amp || S.filterAll) = true := by simpa using hf
    simp only [hb, printedAs, if_true]
    split
    · next hp =>
      obtain ⟨r, rfl⟩ := hp
      unfold valueOf
      rw [if_neg (by rintro ⟨z, hz⟩; simp at hz)]
      cases hv : resolvePointer (.obj m.data) (c!"CONTEXT->" ++ r) with
      | none => exact clean_nil
      | some w =>
        have := resolve_context hv
        exact hm.ctx w this
    · exact C01_escape_clean true _
  | .cond neg plus kind name body, al, opt, s, s', ho, hs, he, hc, hf, hk => by
    obtain ⟨he, rfl⟩ := stays_ends he
    intro m hm
    simp only [Node.Ok] at hc
    simp only [Node.Filters] at hf
    simp only [Node.binds] at hk
    simp only [Node.means, Node.Shape]
    refine leads_bif (K := fun k => k = [] ∨ ShapeAll false body _ k) hs (fun m hm => ?_) (fun _ => .inl rfl) m hm
    split
    · exact ⟨⟨[], .inl rfl, .nil hs⟩, hm⟩
    · have hkd : kind = c!"coalesce" → false = true := by rintro rfl; exact absurd hc.1 (by decide)
      exact leads_block ((leads_all S loc htr body kind false _ _ hkd hs he hc.2.2 hf hk).mono (fun _ => .inr)) m hm
  | .cmp neg plus kind a b body, al, opt, s, s', ho, hs, he, hc, hf, hk => by
    obtain ⟨he, rfl⟩ := stays_ends he
    intro m hm
    simp only [Node.Ok] at hc
    simp only [Node.Filters] at hf
    simp only [Node.binds, List.mem_append, not_or] at hk
    simp only [Node.means, Node.Shape]
    refine leads_bif (K := fun k => k = [] ∨ ShapeAll false body _ k) hs (fun m hm => ?_) (fun _ => .inl rfl) m hm
    have h2 := guarded_arg (al := kind) hk.2.1 (guarded_arg (al := kind) hk.1 hm)
    split
    · exact ⟨⟨[], .inl rfl, .nil hs⟩, h2⟩
    · have hkd : kind = c!"coalesce" → false = true := by rintro rfl; exact absurd hc.1 (by decide)
      exact leads_block ((leads_all S loc htr body kind false _ _ hkd hs he hc.2.2.2.1 hf hk.2.2).mono (fun _ => .inr)) _ h2
  | .els neg plus body, al, opt, s, s', ho, hs, he, hc, hf, hk => by
    obtain ⟨he, rfl⟩ := stays_ends he
    intro m hm
    simp only [Node.Ok] at hc
    simp only [Node.Filters] at hf
    simp only [Node.binds] at hk
    simp only [Node.means, Node.Shape]
    refine leads_bif (K := fun k => k = [] ∨ ShapeAll false body _ k) hs (fun m hm => ?_) (fun _ => .inl rfl) m hm
    split
    · exact leads_block ((leads_all S loc htr body _ false _ _ (by decide) hs he hc hf hk).mono (fun _ => .inr)) m hm
    · exact ⟨⟨[], .inl rfl, .nil hs⟩, hm⟩
  | .coalesce plus body, al, opt, s, s', ho, hs, he, hc, hf, hk => by
    obtain ⟨he, rfl⟩ := stays_ends he
    intro m hm
    simp only [Node.Ok] at hc
    simp only [Node.Filters] at hf
    simp only [Node.binds] at hk
    simp only [Node.means, Node.Shape]
    refine leads_bif (K := fun k => (opt = true ∧ k = []) ∨ ShapeAll true body _ k) hs (fun m hm => ?_) (fun h => .inl ⟨ho h, rfl⟩) m hm
    exact leads_block ((leads_all S loc htr body _ true _ _ (fun _ => rfl) hs he hc hf hk).mono (fun _ => .inr)) { m with lastC := false }
      ⟨hm.ctx, hm.params, hm.locale⟩
  | .code plus body, al, opt, s, s', ho, hs, he, hc, hf, hk => by
    obtain ⟨he, rfl⟩ := stays_ends he
    intro m hm
    simp only [Node.Ok] at hc
    simp only [Node.Filters] at hf
    simp only [Node.binds] at hk
    simp only [Node.means, Node.Shape]
    refine leads_bif (K := fun k => (opt = true ∧ k = []) ∨ ShapeAll false body _ k) hs ?_ (fun h => .inl ⟨ho h, rfl⟩) m hm
    exact leads_block ((leads_all S loc htr body _ false _ _ (by decide) hs he hc hf hk).mono (fun _ => .inr))
  | .each plus coll key val body, al, opt, s, s', ho, hs, he, hc, hf, hk => by
    obtain ⟨he, rfl⟩ := stays_ends he
    intro m hm
    simp only [Node.Ok] at hc
    simp only [Node.Filters] at hf
    simp only [Node.binds, List.mem_cons, not_or] at hk
    simp only [Node.means, Node.Shape]
    refine leads_bif (K := fun k => ∃ ks : List Str, k = ks.flatten ∧ ∀ j ∈ ks, ShapeAll false body _ j) hs (fun m hm => ?_)
      (fun _ => ⟨[], rfl, by simp⟩) m hm
    obtain ⟨⟨ks, _, h3, h1⟩, h2⟩ := leads_loop (plus := plus) hs (leads_all S loc htr body c!"each" false _ _ (by decide) hs he hc.2.2.2 hf hk.2.2)
      ((elementsOf (valueOf m coll)).map (fun kv => [(key, .str kv.1), (val, kv.2)])) m (by
        intro vs hvs kv hkv
        obtain ⟨e, _, rfl⟩ := List.mem_map.1 hvs
        simp only [List.mem_cons, List.not_mem_nil, or_false] at hkv
        rcases hkv with rfl | rfl
        · exact Ne.symm hk.1
        · exact Ne.symm hk.2.1) hm
    refine ⟨⟨_, ⟨ks, rfl, h3⟩, h1⟩, h2.data ?_⟩
    rw [entry_insert, if_neg (Ne.symm hk.2.1), entry_insert, if_neg (Ne.symm hk.1)]
  | .range plus v a b body, al, opt, s, s', ho, hs, he, hc, hf, hk => by
    obtain ⟨he, rfl⟩ := stays_ends he
    intro m hm
    simp only [Node.Ok] at hc
    simp only [Node.Filters] at hf
    simp only [Node.binds, List.mem_cons, not_or] at hk
    simp only [Node.means, Node.Shape]
    refine leads_bif (K := fun k => (opt = true ∧ k = []) ∨
      ∃ ks : List Str, k = ks.flatten ∧ ks.length = (span a b).length ∧ ∀ j ∈ ks, ShapeAll false body _ j) hs (fun m hm => ?_)
      (fun h => .inl ⟨ho h, rfl⟩) m hm
    obtain ⟨⟨ks, h4, h3, h1⟩, h2⟩ := leads_loop (plus := plus) hs (leads_all S loc htr body c!"for" false _ _ (by decide) hs he hc.2.2.2.2 hf hk.2)
      ((span a b).map (fun i => [(v, .str (showInt i))])) m (by
        intro vs hvs kv hkv
        obtain ⟨e, _, rfl⟩ := List.mem_map.1 hvs
        simp only [List.mem_cons, List.not_mem_nil, or_false] at hkv
        subst hkv
        exact Ne.symm hk.1) hm
    refine ⟨⟨_, .inr ⟨ks, rfl, by rw [h4, List.length_map], h3⟩, h1⟩, h2.data ?_⟩
    rw [entry_insert, if_neg (Ne.symm hk.1)]
  | .param name, al, opt, s, s', ho, hs, he, hc, hf, hk => by
    simp only [Node.ends, Option.some.injEq] at he
    subst he
    intro m hm
    simp only [Node.Filters] at hf
    simp only [Node.means, Node.Shape]
    refine leads_bif (K := fun k => k = []) hs (fun m hm => ⟨?_, hm⟩) (fun _ => rfl) m hm
    refine ⟨[], rfl, ?_⟩
    dsimp only
    cases hv : resolvePointer (entry m.defs c!"params") name with
    | none => exact .nil hs
    | some w => exact Calmly.inert hs (made_inert (hm.params w (resolvePointer_below hv)))
  | .setParam name body, al, opt, s, s', ho, hs, he, hc, hf, hk => by
    obtain ⟨hi, rfl⟩ := stays_some he
    intro m hm
    simp only [Node.Filters] at hf
    simp only [Node.binds] at hk
    simp only [Node.means, Node.Shape]
    refine leads_bif (K := fun k => k = []) hs (fun m hm => ?_) (fun _ => rfl) m hm
    obtain ⟨h1, h2⟩ := makes_block (plus := false) (makes_all S Inert loc htr body c!"param" hf hk (all_inert hi)) m hm
    refine ⟨⟨[], rfl, .nil hs⟩, h2.ctx, ?_, ?_⟩
    · simp only [entry_insert, if_true]
      exact built_param h1 h2.params
    · simp only [entry_insert]
      rw [if_neg (by decide)]
      exact h2.locale
  | .trans neg body, al, opt, s, s', ho, hs, he, hc, hf, hk => by
    obtain ⟨he, rfl⟩ := stays_ends he
    intro m hm
    simp only [Node.Ok] at hc
    simp only [Node.Filters] at hf
    simp only [Node.binds] at hk
    simp only [Node.means, Node.Shape]
    refine leads_bif (K := fun k => k = [] ∨ ShapeAll false body _ k) hs (fun m hm => ?_) (fun _ => .inl rfl) m hm
    obtain ⟨⟨k, hk', h1⟩, h2⟩ := leads_block (plus := false) (leads_all S loc htr body c!"trans" false _ _ (by decide) hs he hc hf hk) m hm
    refine ⟨?_, h2⟩
    dsimp only
    split
    · split
      · exact ⟨[], .inl rfl, .nil hs⟩
      · exact ⟨k, .inr hk', h1⟩
    · unfold translated
      rw [hm.locale]
      exact ⟨[], .inl rfl, Calmly.inert hs (htr _)⟩
  | .incl path body, al, opt, s, s', ho, hs, he, hc, hf, hk => by
    obtain ⟨he, rfl⟩ := stays_ends he
    intro m hm
    simp only [Node.Ok] at hc
    simp only [Node.Filters] at hf
    simp only [Node.binds] at hk
    simp only [Node.means, Node.Shape]
    refine leads_bif (K := fun k => (opt = true ∧ k = []) ∨ ShapeAll false body _ k) hs ?_ (fun h => .inl ⟨ho h, rfl⟩) m hm
    exact leads_block ((leads_all S loc htr body _ false _ _ (by decide) hs he hc.2.2.2 hf hk).mono (fun _ => .inr))
  | .snippet kind name body, al, opt, s, s', ho, hs, he, hc, hf, hk => by
    obtain ⟨he, rfl⟩ := stays_ends he
    intro m hm
    simp only [Node.Ok] at hc
    simp only [Node.Filters] at hf
    simp only [Node.binds] at hk
    simp only [Node.means, Node.Shape]
    refine leads_bif (K := fun k => (opt = true ∧ k = []) ∨ ShapeAll false body _ k) hs ?_ (fun h => .inl ⟨ho h, rfl⟩) m hm
    exact leads_block ((leads_all S loc htr body _ false _ _ (by decide) hs he hc.2.2.2 hf hk).mono (fun _ => .inr))
  | .leaf k, al, opt, s, s', ho, hs, he, hc, hf, hk => by
    simp only [Node.ends, Option.some.injEq] at he
    subst he
    intro m hm
    simp only [Node.means, Node.Shape]
    refine leads_bif (K := fun k => k = []) hs (fun m hm => ?_) (fun _ => rfl) m hm
    cases k with
    | lang =>
      simp only [Node.Filters] at hf
      exact ⟨⟨[], rfl, Calmly.inert hs (clean_inert hf)⟩, hm⟩
    | mark => exact ⟨⟨[], rfl, Calmly.inert (x := c!"&#0;") hs (by decide)⟩, hm⟩
    | up => exact ⟨⟨[], rfl, Calmly.inert (x := c!"&#9224&#0;") hs (by decide)⟩, hm⟩
    | join keys name sep => simp only [Node.Filters] at hf
    | load locale path v =>
      simp only [Node.Filters] at hf
      subst hf
      refine ⟨⟨[], rfl, Calmly.inert (x := c!"&#0;") hs (by decide)⟩, hm.ctx, ?_, ?_⟩
      · simp only [Leaf.effect, loaded, Bool.false_eq_true, if_false, entry_insert]
        rw [if_neg (by decide)]
        exact hm.params
      · simp only [Leaf.effect, loaded, Bool.false_eq_true, if_false, entry_insert]
        rw [if_neg (by decide)]
        exact hm.locale
  | .replace _ _ _, al, opt, s, s', ho, hs, he, hc, hf, hk => by simp only [Node.Filters] at hf
  | .allow neg name body, al, opt, s, s', ho, hs, he, hc, hf, hk => by
    obtain ⟨he, rfl⟩ := stays_ends he
    intro m hm
    simp only [Node.Ok] at hc
    simp only [Node.Filters] at hf
    simp only [Node.binds] at hk
    simp only [Node.means, Node.Shape]
    refine leads_bif (K := fun k => k = [] ∨ ShapeAll false body _ k) hs (fun m hm => ?_) (fun _ => .inl rfl) m hm
    obtain ⟨⟨k, hk', h1⟩, h2⟩ := leads_block (plus := false) (leads_all S loc htr body c!"allow" false _ _ (by decide) hs he hc.2.2 hf hk) m hm
    refine ⟨?_, h2⟩
    dsimp only
    split
    · exact ⟨[], .inl rfl, .nil hs⟩
    · exact ⟨k, .inr hk', h1⟩
  | .eval neg plus test body, al, opt, s, s', ho, hs, he, hc, hf, hk => by
    obtain ⟨he, rfl⟩ := stays_some he
    simp only [Bool.and_eq_true, Bool.or_eq_true, Bool.not_eq_true', beq_iff_eq] at he
    intro m hm
    simp only [Node.Ok] at hc
    simp only [Node.Filters] at hf
    simp only [Node.binds, List.mem_cons, List.mem_append, not_or] at hk
    simp only [Node.means, Node.Shape]
    refine leads_bif (K := fun k => k = [] ∨ ShapeAll false body _ k) hs (fun m hm => ?_) (fun _ => .inl rfl) m hm
    have hg : Guarded S Inert loc (blockOf plus (meansAll S c!"eval" test) m).2 := by
      cases plus with
      | true =>
        have ht : ∀ t ∈ textsAll test, Inert t := by
          rcases he.1 with h | h
          · cases h
          · exact all_inert h
        exact (makes_block (plus := true) (makes_all S Inert loc htr test c!"eval" (hf.1 rfl) hk.2.1 ht) m hm).2
      | false =>
        have := stay_all S c!"CONTEXT" test c!"eval" (fun hx => hk.2.1 (counters_bindsAll _ test hx)) m
        exact ⟨fun w hw => hm.ctx w (by rw [← this]; exact hw), hm.params, hm.locale⟩
    have hb := leads_all S loc htr body c!"eval" false _ _ (by decide) hs he.2 hc.2.2 hf.2 hk.2.2
    generalize blockOf plus (meansAll S c!"eval" test) m = rt at hg ⊢
    split
    · split
      · obtain ⟨⟨k, hk', h1⟩, h2⟩ := leads_block (plus := plus) hb { rt.2 with data := Obj.insert c!"__eval__" (.str rt.1) rt.2.data }
          (hg.data (by rw [entry_insert, if_neg (by decide)]))
        exact ⟨⟨k, .inr hk', h1⟩, h2.data (by rw [entry_insert, if_neg (by decide)])⟩
      · next ho =>
        obtain ⟨k, hk', h1⟩ := (leads_block (plus := false) hb rt.2 hg).1
        simp only [blockOf, text_means S c!"eval" body ho] at h1
        exact ⟨⟨k, .inr hk', h1⟩, hg⟩
    · exact ⟨⟨[], .inl rfl, .nil hs⟩, hg⟩
  | .hash body, al, opt, s, s', ho, hs, he, hc, hf, hk => by
    simp only [Node.ends, Option.some.injEq] at he
    subst he
    intro m hm
    simp only [Node.Filters] at hf
    simp only [Node.binds] at hk
    simp only [Node.means, Node.Shape]
    refine leads_bif (K := fun k => k = []) hs (fun m hm => ⟨⟨[], rfl, Calmly.inert hs (clean_inert (hf _))⟩, ?_⟩) (fun _ => rfl) m hm
    have := stay_all S c!"CONTEXT" body c!"hash" (fun hx => hk (counters_bindsAll _ body hx)) m
    exact ⟨fun w hw => hm.ctx w (by rw [← this]; exact hw), hm.params, hm.locale⟩
theorem leads_all (S : Site) (loc : Value)
    (htr : ∀ key, Inert (shownAs S.F (resolvePointer ((loc.index c!"trans").index S.lang) key))) :
    ∀ (l : List Node) (al : Str) (opt : Bool) (s s' : Place), (al = c!"coalesce" → opt = true) → s.safe = true → endsAll l s = some s' →
      AllOk S al l → AllFilter S l → c!"CONTEXT" ∉ bindsAll l → LeadsTo S loc s s' (ShapeAll opt l s) (meansAll S al l)
  | [], al, opt, s, s', ho, hs, he, hc, hf, hk => by
    simp only [endsAll, Option.some.injEq] at he
    subst he
    intro m hm
    simp only [meansAll, ShapeAll]
    exact ⟨⟨[], rfl, .nil hs⟩, hm⟩
  | x :: l, al, opt, s, s', ho, hs, he, hc, hf, hk => by
    simp only [AllOk] at hc
    simp only [endsAll, Option.bind_eq_some_iff] at he
    obtain ⟨s1, he1, he2⟩ := he
    intro m hm
    simp only [AllFilter] at hf
    simp only [bindsAll, List.mem_append, not_or] at hk
    simp only [meansAll, ShapeAll]
    obtain ⟨⟨k1, hk1, h1⟩, h2⟩ := leads_node S loc htr x al opt s s1 ho hs he1 hc.1 hf.1 hk.1 m hm
    obtain ⟨⟨k2, hk2, h3⟩, h4⟩ := leads_all S loc htr l al opt s1 s' ho h1.to_ he2 hc.2 hf.2 hk.2 _ h2
    refine ⟨⟨k1 ++ k2, ⟨k1, k2, rfl, hk1, fun s2 hs2 => ?_⟩, h1.append h3⟩, h4⟩
    rw [he1] at hs2
    cases hs2
    exact hk2
end

/-! ### The marks -/

theorem mark_stays {s : Place} {m : Str} (hm : '<' ∉ '&' :: m ∧ '"' ∉ '&' :: m ∧ '\'' ∉ '&' :: m) {y : Str} (hc : calm s ('&' :: m ++ y) = true) :
    s.read ('&' :: m ++ y) = s.read y ∧ calm s y = true ∧ markup s ('&' :: m ++ y) = markup s y := by
  have hs : s.safe = true := by
    simp only [List.cons_append, calm, Bool.and_eq_true, Bool.or_eq_true] at hc
    rcases hc.1.1 with h | h
    · simp at h
    · exact h
  obtain ⟨h1, h2, h3⟩ := inert_stays hs hm
  refine ⟨?_, ?_, ?_⟩
  · rw [read_append, h1]
  · rw [calm_append, h1, h2] at hc
    simpa using hc
  · rw [markup_append, h1, h3]; rfl

theorem removed_markup {x y : Str} (h : MarkRemoved c!"&#9224" x y) : ∀ s : Place, calm s x = true →
    s.read y = s.read x ∧ calm s y = true ∧ markup s y = markup s x := by
  induction h with
  | nil => exact fun s h => ⟨rfl, h, rfl⟩
  | @keep x y c _ _ ih =>
    intro s hc
    simp only [calm, Bool.and_eq_true] at hc
    obtain ⟨h1, h2, h3⟩ := ih (s.step c) hc.2
    refine ⟨h1, ?_, ?_⟩
    · simp only [calm, Bool.and_eq_true]
      exact ⟨hc.1, h2⟩
    · simp only [markup]
      split
      · next h =>
        rw [h.2] at h3
        exact h3
      · rw [h3]
  | @cut w r y hw _ ih =>
    intro s hc
    rw [List.append_assoc] at hc ⊢
    have h1 := hc
    rw [calm_append, Bool.and_eq_true] at h1
    have hs : (s.read w).safe = true := by
      have := h1.2
      simp only [List.cons_append, calm, Bool.and_eq_true, Bool.or_eq_true] at this
      rcases this.1.1 with h | h
      · simp at h
      · exact h
    have hs' := calm_back hw h1.1 hs
    obtain ⟨h2, h3, h4⟩ := inert_stays hs' (blank_inert hw)
    rw [h2] at h1
    obtain ⟨h5, h6, h7⟩ := mark_stays (m := c!"#9224") (by decide) h1.2
    obtain ⟨h8, h9, h10⟩ := ih s h6
    refine ⟨?_, h9, ?_⟩
    · rw [read_append, h2, h8]; exact h5.symm
    · rw [markup_append, h2, h4, h10]; exact h7.symm

theorem replaced_markup {x y : Str} (h : Replaced c!"&#0;" [] x y) : ∀ s : Place, calm s x = true →
    s.read y = s.read x ∧ markup s y = markup s x := by
  induction h with
  | done _ => exact fun s _ => ⟨rfl, rfl⟩
  | @step a x y _ _ ih =>
    intro s hc
    rw [List.append_assoc] at hc ⊢
    rw [calm_append, Bool.and_eq_true] at hc
    obtain ⟨h1, h2, h3⟩ := mark_stays (m := c!"#0;") (by decide) hc.2
    obtain ⟨h4, h5⟩ := ih _ h2
    rw [List.nil_append, List.append_assoc]
    refine ⟨?_, ?_⟩
    · rw [read_append, h4, read_append]; exact h1.symm
    · rw [markup_append, h5, markup_append]; rw [← h3]

theorem replacements_markup {x : Str} {s : Place} (hc : calm s x = true) :
    s.read (replacements x) = s.read x ∧ markup s (replacements x) = markup s x := by
  obtain ⟨m, h1, h2⟩ := C47_replacements x
  obtain ⟨h3, h4, h5⟩ := removed_markup h1 s hc
  obtain ⟨h6, h7⟩ := replaced_markup h2 s h4
  exact ⟨h6.trans h3, h7.trans h5⟩

/-! ### What a markup is -/

/-- The markup is read as the text is, and has the same tags. -/
theorem C116_markup_read (s : Place) (x : Str) : s.read (markup s x) = s.read x ∧ tags s (markup s x) = tags s x := by
  induction x generalizing s with
  | nil => exact ⟨rfl, rfl⟩
  | cons c x ih =>
    simp only [markup]
    split
    · next h =>
      obtain ⟨h1, h2⟩ := ih s
      rw [read_cons, h.2]
      refine ⟨h1, ?_⟩
      rw [h2]
      simp only [tags, h.2]
      cases s <;> simp [Place.safe] at h <;> simp
    · obtain ⟨h1, h2⟩ := ih (s.step c)
      refine ⟨h1, ?_⟩
      simp only [tags, h2]

theorem tags_append (s : Place) (x y : Str) : tags s (x ++ y) = tags s x ++ tags (s.read x) y := by
  induction x generalizing s with
  | nil => rfl
  | cons c x ih => simp only [List.cons_append, tags, read_cons, ih, List.append_assoc]

/-- Every tag is a tag of one of the texts. -/
def TagsOf (T : List Str) (s : Place) (k : Str) : Prop := ∀ g ∈ tags s k, ∃ t ∈ T, ∃ p : Place, p.safe = true ∧ g ∈ tags p t

theorem tagsOf_nil {T : List Str} {s : Place} : TagsOf T s [] := fun g hg => by simp [tags] at hg

theorem tagsOf_flatten {T : List Str} {s : Place} : ∀ {ks : List Str}, (∀ j ∈ ks, s.read j = s ∧ TagsOf T s j) →
    s.read ks.flatten = s ∧ TagsOf T s ks.flatten
  | [], _ => ⟨rfl, tagsOf_nil⟩
  | k :: ks, h => by
    obtain ⟨h1, h2⟩ := h k (by simp)
    obtain ⟨h3, h4⟩ := tagsOf_flatten (T := T) (s := s) (ks := ks) (fun j hj => h j (by simp [hj]))
    rw [List.flatten_cons]
    refine ⟨by rw [read_append, h1, h3], ?_⟩
    intro g hg
    rw [tags_append, h1, List.mem_append] at hg
    rcases hg with hg | hg
    · exact h2 g hg
    · exact h4 g hg

/-- What is known of a markup. -/
def Traced (T : List Str) (s s' : Place) (k : Str) : Prop := s.read k = s' ∧ s'.safe = true ∧ TagsOf T s k

theorem traced_nil {T : List Str} {s : Place} (hs : s.safe = true) : Traced T s s [] := ⟨rfl, hs, tagsOf_nil⟩

mutual
theorem traced_node : ∀ (x : Node) (opt : Bool) (s s' : Place) (k : Str), s.safe = true → x.ends s = some s' → Node.Shape opt x s k →
    Traced x.texts s s' k
  | .text t, opt, s, s', k, hs, he, hk => by
    simp only [Node.ends] at he
    simp only [Node.Shape] at hk
    split at he
    · next h =>
      cases he
      subst hk
      refine ⟨(C116_markup_read s t).1, h.2, ?_⟩
      intro g hg
      rw [(C116_markup_read s t).2] at hg
      exact ⟨t, by simp [Node.texts], s, hs, hg⟩
    · cases he
  | .var _ _, opt, s, s', k, hs, he, hk => by
    simp only [Node.ends, Option.some.injEq] at he
    simp only [Node.Shape] at hk
    subst he; subst hk
    exact traced_nil hs
  | .param _, opt, s, s', k, hs, he, hk => by
    simp only [Node.ends, Option.some.injEq] at he
    simp only [Node.Shape] at hk
    subst he; subst hk
    exact traced_nil hs
  | .leaf _, opt, s, s', k, hs, he, hk => by
    simp only [Node.ends, Option.some.injEq] at he
    simp only [Node.Shape] at hk
    subst he; subst hk
    exact traced_nil hs
  | .hash _, opt, s, s', k, hs, he, hk => by
    simp only [Node.ends, Option.some.injEq] at he
    simp only [Node.Shape] at hk
    subst he; subst hk
    exact traced_nil hs
  | .setParam _ _, opt, s, s', k, hs, he, hk => by
    obtain ⟨_, rfl⟩ := stays_some he
    simp only [Node.Shape] at hk
    subst hk
    exact traced_nil hs
  | .cond _ _ _ _ body, opt, s, s', k, hs, he, hk => by
    obtain ⟨he, rfl⟩ := stays_ends he
    simp only [Node.Shape] at hk
    simp only [Node.texts]
    rcases hk with rfl | hk
    · exact traced_nil hs
    · exact traced_all body false _ _ k hs he hk
  | .cmp _ _ _ _ _ body, opt, s, s', k, hs, he, hk => by
    obtain ⟨he, rfl⟩ := stays_ends he
    simp only [Node.Shape] at hk
    simp only [Node.texts]
    rcases hk with rfl | hk
    · exact traced_nil hs
    · exact traced_all body false _ _ k hs he hk
  | .els _ _ body, opt, s, s', k, hs, he, hk => by
    obtain ⟨he, rfl⟩ := stays_ends he
    simp only [Node.Shape] at hk
    simp only [Node.texts]
    rcases hk with rfl | hk
    · exact traced_nil hs
    · exact traced_all body false _ _ k hs he hk
  | .trans _ body, opt, s, s', k, hs, he, hk => by
    obtain ⟨he, rfl⟩ := stays_ends he
    simp only [Node.Shape] at hk
    simp only [Node.texts]
    rcases hk with rfl | hk
    · exact traced_nil hs
    · exact traced_all body false _ _ k hs he hk
  | .allow _ _ body, opt, s, s', k, hs, he, hk => by
    obtain ⟨he, rfl⟩ := stays_ends he
    simp only [Node.Shape] at hk
    simp only [Node.texts]
    rcases hk with rfl | hk
    · exact traced_nil hs
    · exact traced_all body false _ _ k hs he hk
  | .coalesce _ body, opt, s, s', k, hs, he, hk => by
    obtain ⟨he, rfl⟩ := stays_ends he
    simp only [Node.Shape] at hk
    simp only [Node.texts]
    rcases hk with ⟨_, rfl⟩ | hk
    · exact traced_nil hs
    · exact traced_all body true _ _ k hs he hk
  | .code _ body, opt, s, s', k, hs, he, hk => by
    obtain ⟨he, rfl⟩ := stays_ends he
    simp only [Node.Shape] at hk
    simp only [Node.texts]
    rcases hk with ⟨_, rfl⟩ | hk
    · exact traced_nil hs
    · exact traced_all body false _ _ k hs he hk
  | .incl _ body, opt, s, s', k, hs, he, hk => by
    obtain ⟨he, rfl⟩ := stays_ends he
    simp only [Node.Shape] at hk
    simp only [Node.texts]
    rcases hk with ⟨_, rfl⟩ | hk
    · exact traced_nil hs
    · exact traced_all body false _ _ k hs he hk
  | .snippet _ _ body, opt, s, s', k, hs, he, hk => by
    obtain ⟨he, rfl⟩ := stays_ends he
    simp only [Node.Shape] at hk
    simp only [Node.texts]
    rcases hk with ⟨_, rfl⟩ | hk
    · exact traced_nil hs
    · exact traced_all body false _ _ k hs he hk
  | .each _ _ _ _ body, opt, s, s', k, hs, he, hk => by
    obtain ⟨he, rfl⟩ := stays_ends he
    simp only [Node.Shape] at hk
    simp only [Node.texts]
    obtain ⟨ks, rfl, hj'⟩ := hk
    exact ⟨(tagsOf_flatten (fun j hj => have h := traced_all body false _ _ j hs he (hj' j hj); ⟨h.1, h.2.2⟩)).1, hs,
      (tagsOf_flatten (fun j hj => have h := traced_all body false _ _ j hs he (hj' j hj); ⟨h.1, h.2.2⟩)).2⟩
  | .range _ _ _ _ body, opt, s, s', k, hs, he, hk => by
    obtain ⟨he, rfl⟩ := stays_ends he
    simp only [Node.Shape] at hk
    simp only [Node.texts]
    rcases hk with ⟨_, rfl⟩ | ⟨ks, rfl, _, hj'⟩
    · exact traced_nil hs
    · exact ⟨(tagsOf_flatten (fun j hj => have h := traced_all body false _ _ j hs he (hj' j hj); ⟨h.1, h.2.2⟩)).1, hs,
        (tagsOf_flatten (fun j hj => have h := traced_all body false _ _ j hs he (hj' j hj); ⟨h.1, h.2.2⟩)).2⟩
  | .replace _ _ _, opt, s, s', k, hs, he, hk => by simp only [Node.Shape] at hk
  | .eval _ plus test body, opt, s, s', k, hs, he, hk => by
    obtain ⟨he, rfl⟩ := stays_some he
    simp only [Bool.and_eq_true, beq_iff_eq] at he
    simp only [Node.Shape] at hk
    rcases hk with rfl | hk
    · exact traced_nil hs
    · obtain ⟨h1, h2, h3⟩ := traced_all body false _ _ k hs he.2 hk
      refine ⟨h1, h2, fun g hg => ?_⟩
      obtain ⟨t, ht, r⟩ := h3 g hg
      exact ⟨t, by simp only [Node.texts, List.mem_append]; exact .inr ht, r⟩
theorem traced_all : ∀ (l : List Node) (opt : Bool) (s s' : Place) (k : Str), s.safe = true → endsAll l s = some s' → ShapeAll opt l s k →
    Traced (textsAll l) s s' k
  | [], opt, s, s', k, hs, he, hk => by
    simp only [endsAll, Option.some.injEq] at he
    simp only [ShapeAll] at hk
    subst he; subst hk
    exact traced_nil hs
  | x :: l, opt, s, s', k, hs, he, hk => by
    simp only [endsAll, Option.bind_eq_some_iff] at he
    obtain ⟨s1, he1, he2⟩ := he
    simp only [ShapeAll] at hk
    obtain ⟨k1, k2, rfl, hk1, hk2⟩ := hk
    obtain ⟨h1, h2, h3⟩ := traced_node x opt s s1 k1 hs he1 hk1
    obtain ⟨h4, h5, h6⟩ := traced_all l opt s1 s' k2 h2 he2 (hk2 s1 he1)
    refine ⟨by rw [read_append, h1, h4], h5, ?_⟩
    intro g hg
    rw [tags_append, h1, List.mem_append] at hg
    simp only [textsAll, List.mem_append]
    rcases hg with hg | hg
    · obtain ⟨t, ht, r⟩ := h3 g hg
      exact ⟨t, .inl ht, r⟩
    · obtain ⟨t, ht, r⟩ := h6 g hg
      exact ⟨t, .inr ht, r⟩
end

mutual
theorem plain_node : ∀ (x : Node) (s : Place) (k : Str), x.plain = true → (∃ s', x.ends s = some s') → Node.Shape false x s k → k = x.form s
  | .text t, s, k, _, _, hk => by simpa only [Node.Shape, Node.form] using hk
  | .var _ _, s, k, _, _, hk | .param _, s, k, _, _, hk | .setParam _ _, s, k, _, _, hk | .leaf _, s, k, _, _, hk | .hash _, s, k, _, _, hk => by
    simpa only [Node.Shape, Node.form] using hk
  | .code _ body, s, k, hp, he, hk | .incl _ body, s, k, hp, he, hk | .snippet _ _ body, s, k, hp, he, hk => by
    obtain ⟨s', he⟩ := he
    obtain ⟨he, rfl⟩ := stays_ends he
    simp only [Node.Shape, Bool.false_eq_true, false_and, false_or] at hk
    simp only [Node.plain] at hp
    simp only [Node.form]
    exact plain_all body _ k hp ⟨_, he⟩ hk
  | .cond _ _ _ _ _, s, k, hp, _, _ | .cmp _ _ _ _ _ _, s, k, hp, _, _ | .els _ _ _, s, k, hp, _, _ | .coalesce _ _, s, k, hp, _, _
  | .each _ _ _ _ _, s, k, hp, _, _ | .range _ _ _ _ _, s, k, hp, _, _ | .trans _ _, s, k, hp, _, _ | .replace _ _ _, s, k, hp, _, _
  | .allow _ _ _, s, k, hp, _, _ | .eval _ _ _ _, s, k, hp, _, _ => by simp [Node.plain] at hp
theorem plain_all : ∀ (l : List Node) (s : Place) (k : Str), plainAll l = true → (∃ s', endsAll l s = some s') → ShapeAll false l s k → k = formAll l s
  | [], s, k, _, _, hk => by simpa only [ShapeAll, formAll] using hk
  | x :: l, s, k, hp, he, hk => by
    simp only [endsAll, Option.bind_eq_some_iff] at he
    obtain ⟨s', s1, he1, he2⟩ := he
    simp only [ShapeAll] at hk
    simp only [plainAll, Bool.and_eq_true] at hp
    obtain ⟨k1, k2, rfl, hk1, hk2⟩ := hk
    simp only [formAll, he1, Option.getD_some]
    rw [← plain_node x s k1 hp.1 ⟨s1, he1⟩ hk1, ← plain_all l s1 k2 hp.2 ⟨s', he2⟩ (hk2 s1 he1)]
end

/-- **C116 (meaning).** For all data, the markup of what a template means is one of the markups of the template. -/
theorem C116_means (S : Site) (l : List Node) (d defs : Obj) (e : Place) (hok : AllOk S [] l) (hf : AllFilter S l)
    (hk : c!"CONTEXT" ∉ bindsAll l) (he : endsAll l .data = some e)
    (hshow : ∀ x, ∀ c ∈ S.F.show_ x, c ≠ '&' ∧ c ∉ special true)
    (hp : ∀ w, Below (entry defs c!"params") w → Clean true (shownAs S.F (some w)))
    (htr : ∀ key, inert (shownAs S.F (resolvePointer (((entry defs c!"locale").index c!"trans").index S.lang) key)) = true) :
    ∃ k, ShapeAll false l .data k ∧ Calmly .data (meansAll S [] l (startMem d defs)).1 e k := by
  refine (leads_all S (entry defs c!"locale") (fun key => inert_iff.1 (htr key)) l [] false .data e (by decide) rfl he hok hf hk
    (startMem d defs) ⟨fun w hw => ?_, fun w hw => built_clean (hp w hw), rfl⟩).1
  refine shown_clean hshow ?_
  rintro s rfl
  exact (start_context d).1 s hw

/-- **C116 (render).** A template whose printed variables are filtered and stand in text or in quoted values of attributes
renders, for all data, to a page whose markup is one of the markups of the template: its texts one after the other, with what is
conditional or not and with loops repeated.  The page ends where the template says, every tag in it is a tag of a text of the
template, and without conditions and loops the markup is the same for all data. -/
theorem C116_render (env : Env) (n : Nat) (w : World) (t : Tpl) (S : Site) (l : List Node) (sh : Shared) (s d defs : Obj) (e : Place)
    (hnew : Shared.new env w t.schema = some sh) (hS : SiteOf env sh S)
    (hok : AllOk S [] l) (hraw : t.raw = printAll l) (hb : c!"{:" <:+: printAll l)
    (hs : t.schema = .obj s) (hd : Obj.get? c!"data" s = some (.obj d))
    (hinh : Obj.get? c!"inherit" s = some (.obj defs)) (hdefs : Defs S defs)
    (hmax : (meansAll S [] l (startMem d defs)).2.bifs ≤ sh.max)
    (hf : AllFilter S l) (hk : c!"CONTEXT" ∉ bindsAll l)
    (hshow : ∀ x, ∀ c ∈ S.F.show_ x, c ≠ '&' ∧ c ∉ special true)
    (hp : ∀ w, Below (entry defs c!"params") w → Clean true (shownAs S.F (some w)))
    (hT : ∀ t, Written S l defs t → ¬ c!"{:" <:+: t ∧ (trimEnd t).getLast? ≠ some '{')
    (he : endsAll l .data = some e)
    (htr : ∀ key, inert (shownAs S.F (resolvePointer (((entry defs c!"locale").index c!"trans").index S.lang) key)) = true) :
    ∃ t', t.render env n w = .ok t' ∧ t'.statusCode = c!"200" ∧ t'.hasError = false ∧
      ShapeAll false l .data (markup .data t'.out) ∧
      Place.data.read t'.out = e ∧
      (∀ g ∈ tags .data t'.out, ∃ x ∈ textsAll l, ∃ p : Place, p.safe = true ∧ g ∈ tags p x) ∧
      (plainAll l = true → markup .data t'.out = formAll l .data) := by
  have h2 := built_open hT (built_trim (C78_means S l d defs hf hk hshow hp))
  obtain ⟨k, hk1, hk2⟩ := C116_means S l d defs e hok hf hk he hshow hp htr
  have hk3 := hk2.trim
  obtain ⟨r, t', rfl, hr, ht, _⟩ := C77_render env n w t S l sh s d defs hnew hS hok hraw hb hs hd hinh hdefs hmax
    (fun h => h2 (List.IsInfix.trans ⟨[], c!"!cache;", rfl⟩ h))
  obtain ⟨h3, h4⟩ := replacements_markup hk3.calm
  rw [hk3.read] at h3
  rw [hk3.markup] at h4
  rw [← ht.out] at h3 h4
  refine ⟨t', hr, ht.code, ht.noError.1, by rw [h4]; exact hk1, h3, ?_, ?_⟩
  · intro g hg
    rw [← (C116_markup_read .data t'.out).2, h4] at hg
    exact (traced_all l false .data e k rfl he hk1).2.2 g hg
  · intro hpl
    rw [h4]
    exact plain_all l .data k hpl ⟨e, he⟩ hk1

/-! ### A page -/

/-- A page with data in text, in values of attributes and in a title, in a loop and under a condition. -/
def Sample.linkPage : List Node :=
  [.text c!"<!DOCTYPE html><title> ", .var true c!"x", .text c!"</title><!-- links --><ul>",
    .each false c!"l" c!"k" c!"v" [.text c!" <li id='", .var true c!"k", .text c!"'><a href=\"/", .var true c!"v",
      .cond false false c!"filled" c!"x" [.text c!"?q=", .var true c!"x"], .text c!"\">", .var true c!"v", .text c!"</a></li> "],
    .text c!"</ul><p title=\"", .trans false [.text c!"Hi"], .text c!"\">", .leaf .mark, .var true c!"CONTEXT->GET->q", .text c!"</p>"]

/-- A page without conditions and loops. -/
def Sample.flatPage : List Node := [.text c!"<a href=\"", .var true c!"x", .text c!"\">", .code false [.var true c!"x"], .text c!"</a>"]

theorem Sample.linkPage_ok : AllOk Sample.pageSite [] Sample.linkPage := by
  simp only [Sample.linkPage, AllOk, Node.Ok, Leaf.Ok, and_true, true_and]
  exact ⟨textOk_of (by decide), nameOk_of (by decide), textOk_of (by decide), ⟨nameOk_of (by decide), ⟨nameOk_of (by decide), by decide⟩,
    ⟨nameOk_of (by decide), by decide⟩, textOk_of (by decide), nameOk_of (by decide), textOk_of (by decide), nameOk_of (by decide),
    ⟨by decide, nameOk_of (by decide), textOk_of (by decide), nameOk_of (by decide)⟩, textOk_of (by decide), nameOk_of (by decide),
    textOk_of (by decide)⟩, textOk_of (by decide), textOk_of (by decide), textOk_of (by decide), nameOk_of (by decide), textOk_of (by decide)⟩

set_option maxRecDepth 10000 in
/-- The premises of C116 are met, with hostile data. -/
example : ∃ t', (Sample.tpl (Sample.schema 1000 Sample.hostile Sample.pageDefs) (printAll Sample.linkPage)).render Sample.env 10
      Sample.pageWorld = .ok t' ∧ t'.statusCode = c!"200" ∧ t'.hasError = false ∧
      ShapeAll false Sample.linkPage .data (markup .data t'.out) ∧ Place.data.read t'.out = .data ∧
      (∀ g ∈ tags .data t'.out, ∃ x ∈ textsAll Sample.linkPage, ∃ p : Place, p.safe = true ∧ g ∈ tags p x) ∧
      (plainAll Sample.linkPage = true → markup .data t'.out = formAll Sample.linkPage .data) :=
  C116_render Sample.env 10 Sample.pageWorld _ Sample.pageSite Sample.linkPage _ _ Sample.hostile Sample.pageDefs .data rfl
    ⟨rfl, rfl, rfl, rfl, rfl, rfl, Sample.page_file⟩ Sample.linkPage_ok rfl (by decide +kernel) rfl rfl rfl ⟨.inr ⟨_, rfl⟩, rfl, rfl⟩ (by decide +kernel)
    (by simp only [Sample.linkPage, AllFilter, Node.Filters, true_or, and_self, true_and, and_true]) (by decide +kernel)
    Sample.show_clean
    (by
      intro w hw
      have e : entry Sample.pageDefs c!"params" = .obj [] := rfl
      rw [e] at hw
      rcases below_obj hw with rfl | ⟨x, hx, _⟩
      · exact clean_nil
      · simp at hx)
    (by
      rintro t (ht | ⟨key, rfl⟩)
      · have : ∀ t ∈ textsAll Sample.linkPage, ¬ c!"{:" <:+: t ∧ (trimEnd t).getLast? ≠ some '{' := by decide +kernel
        exact this t ht
      · have : ∀ t ∈ [c!"", c!"Hello"], ¬ c!"{:" <:+: t ∧ (trimEnd t).getLast? ≠ some '{' := by decide +kernel
        exact this _ (Sample.page_trans key))
    (by decide +kernel)
    (by
      intro key
      have : ∀ t ∈ [c!"", c!"Hello"], inert t = true := by decide
      exact this _ (Sample.page_trans key))

/-- The markup of a page without conditions and loops. -/
example : endsAll Sample.flatPage .data = some .data ∧ plainAll Sample.flatPage = true ∧
    formAll Sample.flatPage .data = c!"<a href=\"\"></a>" := by decide +kernel

/-- What the markup and the tags of a text are. -/
example : markup .data c!"one <B class='x y' id=z>&lt;two</b>" = c!"<B class='' id=z></b>" ∧
    tags .data c!"one <B class='x y' id=z>&lt;two</b>" = [(false, c!"b"), (true, c!"b")] ∧
    markup .data c!"<title>a</b></title>c<script>d</script>e" = c!"<title></b></title><script>d</script>" ∧
    tags .data c!"<title>a</b></title>c<script>d<b></script>e" = [(false, c!"title"), (true, c!"title"), (false, c!"script"), (true, c!"script")] := by
  decide +kernel

/-- **C116 (the places are needed).** Filtered data in a value without quotes adds an attribute to a tag, in the name of a tag it
changes the tag, and in a script it adds statements: these templates are not accepted, and their markup is another one for other
data.  (The filter does not replace white space, `=`, `;` and parentheses.) -/
theorem C116_places_needed :
    (endsAll [.text c!"<a href=", .var true c!"x", .text c!">"] .data = none ∧
      (Sample.outOf (Sample.go [(c!"x", .str c!"u onclick=alert(1)")] c!"<a href={:&;x:}>")).map (fun p => markup .data p.1) =
        some c!"<a href=u onclick=alert(1)>") ∧
    (endsAll [.text c!"<", .var true c!"x", .text c!">"] .data = none ∧
      (Sample.outOf (Sample.go [(c!"x", .str c!"script")] c!"<{:&;x:}>")).map (fun p => tags .data p.1) = some [(false, c!"script")]) ∧
    (endsAll [.text c!"<script>a=", .var true c!"x", .text c!"</script>"] .data = none ∧
      (Sample.outOf (Sample.go [(c!"x", .str c!"1;alert(1)")] c!"<script>a={:&;x:}</script>")).map (fun p => markup .data p.1) =
        some c!"<script>a=1;alert(1)</script>") := by
  refine ⟨⟨?_, ?_⟩, ⟨?_, ?_⟩, ?_, ?_⟩ <;> decide +kernel

/-- Unfiltered data change the markup also in the accepted places. -/
theorem C116_filter_needed :
    endsAll [.text c!"<p>", .var false c!"x", .text c!"</p>"] .data = some .data ∧
    (Sample.outOf (Sample.go [(c!"x", .str c!"<script>")] c!"<p>{:;x:}</p>")).map (fun p => tags .data p.1) =
      some [(false, c!"p"), (false, c!"script")] := by
  constructor <;> decide +kernel

end Nts
