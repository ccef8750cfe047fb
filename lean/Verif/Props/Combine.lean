import Verif.Props.Schema
import Verif.Lemmas.Tune
/-
C115: documents for the schema: in which groups and in which order they are merged.
-/
set_option autoImplicit false
namespace Nts
open Spec

/-! ### specification -/

/-- What a value says at a path: nothing, that there is an object, or a value that is not an object. -/
def Spec.says (v : Value) (p : List Str) : Option (Option Value) :=
  match Spec.at v p with
  | none => none
  | some (.obj _) => some none
  | some w => some (some w)

/-- Two documents say the same, up to the order of the keys of their objects. -/
def Spec.SaySame (v w : Value) : Prop := ∀ p, says v p = says w p

/-- Two documents do not contradict each other: where both have something, both have an object, or both have the same. -/
def Spec.Compatible (b c : Value) : Prop :=
  ∀ p x y, Spec.at b p = some x → Spec.at c p = some y → x = y ∨ (IsObj x ∧ IsObj y)

/-- Nothing that is not an object stands in `b` between two objects of `a` and `c`. -/
def Spec.NoneBetween (a b c : Value) : Prop :=
  ∀ p x w y, Spec.at a p = some x → Spec.at b p = some w → Spec.at c p = some y → IsObj x → IsObj y → IsObj w

/-! ### objects with the same entries in the same order -/

theorem obj_ext : ∀ {a b : Obj}, keys a = keys b → (keys a).Nodup → (∀ k, Obj.get? k a = Obj.get? k b) → a = b
  | [], [], _, _, _ => rfl
  | [], e :: r, h, _, _ => by simp [keys] at h
  | e :: r, [], h, _, _ => by simp [keys] at h
  | (k, v) :: a, (k', w) :: b, h, hn, hg => by
    rw [keys_cons, keys_cons] at h
    have h2 := (List.cons.inj h).2
    obtain rfl := (List.cons.inj h).1
    rw [keys_cons, List.nodup_cons] at hn
    have hv := hg k
    simp only [Obj.get?, if_true, Option.some.injEq] at hv
    subst hv
    congr 1
    refine obj_ext h2 hn.2 (fun j => ?_)
    by_cases hj : k = j
    · subst hj
      rw [(Obj.get?_eq_none_iff a k).2 hn.1, (Obj.get?_eq_none_iff b k).2 (h2 ▸ hn.1)]
    · have := hg j
      simpa only [Obj.get?, hj, if_false] using this

theorem nodup_mergeObj {a b : Obj} (ha : (keys a).Nodup) (hb : (keys b).Nodup) : (keys (mergeObj a b)).Nodup := by
  rw [keys_mergeObj a b hb, List.nodup_append]
  refine ⟨ha, hb.filter _, ?_⟩
  rintro x hx y hy rfl
  simp only [List.mem_filter, decide_eq_true_eq] at hy
  exact hy.2 hx

theorem get_lt {o : Obj} {k : Str} {v : Value} (h : Obj.get? k o = some v) : sizeOf v < sizeOf (Value.obj o) := by
  have h1 := List.sizeOf_lt_of_mem (Obj.get?_mem h)
  have h2 : sizeOf (k, v) = 1 + sizeOf k + sizeOf v := rfl
  have h3 : sizeOf (Value.obj o) = 1 + sizeOf o := by simp
  omega

theorem wf_of_get {o : Obj} (hn : (keys o).Nodup) (h : ∀ k v, Obj.get? k o = some v → v.WF) : (Value.obj o).WF := by
  refine (wfObj_iff o).2 ⟨hn, fun e he => ?_⟩
  obtain ⟨k, v⟩ := e
  exact h k v (Obj.get?_of_mem hn he)

theorem wf_merge : ∀ (n : Nat) (a b : Value), sizeOf b < n → a.WF → b.WF → (mergeSchema a b).WF
  | 0, _, _, h, _, _ => by omega
  | n + 1, a, b, h, ha, hb => by
    rcases isObj_or b with ⟨bo, rfl⟩ | hnb
    · rcases isObj_or a with ⟨ao, rfl⟩ | hna
      · rw [mergeSchema_obj_obj]
        refine wf_of_get (nodup_mergeObj (WF.keys_nodup ha) (WF.keys_nodup hb)) (fun k v hv => ?_)
        rw [get?_mergeObj ao bo (WF.keys_nodup hb)] at hv
        cases hbk : Obj.get? k bo with
        | none => rw [hbk] at hv; exact WF.get ha hv
        | some vb =>
          rw [hbk] at hv
          cases hak : Obj.get? k ao with
          | none => rw [hak] at hv; cases hv; exact WF.get hb hbk
          | some va =>
            rw [hak] at hv
            cases hv
            have := get_lt hbk
            exact wf_merge n va vb (by omega) (WF.get ha hak) (WF.get hb hbk)
      · rw [mergeSchema_over _ hna]; exact hb
    · rw [mergeSchema_of_not_obj hnb]; exact hb

/-- A merge of two JSON values is one. -/
theorem merge_wf {a b : Value} (ha : a.WF) (hb : b.WF) : (mergeSchema a b).WF := wf_merge _ a b (Nat.lt_succ_self _) ha hb

/-! ### groups -/

theorem at_key {o : Obj} {k : Str} {v : Value} (h : Obj.get? k o = some v) (p : List Str) : Spec.at (.obj o) (k :: p) = Spec.at v p := by
  simp only [Spec.at, h, Option.bind_some]

theorem merge_groups : ∀ (n : Nat) (a b c : Value), sizeOf c < n → a.WF → b.WF → c.WF → NoneBetween a b c →
    mergeSchema (mergeSchema a b) c = mergeSchema a (mergeSchema b c)
  | 0, _, _, _, h, _, _, _, _ => by omega
  | n + 1, a, b, c, h, ha, hb, hc, hg => by
    rcases isObj_or c with ⟨co, rfl⟩ | hnc
    · rcases isObj_or b with ⟨bo, rfl⟩ | hnb
      · rcases isObj_or a with ⟨ao, rfl⟩ | hna
        · simp only [mergeSchema_obj_obj]
          congr 1
          have na := WF.keys_nodup ha
          have nb := WF.keys_nodup hb
          have nc := WF.keys_nodup hc
          have nbc := nodup_mergeObj nb nc
          refine obj_ext ?_ (nodup_mergeObj (nodup_mergeObj na nb) nc) (fun k => ?_)
          · rw [keys_mergeObj _ _ nc, keys_mergeObj _ _ nb, keys_mergeObj _ _ nbc, keys_mergeObj _ _ nc, List.filter_append,
              List.append_assoc, List.filter_filter]
            congr 2
            apply List.filter_congr
            intro x _
            by_cases hxa : x ∈ keys ao <;> by_cases hxb : x ∈ keys bo <;> simp [hxa, hxb]
          · rw [get?_mergeObj _ _ nc, get?_mergeObj _ _ nb, get?_mergeObj _ _ nbc, get?_mergeObj _ _ nc]
            cases hck : Obj.get? k co with
            | none => rfl
            | some vc =>
              cases hbk : Obj.get? k bo with
              | none => rfl
              | some vb =>
                cases hak : Obj.get? k ao with
                | none => rfl
                | some va =>
                  simp only
                  have := get_lt hck
                  rw [merge_groups n va vb vc (by omega) (WF.get ha hak) (WF.get hb hbk) (WF.get hc hck)
                    (fun p x w y h1 h2 h3 => hg (k :: p) x w y (by rw [at_key hak]; exact h1) (by rw [at_key hbk]; exact h2)
                      (by rw [at_key hck]; exact h3))]
        · rw [mergeSchema_over _ hna, mergeSchema_obj_obj, mergeSchema_over _ hna]
      · rw [mergeSchema_of_not_obj hnb, mergeSchema_over _ hnb]
        by_cases hna : IsObj a
        · exact absurd (hg [] a b _ rfl rfl rfl hna ⟨co, rfl⟩) hnb
        · rw [mergeSchema_over _ hna]
    · rw [mergeSchema_of_not_obj hnc, mergeSchema_of_not_obj hnc, mergeSchema_of_not_obj hnc]

/-- **C115 (groups).** Merging two documents one after the other is merging their merge, to the last key and its place, unless the first replaces an
object by something that is no object and the second makes it an object again. -/
theorem C115_groups (a b c : Value) (ha : a.WF) (hb : b.WF) (hc : c.WF) (hg : NoneBetween a b c) :
    mergeSchema (mergeSchema a b) c = mergeSchema a (mergeSchema b c) :=
  merge_groups _ a b c (Nat.lt_succ_self _) ha hb hc hg

/-- **C115 (when they must not be grouped).** Where the first document replaces an object and the second one has an object again, what was there
before is gone when they are merged one after the other, but not when they are merged as one. -/
theorem C115_groups_refuted (k j i : Str) (x y : Value) (hij : j ≠ i) :
    let a := Value.obj [(k, .obj [(j, x)])]
    let b := Value.obj [(k, .null)]
    let c := Value.obj [(k, .obj [(i, y)])]
    Spec.at (mergeSchema (mergeSchema a b) c) [k, j] = none ∧ Spec.at (mergeSchema a (mergeSchema b c)) [k, j] = some x := by
  have hji : ¬ i = j := fun h => hij h.symm
  constructor <;> simp [mergeSchema, mergeObj, Spec.at, Obj.get?, Obj.insert, hij, hji]

/-! ### order -/

theorem says_of {v w : Value} {p q : List Str} (h : Spec.at v p = Spec.at w q) : says v p = says w q := by
  unfold says; rw [h]

theorem at_append (v : Value) (q r : List Str) : Spec.at v (q ++ r) = (Spec.at v q).bind (fun x => Spec.at x r) := by
  induction q generalizing v with
  | nil => rfl
  | cons k q ih =>
    rcases isObj_or v with ⟨o, rfl⟩ | hn
    · simp only [List.cons_append, Spec.at]
      cases Obj.get? k o with
      | none => rfl
      | some x => exact ih x
    · rw [List.cons_append, at_cons_of_not_obj hn, at_cons_of_not_obj hn]; rfl

theorem at_below {v w : Value} {q p : List Str} (h : Spec.at v q = some w) (hw : ¬ IsObj w) (hq : q <+: p) (hne : q ≠ p) : Spec.at v p = none := by
  obtain ⟨r, rfl⟩ := hq
  rw [at_append, h, Option.bind_some]
  cases r with
  | nil => exact absurd (List.append_nil q).symm hne
  | cons k r => exact at_cons_of_not_obj hw k r

theorem at_above {v w : Value} {q p : List Str} (h : Spec.at v p = some w) (hq : q <+: p) (hne : q ≠ p) : ∃ o, Spec.at v q = some (.obj o) := by
  cases hv : Spec.at v q with
  | none =>
    obtain ⟨r, rfl⟩ := hq
    rw [at_append, hv] at h
    cases h
  | some x =>
    rcases isObj_or x with ⟨o, rfl⟩ | hn
    · exact ⟨o, rfl⟩
    · rw [at_below hv hn hq hne] at h
      cases h

/-- A document decides what is at a path: it has something there, or something that is not an object above it. -/
def Decides (b : Value) (p : List Str) : Prop := ∃ q w, q <+: p ∧ Spec.at b q = some w ∧ (q = p ∨ ¬ IsObj w)

theorem says_merge_yes (a b : Value) (hb : b.WF) (p : List Str) (h : Decides b p) : says (mergeSchema a b) p = says b p := by
  obtain ⟨q, w, hq, hw, ho⟩ := h
  by_cases hno : IsObj w
  · have hqp : q = p := ho.resolve_right (fun h => h hno)
    subst hqp
    obtain ⟨bo, rfl⟩ := hno
    have := C06_objects_merge a b hb q bo hw
    unfold says
    rw [this, hw]
    cases Spec.at a q with
    | none => rfl
    | some x => cases x <;> rfl
  · have h1 := C06_last_writer a b hb q w hw hno
    by_cases hqp : q = p
    · subst hqp
      exact says_of (h1.trans hw.symm)
    · exact says_of ((at_below h1 hno hq hqp).trans (at_below hw hno hq hqp).symm)

theorem says_merge_no (a b : Value) (hb : b.WF) (p : List Str) (h : ¬ Decides b p) : says (mergeSchema a b) p = says a p := by
  refine says_of (C06_untouched a b hb p ?_ (fun q hq w hw => ?_))
  · cases hp : Spec.at b p with
    | none => rfl
    | some w => exact absurd ⟨p, w, List.prefix_refl p, hp, .inl rfl⟩ h
  · exact Classical.byContradiction fun hn => h ⟨q, w, hq, hw, .inr hn⟩

theorem compatible_says {b c : Value} (h : Compatible b c) {p : List Str} (hb : Decides b p) (hc : Decides c p) : says b p = says c p := by
  obtain ⟨q, x, hq, hx, ho⟩ := hb
  obtain ⟨r, y, hr, hy, hp⟩ := hc
  have agree : ∀ p x y, Spec.at b p = some x → Spec.at c p = some y → says b p = says c p := by
    intro p x y h1 h2
    rcases h p x y h1 h2 with rfl | ⟨⟨o, rfl⟩, ⟨o', rfl⟩⟩
    · exact says_of (h1.trans h2.symm)
    · unfold says; rw [h1, h2]
  by_cases hqr : q = r
  · subst hqr
    by_cases hqp : q = p
    · subst hqp; exact agree q x y hx hy
    · have e1 := at_below hx (ho.resolve_left hqp) hq hqp
      have e2 := at_below hy (hp.resolve_left hqp) hr hqp
      exact says_of (e1.trans e2.symm)
  · rcases List.prefix_or_prefix_of_prefix hq hr with hle | hle
    · -- `b` has no object at `q`, where `c` has one
      have hqp : q ≠ p := by
        rintro rfl
        exact hqr (List.IsPrefix.eq_of_length_le hle hr.length_le)
      obtain ⟨o, hco⟩ := at_above hy hle hqr
      rcases h q x _ hx hco with rfl | ⟨hxo, _⟩
      · exact absurd ⟨o, rfl⟩ (ho.resolve_left hqp)
      · exact absurd hxo (ho.resolve_left hqp)
    · have hrp : r ≠ p := by
        rintro rfl
        exact hqr (List.IsPrefix.eq_of_length_le hle hq.length_le).symm
      obtain ⟨o, hbo⟩ := at_above hx hle (fun e => hqr e.symm)
      rcases h r _ y hbo hy with rfl | ⟨_, hyo⟩
      · exact absurd ⟨o, rfl⟩ (hp.resolve_left hrp)
      · exact absurd hyo (hp.resolve_left hrp)

/-- **C115 (order).** Two documents that do not contradict each other can be merged in either order: whatever the schema, the results say the same,
and differ only in the order of keys. -/
theorem C115_order (a b c : Value) (hb : b.WF) (hc : c.WF) (h : Compatible b c) :
    SaySame (mergeSchema (mergeSchema a b) c) (mergeSchema (mergeSchema a c) b) := by
  intro p
  by_cases h1 : Decides b p <;> by_cases h2 : Decides c p
  · rw [says_merge_yes _ c hc p h2, says_merge_yes _ b hb p h1, compatible_says h h1 h2]
  · rw [says_merge_no _ c hc p h2, says_merge_yes _ b hb p h1, says_merge_yes _ b hb p h1]
  · rw [says_merge_yes _ c hc p h2, says_merge_no _ b hb p h1, says_merge_yes _ c hc p h2]
  · rw [says_merge_no _ c hc p h2, says_merge_no _ b hb p h1, says_merge_no _ b hb p h1, says_merge_no _ c hc p h2]

/-- **C115 (exactly those).** Documents that can be merged in either order whatever the schema do not contradict each other. -/
theorem C115_order_exact (b c : Value) (hb : b.WF) (hc : c.WF)
    (h : ∀ a, SaySame (mergeSchema (mergeSchema a b) c) (mergeSchema (mergeSchema a c) b)) : Compatible b c := by
  intro p x y hx hy
  have hp := h .null p
  rw [says_merge_yes _ c hc p ⟨p, y, List.prefix_refl p, hy, .inl rfl⟩, says_merge_yes _ b hb p ⟨p, x, List.prefix_refl p, hx, .inl rfl⟩] at hp
  unfold says at hp
  rw [hx, hy] at hp
  rcases isObj_or x with ⟨o, rfl⟩ | hn
  · rcases isObj_or y with ⟨o', rfl⟩ | hm
    · exact .inr ⟨⟨o, rfl⟩, ⟨o', rfl⟩⟩
    · cases y <;> first | exact absurd ⟨_, rfl⟩ hm | (cases hp)
  · cases x <;> first | exact absurd ⟨_, rfl⟩ hn | (cases y <;> first | (cases hp; done) | (cases hp; exact .inl rfl))

/-! ### the schema of a template -/

theorem wf_insert {o : Obj} {k : Str} {v : Value} (ho : (Value.obj o).WF) (hv : v.WF) : (Value.obj (Obj.insert k v o)).WF := by
  have hn := WF.keys_nodup ho
  refine wf_of_get ?_ (fun j w hw => ?_)
  · rw [keys_insert]
    split
    · exact hn
    · next hk =>
      rw [List.nodup_append]
      refine ⟨hn, by simp, ?_⟩
      rintro x hx y hy rfl
      simp only [List.mem_singleton] at hy
      exact hk (hy ▸ hx)
  · by_cases hk : k = j
    · subst hk
      rw [Obj.get?_insert_self] at hw
      cases hw; exact hv
    · rw [Obj.get?_insert_ne o v hk] at hw
      exact WF.get ho hw

theorem wf_modExisting {v : Value} {k : Str} {f : Value → Value} (hv : v.WF) (hf : ∀ x, x.WF → (f x).WF) : (v.modExisting k f).WF := by
  unfold Value.modExisting
  split
  · next o =>
    split
    · next x hx => exact wf_insert hv (hf x (WF.get hv hx))
    · exact hv
  · exact hv

theorem wf_sync {v : Value} (hv : v.WF) : (syncSchemaHeaders v).WF := by
  unfold syncSchemaHeaders
  refine wf_modExisting hv (fun d hd => wf_modExisting hd (fun c hc => wf_modExisting hc (fun h hh => ?_)))
  split
  · next ho =>
    unfold syncHeaders
    split
    · next v hv => exact wf_insert (wf_insert hh (WF.get hh hv)) (WF.get hh hv)
    · split
      · next v hv => exact wf_insert (wf_insert hh (WF.get hh hv)) (WF.get hh hv)
      · split
        · next v hv => exact wf_insert (wf_insert hh (WF.get hh hv)) (WF.get hh hv)
        · exact hh
  · exact hh

theorem wf_update {a b s : Value} (ha : a.WF) (hb : b.WF) (h : updateSchema a b = some s) : s.WF := by
  unfold updateSchema stampVersion Value.setIndex at h
  have hw := wf_sync (merge_wf ha hb)
  split at h
  · cases h
    exact wf_of_get (by simp [keys]) (fun k v hv => by
      simp only [Obj.get?] at hv
      split at hv
      · cases hv; exact trivial
      · cases hv)
  · next o ho =>
    cases h
    rw [ho] at hw
    exact wf_insert hw trivial
  · cases h

theorem modExisting_id {v : Value} {k : Str} {f : Value → Value} (h : ∀ x, v.get? k = some x → f x = x) : v.modExisting k f = v := by
  unfold Value.modExisting
  split
  · next o =>
    split
    · next x hx => rw [h x hx, Obj.insert_of_get? hx]
    · rfl
  · rfl

theorem get_at {v x : Value} {k : Str} (h : v.get? k = some x) (p : List Str) : Spec.at v (k :: p) = Spec.at x p := by
  cases v with
  | obj o => exact at_key h p
  | _ => cases h

/-- Without the header in any of its spellings nothing is to be done. -/
theorem sync_id {v : Value} (h : ∀ n ∈ ajaxNames, Spec.at v (headersPath ++ [n]) = none) : syncSchemaHeaders v = v := by
  unfold syncSchemaHeaders
  refine modExisting_id (fun d hd => modExisting_id (fun c hc => modExisting_id (fun hh hhh => ?_)))
  split
  · next ho =>
    have hn : ∀ n ∈ ajaxNames, Obj.get? n ho = none := by
      intro n hn
      have := h n hn
      rw [show headersPath ++ [n] = c!"data" :: c!"CONTEXT" :: c!"HEADERS" :: [n] from rfl, get_at hd, get_at hc, get_at hhh] at this
      simp only [Spec.at] at this
      cases hx : Obj.get? n ho with
      | none => rfl
      | some x => rw [hx] at this; cases this
    unfold syncHeaders
    rw [hn _ (by simp [ajaxNames]), hn _ (by simp [ajaxNames]), hn _ (by simp [ajaxNames])]
  · rfl

/-- The headers and the version do not meet. -/
theorem sync_insert (o : Obj) (v : Value) : ∃ o', syncSchemaHeaders (.obj o) = .obj o' ∧
    syncSchemaHeaders (.obj (Obj.insert c!"version" v o)) = .obj (Obj.insert c!"version" v o') := by
  unfold syncSchemaHeaders Value.modExisting
  simp only
  rw [Obj.get?_insert_ne o v (by decide)]
  cases h : Obj.get? c!"data" o with
  | none => exact ⟨o, rfl, rfl⟩
  | some d => exact ⟨_, rfl, congrArg Value.obj (insert_comm v _ (by decide) o h)⟩

theorem insert_mergeObj (x c : Obj) (v w : Value) (k : Str) (hk : k ∈ keys x) (hx : (keys x).Nodup) (hc : (keys c).Nodup) :
    Obj.insert k w (mergeObj (Obj.insert k v x) c) = Obj.insert k w (mergeObj x c) := by
  have hki : keys (Obj.insert k v x) = keys x := by rw [keys_insert, if_pos hk]
  have hm : keys (mergeObj (Obj.insert k v x) c) = keys (mergeObj x c) := by rw [keys_mergeObj _ _ hc, keys_mergeObj _ _ hc, hki]
  have hkm : k ∈ keys (mergeObj x c) := by rw [keys_mergeObj _ _ hc]; exact List.mem_append_left _ hk
  refine obj_ext ?_ ?_ (fun j => ?_)
  · rw [keys_insert, keys_insert, hm]
  · rw [keys_insert, if_pos (hm ▸ hkm), hm]
    exact nodup_mergeObj hx hc
  · by_cases hj : k = j
    · subst hj; rw [Obj.get?_insert_self, Obj.get?_insert_self]
    · rw [Obj.get?_insert_ne _ _ hj, Obj.get?_insert_ne _ _ hj, get?_mergeObj _ _ hc, get?_mergeObj _ _ hc, Obj.get?_insert_ne _ _ hj]

/-- The document does not have the ajax header, in none of its spellings. -/
def Spec.NoAjax (v : Value) : Prop := ∀ n ∈ ajaxNames, Spec.at v (headersPath ++ [n]) = none

theorem noAjax_merge {a b : Value} (hb : b.WF) (h1 : NoAjax a) (h2 : NoAjax b) : NoAjax (mergeSchema a b) := by
  have key : ∀ v p, says v p = none → Spec.at v p = none := by
    intro v p h
    unfold says at h
    cases hp : Spec.at v p with
    | none => rfl
    | some x => rw [hp] at h; cases x <;> cases h
  intro n hn
  refine key _ _ ?_
  by_cases hd : Decides b (headersPath ++ [n])
  · rw [says_merge_yes a b hb _ hd]
    unfold says; rw [h2 n hn]
  · rw [says_merge_no a b hb _ hd]
    unfold says; rw [h1 n hn]

theorem updates_groups (s b c : Value) (hs : s.WF) (hb : b.WF) (hc : c.WF) (hv : (Spec.at s [c!"version"]).isSome) (hob : IsObj b) (hoc : IsObj c)
    (hg : NoneBetween s b c) (hh : ∀ n ∈ ajaxNames, Spec.at (mergeSchema s b) (headersPath ++ [n]) = none) :
    updates s [b, c] = updates s [mergeSchema b c] := by
  obtain ⟨bo, rfl⟩ := hob
  obtain ⟨co, rfl⟩ := hoc
  rcases isObj_or s with ⟨so, rfl⟩ | hns
  · have hks : c!"version" ∈ keys so := by
      simp only [Spec.at] at hv
      refine (Obj.get?_isSome_iff so _).1 ?_
      cases hg : Obj.get? c!"version" so with
      | none => rw [hg] at hv; cases hv
      | some x => rfl
    have hX : mergeSchema (.obj so) (.obj bo) = .obj (mergeObj so bo) := mergeSchema_obj_obj so bo
    have nX := nodup_mergeObj (WF.keys_nodup hs) (WF.keys_nodup hb)
    have hkX : c!"version" ∈ keys (mergeObj so bo) := by
      rw [keys_mergeObj _ _ (WF.keys_nodup hb)]; exact List.mem_append_left _ hks
    have h1 : updateSchema (.obj so) (.obj bo) = some (.obj (Obj.insert c!"version" (.str VERSION) (mergeObj so bo))) := by
      unfold updateSchema
      rw [sync_id hh, hX]
      rfl
    have h2 : updateSchema (.obj (Obj.insert c!"version" (.str VERSION) (mergeObj so bo))) (.obj co) =
        updateSchema (.obj so) (mergeSchema (.obj bo) (.obj co)) := by
      unfold updateSchema
      rw [← C115_groups _ _ _ hs hb hc hg, hX, mergeSchema_obj_obj, mergeSchema_obj_obj]
      obtain ⟨o1, e1, f1⟩ := sync_insert (mergeObj (Obj.insert c!"version" (.str VERSION) (mergeObj so bo)) co) (.str VERSION)
      obtain ⟨o2, e2, f2⟩ := sync_insert (mergeObj (mergeObj so bo) co) (.str VERSION)
      rw [insert_mergeObj _ _ _ _ _ hkX nX (WF.keys_nodup hc), f2] at f1
      rw [e1, e2]
      show some _ = some _
      rw [f1]
    simp only [updates, h1, Option.bind_some, h2]
  · cases s <;> first | exact absurd ⟨_, rfl⟩ hns | cases hv

/-- The schema of a template is a JSON value with a version. -/
theorem built_schema {env : Env} {docs : List Value} {t : Tpl} (h : Built env docs t) (hwf : ∀ d ∈ docs, d.WF) :
    t.schema.WF ∧ (Spec.at t.schema [c!"version"]).isSome := by
  have hu := built_updates h
  have key : ∀ (ds : List Value) (s s' : Value), (∀ d ∈ ds, d.WF) → s.WF → (Spec.at s [c!"version"]).isSome → updates s ds = some s' →
      s'.WF ∧ (Spec.at s' [c!"version"]).isSome := by
    intro ds
    induction ds with
    | nil => intro s s' _ h1 h2 h; cases h; exact ⟨h1, h2⟩
    | cons d ds ih =>
      intro s s' hd h1 h2 h
      simp only [updates] at h
      cases hs : updateSchema s d with
      | none => rw [hs] at h; cases h
      | some s1 =>
        rw [hs] at h
        exact ih s1 s' (fun x hx => hd x (List.mem_cons_of_mem _ hx)) (wf_update h1 (hd d (by simp)) hs)
          (by rw [(C07_version_and_ajax s d s1 hs).1]; rfl) h
  refine key docs defaultSchema t.schema hwf ?_ ?_ hu
  · simp [defaultSchema, Value.WF, Value.WFObj, Value.WFList, keys]
  · rfl

/-- **C115 (templates).** Two documents merged into the schema of a template one after the other give the template that their merge gives, if the
first does not bring the ajax header and does not replace an object that the second makes an object again. -/
theorem C115_templates (env : Env) (docs : List Value) (t t1 t2 : Tpl) (b c : Value) (h : Built env docs t) (hd : ∀ d ∈ docs, d.WF)
    (hb : b.WF) (hc : c.WF) (hob : IsObj b) (hoc : IsObj c) (hg : NoneBetween t.schema b c)
    (hh : NoAjax t.schema) (hhb : NoAjax b)
    (h1 : t.mergeSchemaValue b = .ok t1) (h2 : t1.mergeSchemaValue c = .ok t2) :
    t.mergeSchemaValue (mergeSchema b c) = .ok t2 := by
  obtain ⟨hs, hv⟩ := built_schema h hd
  have hu := updates_groups t.schema b c hs hb hc hv hob hoc hg (noAjax_merge hb hh hhb)
  obtain ⟨e1, r1, f1, o1, s1⟩ := merge_ok h1
  obtain ⟨e2, r2, f2, o2, s2⟩ := merge_ok h2
  simp only [updates, e1, Option.bind_some, e2] at hu
  have h3 : updateSchema t.schema (mergeSchema b c) = some t2.schema := by
    cases hx : updateSchema t.schema (mergeSchema b c) with
    | none => rw [hx] at hu; cases hu
    | some x => rw [hx] at hu; cases hu; rfl
  unfold Tpl.mergeSchemaValue Tpl.merge
  rw [C07_owned_same, h3]
  simp only [TRes.ok.injEq]
  cases t; cases t1; cases t2
  simp_all

theorem updates_two (s b c : Value) (hs : s.WF) (hb : b.WF) (hc : c.WF) (hv : (Spec.at s [c!"version"]).isSome) (hob : IsObj b) (hoc : IsObj c)
    (hhs : NoAjax s) (hhb : NoAjax b) (hhc : NoAjax c) : updates s [b, c] = stampVersion (mergeSchema (mergeSchema s b) c) := by
  obtain ⟨bo, rfl⟩ := hob
  obtain ⟨co, rfl⟩ := hoc
  rcases isObj_or s with ⟨so, rfl⟩ | hns
  · have hks : c!"version" ∈ keys so := by
      simp only [Spec.at] at hv
      refine (Obj.get?_isSome_iff so _).1 ?_
      cases hg : Obj.get? c!"version" so with
      | none => rw [hg] at hv; cases hv
      | some x => rfl
    have hX : mergeSchema (.obj so) (.obj bo) = .obj (mergeObj so bo) := mergeSchema_obj_obj so bo
    have nX := nodup_mergeObj (WF.keys_nodup hs) (WF.keys_nodup hb)
    have hkX : c!"version" ∈ keys (mergeObj so bo) := by
      rw [keys_mergeObj _ _ (WF.keys_nodup hb)]; exact List.mem_append_left _ hks
    have h1 : updateSchema (.obj so) (.obj bo) = some (.obj (Obj.insert c!"version" (.str VERSION) (mergeObj so bo))) := by
      unfold updateSchema
      rw [sync_id (noAjax_merge hb hhs hhb), hX]
      rfl
    have h2 : updateSchema (.obj (Obj.insert c!"version" (.str VERSION) (mergeObj so bo))) (.obj co) =
        stampVersion (mergeSchema (.obj (mergeObj so bo)) (.obj co)) := by
      have hXn : NoAjax (.obj (mergeObj so bo)) := hX ▸ noAjax_merge hb hhs hhb
      have hY := sync_id (noAjax_merge hc hXn hhc)
      unfold updateSchema
      rw [mergeSchema_obj_obj] at hY
      rw [mergeSchema_obj_obj, mergeSchema_obj_obj]
      obtain ⟨o1, e1, f1⟩ := sync_insert (mergeObj (Obj.insert c!"version" (.str VERSION) (mergeObj so bo)) co) (.str VERSION)
      obtain ⟨o2, e2, f2⟩ := sync_insert (mergeObj (mergeObj so bo) co) (.str VERSION)
      rw [insert_mergeObj _ _ _ _ _ hkX nX (WF.keys_nodup hc), f2] at f1
      rw [e2] at hY
      rw [e1, ← hY]
      show some _ = some _
      rw [f1]
    simp only [updates, h1, Option.bind_some, h2, hX]
    cases stampVersion (mergeSchema (.obj (mergeObj so bo)) (.obj co)) <;> rfl
  · cases s <;> first | exact absurd ⟨_, rfl⟩ hns | cases hv

/-- **C115 (templates, order).** Two documents that do not contradict each other, without the ajax header, give a template the same schema in
either order, up to the order of keys. -/
theorem C115_templates_order (env : Env) (docs : List Value) (t t1 t2 u1 u2 : Tpl) (b c : Value) (h : Built env docs t) (hd : ∀ d ∈ docs, d.WF)
    (hb : b.WF) (hc : c.WF) (hob : IsObj b) (hoc : IsObj c) (hbc : Compatible b c) (hh : NoAjax t.schema) (hhb : NoAjax b) (hhc : NoAjax c)
    (h1 : t.mergeSchemaValue b = .ok t1) (h2 : t1.mergeSchemaValue c = .ok t2)
    (h3 : t.mergeSchemaValue c = .ok u1) (h4 : u1.mergeSchemaValue b = .ok u2) : SaySame t2.schema u2.schema := by
  obtain ⟨hs, hv⟩ := built_schema h hd
  have e1 := updates_two t.schema b c hs hb hc hv hob hoc hh hhb hhc
  have e2 := updates_two t.schema c b hs hc hb hv hoc hob hh hhc hhb
  simp only [updates, (merge_ok h1).1, (merge_ok h2).1, (merge_ok h3).1, (merge_ok h4).1, Option.bind_some] at e1 e2
  have hsay := C115_order t.schema b c hb hc hbc
  intro p
  have hobj : ∀ {v w : Value}, stampVersion v = some w → says w [] = some none := by
    intro v w h
    unfold stampVersion Value.setIndex at h
    split at h
    · cases h; rfl
    · cases h; rfl
    · cases h
  cases p with
  | nil => rw [hobj e1.symm, hobj e2.symm]
  | cons k ks =>
    have a1 := at_stampVersion e1.symm k ks
    have a2 := at_stampVersion e2.symm k ks
    by_cases hk : k = c!"version"
    · rw [if_pos hk] at a1 a2
      exact says_of (a1.trans a2.symm)
    · rw [if_neg hk] at a1 a2
      rw [says_of a1, says_of a2]
      exact hsay (k :: ks)

/-- **C115 (the ajax header).** The ajax header is not like other entries: once the schema has it (C07: then in all spellings), a later document
that says nothing about its spelling in small letters does not change it, whatever it says in the other spellings. -/
theorem C115_ajax (s d s' : Value) (v : Value) (hd : d.WF) (h : updateSchema s d = some s')
    (hs : Spec.at s (headersPath ++ [c!"requested-with-ajax"]) = some v) (hq : Silent d (headersPath ++ [c!"requested-with-ajax"])) :
    ∀ n ∈ ajaxNames, Spec.at s' (headersPath ++ [n]) = some v := by
  intro n hn
  have hm := C06_untouched s d hd _ hq.1 hq.2
  rw [hs] at hm
  obtain ⟨ho, hho⟩ := at_above hm (List.prefix_append headersPath _) (by decide)
  rw [at_append, hho, Option.bind_some] at hm
  simp only [Spec.at] at hm
  have hl : Obj.get? c!"requested-with-ajax" ho = some v := by
    cases hx : Obj.get? c!"requested-with-ajax" ho with
    | none => rw [hx] at hm; cases hm
    | some x => rw [hx] at hm; exact hm
  rw [C07_ajax_value s d s' h ho hho n hn]
  unfold ajaxValue ajaxNames
  simp only [List.findSome?_cons, hl]

/-- The documents of the examples: a page of a request and the one of a site. -/
def Sample.docRequest (name v : Str) : Value := .obj [(c!"data", .obj [(c!"CONTEXT", .obj [(c!"HEADERS", .obj [(name, .str v)])])])]

/-- One document says yes, a later one no, in another spelling: the answer stays yes. -/
theorem C115_ajax_refuted : ∃ s, updates defaultSchema [Sample.docRequest c!"requested-with-ajax" c!"yes", Sample.docRequest c!"REQUESTED-WITH-AJAX" c!"no"] = some s ∧
    Spec.at s (headersPath ++ [c!"REQUESTED-WITH-AJAX"]) = some (.str c!"yes") ∧
    ∃ s', updates defaultSchema [Sample.docRequest c!"REQUESTED-WITH-AJAX" c!"no"] = some s' ∧
      Spec.at s' (headersPath ++ [c!"REQUESTED-WITH-AJAX"]) = some (.str c!"no") := ⟨_, rfl, rfl, _, rfl, rfl⟩

/-- Objects are compatible when the values of the keys they share are. -/
theorem compatible_obj {b c : Obj} (h : ∀ k v w, Obj.get? k b = some v → Obj.get? k c = some w → Compatible v w) : Compatible (.obj b) (.obj c) := by
  intro p x y h1 h2
  cases p with
  | nil => cases h1; cases h2; exact .inr ⟨⟨_, rfl⟩, ⟨_, rfl⟩⟩
  | cons k p =>
    simp only [Spec.at] at h1 h2
    obtain ⟨v, hv, h1⟩ := Option.bind_eq_some_iff.1 h1
    obtain ⟨w, hw, h2⟩ := Option.bind_eq_some_iff.1 h2
    exact h k v w hv hw p x y h1 h2

/-- Documents that are compatible can be grouped. -/
theorem noneBetween_of {a b c : Value} (h : Compatible b c) : NoneBetween a b c := by
  intro p x w y _ h2 h3 _ hy
  rcases h p w y h2 h3 with rfl | ⟨hw, _⟩
  · exact hy
  · exact hw

/-- The premises are met: two documents with data for the same page, merged into a new template. -/
example : ∃ b c : Value, b.WF ∧ c.WF ∧ IsObj b ∧ IsObj c ∧ Compatible b c ∧ NoneBetween defaultSchema b c ∧ NoAjax defaultSchema ∧ NoAjax b ∧ NoAjax c ∧
    Spec.at (mergeSchema b c) [c!"data", c!"x"] = some (.str c!"1") ∧ Spec.at (mergeSchema b c) [c!"data", c!"y"] = some (.str c!"2") := by
  have hc : Compatible (.obj [(c!"data", .obj [(c!"x", .str c!"1")])]) (.obj [(c!"data", .obj [(c!"y", .str c!"2")])]) := by
    refine compatible_obj (fun k v w h1 h2 => ?_)
    simp only [Obj.get?] at h1 h2
    split at h1
    · next hk =>
      rw [if_pos hk] at h2
      cases h1; cases h2
      refine compatible_obj (fun j v w h1 h2 => ?_)
      simp only [Obj.get?] at h1 h2
      split at h1
      · next hj =>
        subst hj
        rw [if_neg (by decide)] at h2
        cases h2
      · cases h1
    · cases h1
  refine ⟨_, _, ?_, ?_, ⟨_, rfl⟩, ⟨_, rfl⟩, hc, noneBetween_of hc, ?_, ?_, ?_, rfl, rfl⟩
  · simp [Value.WF, Value.WFObj]
  · simp [Value.WF, Value.WFObj]
  · intro n hn
    simp only [ajaxNames, List.mem_cons, List.not_mem_nil, or_false] at hn
    rcases hn with rfl | rfl | rfl <;> rfl
  · intro n hn; rfl
  · intro n hn; rfl

end Nts
