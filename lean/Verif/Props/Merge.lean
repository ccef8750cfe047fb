import Verif.Model.Template
import Verif.Lemmas.Value
import Verif.Spec.Sample
/-
C06, C07, C08: schema merge and update.
-/
set_option autoImplicit false
namespace Nts
open Spec

/-- Follow a path of object keys. -/
def Spec.at : Value → List Str → Option Value
  | v, [] => some v
  | .obj o, k :: ks => (Obj.get? k o).bind (fun x => Spec.at x ks)
  | _, _ :: _ => none

theorem Obj.insert_of_get? {o : Obj} {k : Str} {v : Value} (h : Obj.get? k o = some v) :
    Obj.insert k v o = o := by
  induction o with
  | nil => simp [Obj.get?] at h
  | cons e r ih =>
    obtain ⟨a, x⟩ := e
    simp only [Obj.get?] at h
    simp only [Obj.insert]
    split
    · next h' => simp [h'] at h; rw [h]
    · next h' => simp [h'] at h; rw [ih h]

theorem Obj.insert_of_none {o : Obj} {k : Str} (v : Value) (h : Obj.get? k o = none) :
    Obj.insert k v o = o ++ [(k, v)] := by
  induction o with
  | nil => rfl
  | cons e r ih =>
    obtain ⟨a, x⟩ := e
    simp only [Obj.get?] at h
    simp only [Obj.insert]
    split
    · next h' => simp [h'] at h
    · next h' => simp [h'] at h; rw [ih h]; rfl

/-- One step of the merge loop. -/
theorem mergeObj_cons (a : Obj) (k : Str) (v : Value) (r : Obj) :
    mergeObj a ((k, v) :: r) =
      mergeObj (Obj.insert k (match Obj.get? k a with | some va => mergeSchema va v | none => v) a) r := by
  simp only [mergeObj]
  cases h : Obj.get? k a with
  | none => rw [Obj.insert_of_none v h]
  | some va => rfl

theorem get?_mergeObj (a b : Obj) (hb : (keys b).Nodup) (k : Str) :
    Obj.get? k (mergeObj a b) = match Obj.get? k b with
      | some v => some (match Obj.get? k a with | some va => mergeSchema va v | none => v)
      | none => Obj.get? k a := by
  induction b generalizing a with
  | nil => rfl
  | cons e r ih =>
    obtain ⟨k', v⟩ := e
    simp only [keys, List.map_cons, List.nodup_cons] at hb
    rw [mergeObj_cons, ih _ hb.2]
    by_cases hk : k' = k
    · subst hk
      have hnone : Obj.get? k' r = none := (Obj.get?_eq_none_iff r k').2 hb.1
      simp only [hnone, Obj.get?, if_true, Obj.get?_insert_self]
    · simp only [Obj.get?, hk, if_false, Obj.get?_insert_ne _ _ hk]

theorem keys_cons (k : Str) (v : Value) (r : Obj) : keys ((k, v) :: r) = k :: keys r := rfl

theorem keys_mergeObj (a b : Obj) (hb : (keys b).Nodup) :
    keys (mergeObj a b) = keys a ++ (keys b).filter (fun k => decide (k ∉ keys a)) := by
  induction b generalizing a with
  | nil => simp [mergeObj, keys]
  | cons e r ih =>
    obtain ⟨k, v⟩ := e
    rw [keys_cons, List.nodup_cons] at hb
    rw [mergeObj_cons, ih _ hb.2, keys_insert, keys_cons, List.filter_cons]
    by_cases hk : k ∈ keys a
    · simp [hk]
    · simp only [hk, if_false, not_false_eq_true, decide_true, if_true, List.append_assoc, List.cons_append,
        List.nil_append]
      congr 2
      apply List.filter_congr
      intro x hx
      have : x ≠ k := by rintro rfl; exact hb.1 hx
      simp [this]

/-- Is the value an object? -/
def Spec.IsObj (v : Value) : Prop := ∃ o, v = .obj o

theorem mergeSchema_of_not_obj {a b : Value} (h : ¬ IsObj b) : mergeSchema a b = b := by
  cases b <;> first | rfl | exact absurd ⟨_, rfl⟩ h

theorem mergeSchema_obj_obj (a b : Obj) : mergeSchema (.obj a) (.obj b) = .obj (mergeObj a b) := by
  simp only [mergeSchema]

theorem mergeSchema_over {a : Value} (b : Obj) (h : ¬ IsObj a) : mergeSchema a (.obj b) = .obj b := by
  cases a <;> first | exact absurd ⟨_, rfl⟩ h | (simp only [mergeSchema])

theorem WF.keys_nodup {o : Obj} (h : (Value.obj o).WF) : (keys o).Nodup :=
  ((wfObj_iff o).1 h).1

theorem WF.get {o : Obj} {k : Str} {v : Value} (h : (Value.obj o).WF) (hk : Obj.get? k o = some v) : v.WF :=
  ((wfObj_iff o).1 h).2 _ (Obj.get?_mem hk)

theorem isObj_or (v : Value) : (∃ o, v = .obj o) ∨ ¬ IsObj v := Classical.em _

theorem at_cons_of_not_obj {v : Value} (h : ¬ IsObj v) (k : Str) (ks : List Str) : Spec.at v (k :: ks) = none := by
  cases v <;> first | rfl | exact absurd ⟨_, rfl⟩ h

/-- **C06.** Last writer wins: wherever `b` has something that is not an object, the merge has exactly that. -/
theorem C06_last_writer (a b : Value) (hb : b.WF) (p : List Str) (w : Value) (h : Spec.at b p = some w)
    (hw : ¬ IsObj w) : Spec.at (mergeSchema a b) p = some w := by
  induction p generalizing a b with
  | nil =>
    simp only [Spec.at, Option.some.injEq] at h ⊢
    subst h; exact mergeSchema_of_not_obj hw
  | cons k ks ih =>
    rcases isObj_or b with ⟨bo, rfl⟩ | hnb
    · simp only [Spec.at] at h
      obtain ⟨x, hx, hx2⟩ := Option.bind_eq_some_iff.1 h
      have hwx := WF.get hb hx
      rcases isObj_or a with ⟨ao, rfl⟩ | hna
      · rw [mergeSchema_obj_obj]
        simp only [Spec.at, get?_mergeObj _ _ (WF.keys_nodup hb), hx, Option.bind_some]
        split
        · exact ih _ _ hwx hx2
        · exact hx2
      · rw [mergeSchema_over _ hna]; simp only [Spec.at, hx, Option.bind_some]; exact hx2
    · rw [at_cons_of_not_obj hnb] at h; simp at h

/-- **C06.** Where `b` has an object: merged with the object of `a` if there is one, else the object of `b`. -/
theorem C06_objects_merge (a b : Value) (hb : b.WF) (p : List Str) (bo : Obj) (h : Spec.at b p = some (.obj bo)) :
    Spec.at (mergeSchema a b) p =
      some (match Spec.at a p with
        | some (.obj ao) => mergeSchema (.obj ao) (.obj bo)
        | _ => .obj bo) := by
  induction p generalizing a b with
  | nil =>
    simp only [Spec.at, Option.some.injEq] at h ⊢
    subst h
    cases a <;> first | rfl | simp only [mergeSchema]
  | cons k ks ih =>
    rcases isObj_or b with ⟨bo', rfl⟩ | hnb
    · simp only [Spec.at] at h
      obtain ⟨x, hx, hx2⟩ := Option.bind_eq_some_iff.1 h
      have hwx := WF.get hb hx
      rcases isObj_or a with ⟨ao, rfl⟩ | hna
      · rw [mergeSchema_obj_obj]
        simp only [Spec.at, get?_mergeObj _ _ (WF.keys_nodup hb), hx, Option.bind_some]
        cases hg : Obj.get? k ao with
        | none => simpa using hx2
        | some va => simpa using ih va _ hwx hx2
      · rw [mergeSchema_over _ hna, at_cons_of_not_obj hna]
        simp only [Spec.at, hx, Option.bind_some]; exact hx2
    · rw [at_cons_of_not_obj hnb] at h; simp at h

/-- **C06.** Nothing else is lost: a path that `b` does not mention (it has nothing there, and no scalar or array
above it) keeps the value it had in `a`. -/
theorem C06_untouched (a b : Value) (hb : b.WF) (p : List Str) (h : Spec.at b p = none)
    (hpre : ∀ q, q <+: p → ∀ w, Spec.at b q = some w → IsObj w) :
    Spec.at (mergeSchema a b) p = Spec.at a p := by
  induction p generalizing a b with
  | nil => simp [Spec.at] at h
  | cons k ks ih =>
    obtain ⟨bo, rfl⟩ := hpre [] (List.nil_prefix) b rfl
    simp only [Spec.at] at h
    rcases isObj_or a with ⟨ao, rfl⟩ | hna
    · rw [mergeSchema_obj_obj]
      simp only [Spec.at, get?_mergeObj _ _ (WF.keys_nodup hb)]
      cases hx : Obj.get? k bo with
      | none => rfl
      | some x =>
        rw [hx, Option.bind_some] at h
        simp only [Option.bind_some]
        have hpre' : ∀ q, q <+: ks → ∀ w, Spec.at x q = some w → IsObj w := by
          intro q hq w hw
          exact hpre (k :: q) (by simpa using hq) w (by simp [Spec.at, hx, hw])
        cases hg : Obj.get? k ao with
        | none => simpa using h
        | some va => simpa using ih va x (WF.get hb hx) h hpre'
    · rw [mergeSchema_over _ hna, at_cons_of_not_obj hna]
      simpa only [Spec.at] using h

/-- **C06.** A scalar or array of `b` replaces everything `a` had below. -/
theorem C06_replaced (a b : Value) (hb : b.WF) (q : List Str) (k : Str) (ks : List Str) (w : Value)
    (h : Spec.at b q = some w) (hw : ¬ IsObj w) : Spec.at (mergeSchema a b) (q ++ k :: ks) = none := by
  have h1 := C06_last_writer a b hb q w h hw
  have happ : ∀ (v : Value) (q r : List Str), Spec.at v (q ++ r) = (Spec.at v q).bind (fun x => Spec.at x r) := by
    intro v q r
    induction q generalizing v with
    | nil => rfl
    | cons k q ih =>
      rcases isObj_or v with ⟨o, rfl⟩ | hn
      · simp only [List.cons_append, Spec.at, Option.bind_assoc]
        congr 1; funext x; exact ih x
      · rw [List.cons_append, at_cons_of_not_obj hn, at_cons_of_not_obj hn]; rfl
  rw [happ, h1, Option.bind_some, at_cons_of_not_obj hw]

/-- **C06.** Existing keys keep their position and new keys are appended in the order of `b`. -/
theorem C06_key_order (a b : Obj) (hb : (Value.obj b).WF) :
    ∃ m, mergeSchema (.obj a) (.obj b) = .obj m ∧ keys m = keys a ++ (keys b).filter (fun k => decide (k ∉ keys a)) :=
  ⟨_, mergeSchema_obj_obj a b, keys_mergeObj a b (WF.keys_nodup hb)⟩

theorem mergeObj_fixed (x : Obj) (r : List (Str × Value))
    (h : ∀ k v, (k, v) ∈ r → ∃ vx, Obj.get? k x = some vx ∧ mergeSchema vx v = vx) : mergeObj x r = x := by
  induction r with
  | nil => rfl
  | cons e r ih =>
    obtain ⟨k, v⟩ := e
    obtain ⟨vx, h1, h2⟩ := h k v (by simp)
    rw [mergeObj_cons]
    simp only [h1, h2]
    rw [Obj.insert_of_get? h1]
    exact ih (fun k' v' hm => h k' v' (List.mem_cons_of_mem _ hm))

mutual
theorem merge_again : (b : Value) → b.WF → (mergeSchema b b = b) ∧ ∀ a, mergeSchema (mergeSchema a b) b = mergeSchema a b
  | .null, _ => ⟨rfl, fun _ => rfl⟩
  | .bool _, _ => ⟨rfl, fun _ => rfl⟩
  | .num _, _ => ⟨rfl, fun _ => rfl⟩
  | .str _, _ => ⟨rfl, fun _ => rfl⟩
  | .arr _, _ => ⟨rfl, fun _ => rfl⟩
  | .obj bo, hb => by
    have hnd := WF.keys_nodup hb
    have hrec := merge_again_obj bo hb
    have hself : mergeSchema (.obj bo) (.obj bo) = .obj bo := by
      rw [mergeSchema_obj_obj, mergeObj_fixed]
      intro k v hm
      exact ⟨v, Obj.get?_of_mem hnd hm, (hrec k v hm).1⟩
    refine ⟨hself, ?_⟩
    intro a
    rcases isObj_or a with ⟨ao, rfl⟩ | hna
    · rw [mergeSchema_obj_obj, mergeSchema_obj_obj, mergeObj_fixed]
      intro k v hm
      have hg := get?_mergeObj ao bo hnd k
      rw [Obj.get?_of_mem hnd hm] at hg
      cases ha : Obj.get? k ao with
      | none =>
        rw [ha] at hg
        exact ⟨v, hg, (hrec k v hm).1⟩
      | some va =>
        rw [ha] at hg
        exact ⟨_, hg, (hrec k v hm).2 va⟩
    · rw [mergeSchema_over _ hna]; exact hself
theorem merge_again_obj : (o : List (Str × Value)) → Value.WFObj o → ∀ k v, (k, v) ∈ o →
    (mergeSchema v v = v) ∧ ∀ a, mergeSchema (mergeSchema a v) v = mergeSchema a v
  | [], _ => by simp
  | (k', x) :: r, h => by
    intro k v hm
    simp only [Value.WFObj] at h
    rcases List.mem_cons.1 hm with hm | hm
    · simp only [Prod.mk.injEq] at hm
      rw [hm.2]; exact merge_again x h.2.1
    · exact merge_again_obj r h.2.2 k v hm
end

/-- **C06.** Merging the same document again changes nothing. -/
theorem C06_idempotent (a b : Value) (hb : b.WF) : mergeSchema (mergeSchema a b) b = mergeSchema a b :=
  (merge_again b hb).2 a

theorem entryMerge_eq (k : Str) (v : Value) (f : Value → Value) (a : Obj) :
    entryMerge k v f a = Obj.insert k (match Obj.get? k a with | some x => f x | none => v) a := by
  induction a with
  | nil => rfl
  | cons e r ih =>
    obtain ⟨k', x⟩ := e
    simp only [entryMerge, Obj.get?, Obj.insert]
    split <;> simp_all

mutual
theorem mergeOwned_eq : (b : Value) → ∀ a, mergeSchemaOwned a b = mergeSchema a b
  | .null => fun _ => rfl
  | .bool _ => fun _ => rfl
  | .num _ => fun _ => rfl
  | .str _ => fun _ => rfl
  | .arr _ => fun _ => rfl
  | .obj bo => fun a => by
    cases a with
    | obj ao => simp only [mergeSchemaOwned, mergeSchema, mergeObjOwned_eq bo ao]
    | _ => simp only [mergeSchemaOwned, mergeSchema]
theorem mergeObjOwned_eq : (b : List (Str × Value)) → ∀ a, mergeObjOwned a b = mergeObj a b
  | [] => fun _ => rfl
  | (k, v) :: r => fun a => by
    rw [mergeObj_cons]
    simp only [mergeObjOwned, entryMerge_eq]
    rw [mergeObjOwned_eq r]
    congr 2
    cases Obj.get? k a with
    | none => rfl
    | some x => exact mergeOwned_eq v x
end

/-- **C06.** The by-reference and the owned version give the same result. -/
theorem C06_owned_same (a b : Value) : mergeSchemaOwned a b = mergeSchema a b := mergeOwned_eq b a

example : (Value.obj [(c!"a", .obj [(c!"b", .num (.int 1))]), (c!"c", .null)]).WF := by
  simp [Value.WF, Value.WFObj]
example :
    (mergeSchema (.obj [(c!"a", .obj [(c!"x", .null)]), (c!"d", .bool true)])
      (.obj [(c!"a", .obj [(c!"b", .num (.int 1))]), (c!"c", .null)])).beq
    (.obj [(c!"a", .obj [(c!"x", .null), (c!"b", .num (.int 1))]), (c!"d", .bool true), (c!"c", .null)]) = true := by
  decide +kernel

/-! ### C07 -/

/-- The three spellings of the header. -/
def Spec.ajaxNames : List Str := [c!"requested-with-ajax", c!"Requested-With-Ajax", c!"REQUESTED-WITH-AJAX"]

theorem syncHeaders_other (h : Obj) (k : Str) (hk : k ∉ ajaxNames) : Obj.get? k (syncHeaders h) = Obj.get? k h := by
  simp only [ajaxNames, List.mem_cons, List.not_mem_nil, or_false, not_or] at hk
  obtain ⟨h1, h2, h3⟩ := hk
  unfold syncHeaders
  split
  · rw [Obj.get?_insert_ne _ _ (Ne.symm h3), Obj.get?_insert_ne _ _ (Ne.symm h2)]
  · split
    · rw [Obj.get?_insert_ne _ _ (Ne.symm h3), Obj.get?_insert_ne _ _ (Ne.symm h1)]
    · split
      · rw [Obj.get?_insert_ne _ _ (Ne.symm h2), Obj.get?_insert_ne _ _ (Ne.symm h1)]
      · rfl

/-- The first spelling (in the order of the list) that has a value. -/
def Spec.ajaxValue (h : Obj) : Option Value := ajaxNames.findSome? (fun n => Obj.get? n h)

theorem syncHeaders_ajax (h : Obj) : ∀ n ∈ ajaxNames, Obj.get? n (syncHeaders h) = ajaxValue h := by
  have n12 : c!"requested-with-ajax" ≠ c!"Requested-With-Ajax" := by decide
  have n13 : c!"requested-with-ajax" ≠ c!"REQUESTED-WITH-AJAX" := by decide
  have n23 : c!"Requested-With-Ajax" ≠ c!"REQUESTED-WITH-AJAX" := by decide
  unfold syncHeaders ajaxValue ajaxNames
  generalize c!"requested-with-ajax" = x at *
  generalize c!"Requested-With-Ajax" = y at *
  generalize c!"REQUESTED-WITH-AJAX" = z at *
  intro n hn
  simp only [List.mem_cons, List.not_mem_nil, or_false] at hn
  simp only [List.findSome?]
  cases hx : Obj.get? x h with
  | some v =>
    rcases hn with rfl | rfl | rfl <;> simp [Obj.get?_insert, hx, n12.symm, n13.symm, n23.symm]
  | none =>
    cases hy : Obj.get? y h with
    | some v => rcases hn with rfl | rfl | rfl <;> simp [Obj.get?_insert, hy, n12, n13.symm, n23.symm]
    | none =>
      cases hz : Obj.get? z h with
      | some v => rcases hn with rfl | rfl | rfl <;> simp [Obj.get?_insert, hz, n12.symm, n13, n23]
      | none => rcases hn with rfl | rfl | rfl <;> simp [hx, hy, hz]

theorem at_modExisting (v : Value) (k : Str) (f : Value → Value) (k' : Str) (ks : List Str) :
    Spec.at (v.modExisting k f) (k' :: ks) =
      if k = k' then (Spec.at v [k]).bind (fun x => Spec.at (f x) ks) else Spec.at v (k' :: ks) := by
  rcases isObj_or v with ⟨o, rfl⟩ | hn
  · simp only [Value.modExisting]
    cases hg : Obj.get? k o with
    | none =>
      by_cases h : k = k'
      · subst h; simp [Spec.at, hg]
      · simp [h]
    | some x =>
      by_cases h : k = k'
      · subst h; simp [Spec.at, hg, Obj.get?_insert_self]
      · simp [Spec.at, h, Obj.get?_insert_ne]
  · have : v.modExisting k f = v := by cases v <;> first | rfl | exact absurd ⟨_, rfl⟩ hn
    rw [this, at_cons_of_not_obj hn, at_cons_of_not_obj hn]
    split <;> rfl

theorem at_stampVersion {v w : Value} (h : stampVersion v = some w) (k : Str) (ks : List Str) :
    Spec.at w (k :: ks) = if k = c!"version" then Spec.at (.str VERSION) ks else Spec.at v (k :: ks) := by
  unfold stampVersion Value.setIndex at h
  split at h
  · simp only [Option.some.injEq] at h; subst h
    by_cases hk : k = c!"version"
    · subst hk; simp [Spec.at, Obj.get?]
    · simp only [Spec.at, Obj.get?, Ne.symm hk, if_false, hk]; rfl
  · simp only [Option.some.injEq] at h; subst h
    by_cases hk : k = c!"version"
    · subst hk; simp [Spec.at, Obj.get?_insert_self]
    · simp [Spec.at, Obj.get?_insert_ne _ _ (Ne.symm hk), hk]
  · simp at h

theorem at_syncSchemaHeaders (v : Value) :
    (∀ ks, Spec.at (syncSchemaHeaders v) (c!"data" :: c!"CONTEXT" :: c!"HEADERS" :: ks) =
      (Spec.at v [c!"data", c!"CONTEXT", c!"HEADERS"]).bind (fun h => Spec.at
        (match h with | .obj ho => .obj (syncHeaders ho) | h => h) ks)) ∧
    (∀ p, ¬ [c!"data", c!"CONTEXT", c!"HEADERS"] <+: p → ¬ p <+: [c!"data", c!"CONTEXT", c!"HEADERS"] →
      Spec.at (syncSchemaHeaders v) p = Spec.at v p) := by
  unfold syncSchemaHeaders
  generalize c!"data" = d
  generalize c!"CONTEXT" = c
  generalize c!"HEADERS" = hh
  have hat : ∀ (x : Value) (a : Str) (r : List Str), (Spec.at x [a]).bind (fun y => Spec.at y r) = Spec.at x (a :: r) := by
    intro x a r
    rcases isObj_or x with ⟨o, rfl⟩ | hn
    · simp only [Spec.at]
      cases Obj.get? a o <;> simp
    · rw [at_cons_of_not_obj hn, at_cons_of_not_obj hn]; rfl
  constructor
  · intro ks
    rw [at_modExisting, if_pos rfl]
    have h1 : ∀ x : Value, Spec.at (x.modExisting c (fun c => c.modExisting hh (fun h => match h with
        | .obj ho => .obj (syncHeaders ho) | h => h))) (c :: hh :: ks) =
        (Spec.at x [c, hh]).bind (fun h => Spec.at (match h with | .obj ho => .obj (syncHeaders ho) | h => h) ks) := by
      intro x
      rw [at_modExisting, if_pos rfl]
      simp only [at_modExisting, if_true]
      rw [← hat x c [hh], Option.bind_assoc]
    rw [← hat v d [c, hh], Option.bind_assoc]
    congr 1; funext x; exact h1 x
  · intro p h1 h2
    cases p with
    | nil => exact absurd List.nil_prefix h2
    | cons a p =>
      rw [at_modExisting]
      split
      · next h =>
        subst h
        simp only [List.cons_prefix_cons, true_and] at h1 h2
        cases p with
        | nil => exact absurd List.nil_prefix h2
        | cons a' p =>
          rw [← hat v d (a' :: p)]
          congr 1; funext x
          rw [at_modExisting]
          split
          · next h =>
            subst h
            simp only [List.cons_prefix_cons, true_and] at h1 h2
            cases p with
            | nil => exact absurd List.nil_prefix h2
            | cons a'' p =>
              rw [← hat x c (a'' :: p)]
              congr 1; funext y
              rw [at_modExisting]
              split
              · next h =>
                subst h
                simp only [List.cons_prefix_cons, true_and] at h1
                exact absurd List.nil_prefix h1
              · rfl
          · rfl
      · rfl

/-- Where the request headers are. -/
def Spec.headersPath : List Str := [c!"data", c!"CONTEXT", c!"HEADERS"]

/-- **C07.** After a schema update, `version` is the crate version; and if any spelling of the ajax header is
present, all three are, with the same value. -/
theorem C07_version_and_ajax (a b s : Value) (h : updateSchema a b = some s) :
    Spec.at s [c!"version"] = some (.str VERSION) ∧
    ∀ n ∈ ajaxNames, (Spec.at s (headersPath ++ [n])).isSome →
      ∀ m ∈ ajaxNames, Spec.at s (headersPath ++ [m]) = Spec.at s (headersPath ++ [n]) := by
  unfold updateSchema at h
  have hv := at_stampVersion h
  refine ⟨by rw [hv]; rfl, ?_⟩
  have key : ∀ n ∈ ajaxNames, Spec.at s (headersPath ++ [n]) =
      (Spec.at (mergeSchema a b) headersPath).bind (fun h => match h with
        | .obj ho => ajaxValue ho | _ => none) := by
    intro n hn
    have h1 : headersPath ++ [n] = c!"data" :: c!"CONTEXT" :: c!"HEADERS" :: [n] := rfl
    rw [h1, hv, if_neg (by decide), (at_syncSchemaHeaders _).1]
    unfold headersPath
    congr 1; funext x
    cases x <;> first | rfl | skip
    next ho =>
      simp only [Spec.at, syncHeaders_ajax ho n hn]
      cases ajaxValue ho <;> rfl
  intro n hn _ m hm
  rw [key n hn, key m hm]

/-- **C07.** A header of the merged schema written in any spelling is present afterwards (in all spellings, by
the previous theorem); the value is the one of the first spelling present. -/
theorem C07_ajax_value (a b s : Value) (h : updateSchema a b = some s) (ho : Obj)
    (hh : Spec.at (mergeSchema a b) headersPath = some (.obj ho)) :
    ∀ n ∈ ajaxNames, Spec.at s (headersPath ++ [n]) = ajaxValue ho := by
  intro n hn
  unfold updateSchema at h
  have h1 : headersPath ++ [n] = c!"data" :: c!"CONTEXT" :: c!"HEADERS" :: [n] := rfl
  rw [h1, at_stampVersion h, if_neg (by decide), (at_syncSchemaHeaders _).1]
  unfold headersPath at hh
  rw [hh]
  simp only [Option.bind_some, Spec.at, syncHeaders_ajax ho n hn]
  cases ajaxValue ho <;> rfl

/-- **C07.** Every other header, and everything outside the headers and `version`, is as the merge left it. -/
theorem C07_rest_unchanged (a b s : Value) (h : updateSchema a b = some s) :
    (∀ k ks, k ∉ ajaxNames → Spec.at s (headersPath ++ k :: ks) = Spec.at (mergeSchema a b) (headersPath ++ k :: ks)) ∧
    (∀ p, ¬ [c!"version"] <+: p → ¬ headersPath <+: p → ¬ p <+: headersPath →
      Spec.at s p = Spec.at (mergeSchema a b) p) := by
  unfold updateSchema at h
  have hv := at_stampVersion h
  refine ⟨?_, ?_⟩
  · intro k ks hk
    have h1 : headersPath ++ k :: ks = c!"data" :: c!"CONTEXT" :: c!"HEADERS" :: k :: ks := rfl
    have happ : ∀ (v : Value) (q r : List Str), Spec.at v (q ++ r) = (Spec.at v q).bind (fun x => Spec.at x r) := by
      intro v q r
      induction q generalizing v with
      | nil => rfl
      | cons k q ih =>
        rcases isObj_or v with ⟨o, rfl⟩ | hn
        · simp only [List.cons_append, Spec.at, Option.bind_assoc]
          congr 1; funext x; exact ih x
        · rw [List.cons_append, at_cons_of_not_obj hn, at_cons_of_not_obj hn]; rfl
    rw [happ (mergeSchema a b), h1, hv, if_neg (by decide), (at_syncSchemaHeaders _).1]
    unfold headersPath
    congr 1; funext x
    cases x <;> first | rfl | skip
    next ho => simp only [Spec.at, syncHeaders_other ho k hk]
  · intro p h1 h2 h3
    cases p with
    | nil => exact absurd List.nil_prefix h3
    | cons k ks =>
      rw [hv, if_neg]
      · exact (at_syncSchemaHeaders _).2 _ h2 h3
      · rintro rfl; exact h1 (by simp)

/-- The two update functions agree. -/
theorem C07_owned_same (a b : Value) : updateSchemaOwned a b = updateSchema a b := by
  unfold updateSchemaOwned updateSchema; rw [C06_owned_same]

example : ∃ s, updateSchema defaultSchema (.obj [(c!"data", .obj [(c!"CONTEXT", .obj [(c!"HEADERS",
    .obj [(c!"Requested-With-Ajax", .str c!"1")])])])]) = some s ∧
    Spec.at s (headersPath ++ [c!"REQUESTED-WITH-AJAX"]) = some (.str c!"1") := ⟨_, rfl, rfl⟩

/-! ### C08 -/

/-- **C08 is false of the code**: the valid JSON document `5` makes `merge_schema_str` panic. -/
theorem C08_scalar_panics (env : Env) (w : World) (t : Tpl) (text : Str)
    (hj : env.jsonParse text = some (.num (.int 5))) (_ : Tpl.new env w = .ok t) :
    t.mergeSchemaStr env text = .panic .index := by
  simp only [Tpl.mergeSchemaStr, hj, Tpl.merge, updateSchemaOwned, mergeSchemaOwned]
  rfl

example : ∃ (env : Env) (w : World) (t : Tpl) (text : Str),
    env.jsonParse text = some (.num (.int 5)) ∧ Tpl.new env w = .ok t :=
  ⟨{ Sample.env with jsonParse := fun _ => some (.num (.int 5)) }, Sample.world, _, c!"5", rfl, rfl⟩

/-- The update panics exactly when the document is a boolean, number, string or array. -/
theorem updateSchema_none_iff (a b : Value) :
    updateSchemaOwned a b = none ↔ (¬ IsObj b ∧ b ≠ .null) := by
  rw [C07_owned_same]
  unfold updateSchema stampVersion
  cases b with
  | null => simp [mergeSchema, syncSchemaHeaders, Value.modExisting, Value.setIndex]
  | obj o =>
    have : ∃ m, mergeSchema a (.obj o) = .obj m := by
      cases a <;> simp [mergeSchema]
    obtain ⟨m, hm⟩ := this
    rw [hm]
    have : ∃ m', syncSchemaHeaders (.obj m) = .obj m' := by
      unfold syncSchemaHeaders; simp only [Value.modExisting]; split <;> exact ⟨_, rfl⟩
    obtain ⟨m', hm'⟩ := this
    rw [hm']
    simp [Value.setIndex, IsObj]
  | bool b => simp [mergeSchema, syncSchemaHeaders, Value.modExisting, Value.setIndex, IsObj]
  | num b => simp [mergeSchema, syncSchemaHeaders, Value.modExisting, Value.setIndex, IsObj]
  | str b => simp [mergeSchema, syncSchemaHeaders, Value.modExisting, Value.setIndex, IsObj]
  | arr b => simp [mergeSchema, syncSchemaHeaders, Value.modExisting, Value.setIndex, IsObj]

/-- No panic. -/
def Spec.NoPanic {α : Type} (r : TRes α) : Prop := ∀ p, r ≠ .panic p

/-- A document that a schema can be updated with: an object, or `null`. -/
def Spec.Document (v : Value) : Prop := IsObj v ∨ v = .null

theorem merge_panics (t : Tpl) (v : Value) : (∃ p, t.merge v = .panic p) ↔ ¬ Document v := by
  have h := updateSchema_none_iff t.schema v
  unfold Tpl.merge Document
  cases hu : updateSchemaOwned t.schema v with
  | none =>
    have := h.1 hu
    simp [this]
  | some s =>
    have : ¬ (¬ IsObj v ∧ v ≠ .null) := fun h' => by rw [h.2 h'] at hu; cases hu
    constructor
    · rintro ⟨p, hp⟩; cases hp
    · intro hd
      exact absurd ⟨fun h1 => hd (.inl h1), fun h2 => hd (.inr h2)⟩ this

/-- **C08, exactly** (full claim: never).  Each way of updating a schema panics exactly when the document it is given is a
boolean, a number, a string or an array. -/
theorem C08_exact (env : Env) (w : World) (t : Tpl) (path text : Str) (v : Value) (e : Except Str Value) (noBytes : Bool) :
    ((∃ p, t.mergeSchemaStr env text = .panic p) ↔ ∃ d, env.jsonParse text = some d ∧ ¬ Document d) ∧
    ((∃ p, t.mergeSchemaPath env w path = .panic p) ↔
      ∃ c d, (w.fs path).bind (fun e => e.content) = some c ∧ env.jsonParse c = some d ∧ ¬ Document d) ∧
    ((∃ p, t.mergeSchemaValue v = .panic p) ↔ ¬ Document v) ∧
    ((∃ p, t.mergeSchemaMsgpack e = .panic p) ↔ ∃ d, e = .ok d ∧ ¬ Document d) ∧
    ((∃ p, Tpl.fromFileValue env w path v = .panic p) ↔ (∃ c, (w.fs path).bind (fun e => e.content) = some c) ∧ ¬ Document v) ∧
    ((∃ p, Tpl.fromFileMsgpack env w path noBytes e = .panic p) ↔
      (∃ c, (w.fs path).bind (fun e => e.content) = some c) ∧ noBytes = false ∧ ∃ d, e = .ok d ∧ ¬ Document d) := by
  have file : ∀ v, (∃ p, Tpl.fromFileValue env w path v = .panic p) ↔
      (∃ c, (w.fs path).bind (fun e => e.content) = some c) ∧ ¬ Document v := by
    intro v
    have h := updateSchema_none_iff defaultSchema v
    obtain ⟨sh, hsh⟩ : ∃ sh, Shared.new env w defaultSchema = some sh := ⟨_, rfl⟩
    unfold Tpl.fromFileValue Document
    cases (w.fs path).bind (fun e => e.content) with
    | none => simp
    | some c =>
      rw [hsh]
      cases hu : updateSchemaOwned defaultSchema v with
      | none => simp [h.1 hu]
      | some s =>
        have : ¬ (¬ IsObj v ∧ v ≠ .null) := fun h' => by rw [h.2 h'] at hu; cases hu
        constructor
        · rintro ⟨p, hp⟩; cases hp
        · rintro ⟨_, hd⟩
          exact absurd ⟨fun h1 => hd (.inl h1), fun h2 => hd (.inr h2)⟩ this
  refine ⟨?_, ?_, merge_panics t v, ?_, file v, ?_⟩
  · unfold Tpl.mergeSchemaStr
    cases env.jsonParse text with
    | none => simp
    | some d => simp [merge_panics]
  · unfold Tpl.mergeSchemaPath
    cases (w.fs path).bind (fun e => e.content) with
    | none => simp
    | some c =>
      cases hd : env.jsonParse c with
      | none => simp [hd]
      | some d => simp [merge_panics, hd]
  · unfold Tpl.mergeSchemaMsgpack
    cases e with
    | error _ => simp
    | ok d => simp [merge_panics]
  · unfold Tpl.fromFileMsgpack
    cases noBytes with
    | true =>
      simp only [if_true, file, Bool.true_eq_false, false_and, and_false, iff_false]
      exact fun h => h.2 (.inl ⟨[], rfl⟩)
    | false =>
      cases e with
      | error _ => simp
      | ok d => simp [file]

/-- **C08, the true part** (full claim: every valid JSON document).  If the document is an object or `null` (or is not valid
JSON at all), none of the ways to update a schema panics.  Missing: other documents, which always panic (`C08_exact`,
`C08_scalar_panics`). -/
theorem C08_objects_never_panic_partial (env : Env) (w : World) (t : Tpl) (path text : Str)
    (htext : ∀ d, env.jsonParse text = some d → Document d)
    (hfile : ∀ c d, (w.fs path).bind (fun e => e.content) = some c → env.jsonParse c = some d → Document d) :
    NoPanic (t.mergeSchemaStr env text) ∧ NoPanic (t.mergeSchemaPath env w path) ∧
    ∀ v, Document v → NoPanic (t.mergeSchemaValue v) ∧ NoPanic (t.mergeSchemaMsgpack (.ok v)) ∧
      NoPanic (Tpl.fromFileValue env w path v) ∧ NoPanic (Tpl.fromFileMsgpack env w path false (.ok v)) := by
  have E := fun v => C08_exact env w t path text v (.ok v) false
  refine ⟨?_, ?_, ?_⟩
  · intro p hp
    obtain ⟨d, h1, h2⟩ := (E .null).1.1 ⟨p, hp⟩
    exact h2 (htext d h1)
  · intro p hp
    obtain ⟨c, d, h1, h2, h3⟩ := (E .null).2.1.1 ⟨p, hp⟩
    exact h3 (hfile c d h1 h2)
  · intro v hv
    refine ⟨fun p hp => (E v).2.2.1.1 ⟨p, hp⟩ hv, ?_, fun p hp => ((E v).2.2.2.2.1.1 ⟨p, hp⟩).2 hv, ?_⟩
    · intro p hp
      obtain ⟨d, h1, h2⟩ := (E v).2.2.2.1.1 ⟨p, hp⟩
      cases h1; exact h2 hv
    · intro p hp
      obtain ⟨_, _, d, h1, h2⟩ := (E v).2.2.2.2.2.1 ⟨p, hp⟩
      cases h1; exact h2 hv

example : ∃ (env : Env) (w : World) (path text c : Str) (o : Obj), o ≠ [] ∧ (w.fs path).bind (fun e => e.content) = some c ∧
    env.jsonParse text = some (.obj o) ∧ env.jsonParse c = some (.obj o) ∧
    env.jsonParse c!"5" = some (.num (.int 5)) :=
  ⟨{ Sample.env with jsonParse := fun s => if s = c!"5" then some (.num (.int 5)) else some (.obj [(c!"a", .null)]) },
    { Sample.world with fs := fun _ => some ⟨some c!"{}", 0, true⟩ }, c!"p", c!"{}", c!"{}", [(c!"a", .null)], by simp, rfl, rfl, rfl, rfl⟩

end Nts
