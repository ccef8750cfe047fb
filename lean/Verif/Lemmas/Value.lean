import Verif.Model.Utils
import Verif.Spec.Json
import Verif.Lemmas.Str
/-
Lemmas about JSON objects.
-/
set_option autoImplicit false
namespace Nts
open Spec

theorem Obj.get?_insert (o : Obj) (k : Str) (v : Value) (k' : Str) :
    Obj.get? k' (Obj.insert k v o) = if k = k' then some v else Obj.get? k' o := by
  induction o with
  | nil => simp [Obj.insert, Obj.get?]
  | cons e r ih =>
    obtain ⟨a, x⟩ := e
    simp only [Obj.insert]
    by_cases h : a = k
    · subst h
      simp only [if_true, Obj.get?]
      by_cases h2 : a = k'
      · simp [h2]
      · simp [h2]
    · simp only [h, if_false, Obj.get?, ih]
      by_cases h2 : a = k'
      · subst h2; simp [Ne.symm h]
      · simp [h2]

theorem Obj.get?_insert_self (o : Obj) (k : Str) (v : Value) : Obj.get? k (Obj.insert k v o) = some v := by
  simp [Obj.get?_insert]

theorem Obj.get?_insert_ne (o : Obj) {k k' : Str} (v : Value) (h : k ≠ k') :
    Obj.get? k' (Obj.insert k v o) = Obj.get? k' o := by
  simp [Obj.get?_insert, h]

theorem Obj.get?_append (o p : Obj) (k : Str) :
    Obj.get? k (o ++ p) = (Obj.get? k o).or (Obj.get? k p) := by
  induction o with
  | nil => rfl
  | cons e r ih =>
    obtain ⟨a, x⟩ := e
    simp only [List.cons_append, Obj.get?]
    split <;> simp [ih]

theorem Obj.get?_isSome_iff (o : Obj) (k : Str) : (Obj.get? k o).isSome = true ↔ k ∈ keys o := by
  induction o with
  | nil => simp [Obj.get?, keys]
  | cons e r ih =>
    obtain ⟨a, x⟩ := e
    simp only [Obj.get?, keys, List.map_cons, List.mem_cons]
    by_cases h : a = k
    · simp [h]
    · simp only [h, if_false, ih, keys]
      simp [Ne.symm h]

theorem Obj.get?_eq_none_iff (o : Obj) (k : Str) : Obj.get? k o = none ↔ k ∉ keys o := by
  rw [← Obj.get?_isSome_iff]; cases Obj.get? k o <;> simp

theorem Obj.get?_mem {o : Obj} {k : Str} {v : Value} (h : Obj.get? k o = some v) : (k, v) ∈ o := by
  induction o with
  | nil => simp [Obj.get?] at h
  | cons e r ih =>
    obtain ⟨a, x⟩ := e
    simp only [Obj.get?] at h
    split at h
    · next h' => simp only [Option.some.injEq] at h; subst h; subst h'; simp
    · exact List.mem_cons_of_mem _ (ih h)

theorem keys_insert (o : Obj) (k : Str) (v : Value) :
    keys (Obj.insert k v o) = if k ∈ keys o then keys o else keys o ++ [k] := by
  induction o with
  | nil => simp [Obj.insert, keys]
  | cons e r ih =>
    obtain ⟨a, x⟩ := e
    simp only [Obj.insert]
    by_cases h : a = k
    · subst h; simp [keys]
    · simp only [h, if_false]
      simp only [keys, List.map_cons, List.mem_cons] at ih ⊢
      rw [ih]
      have : k ≠ a := Ne.symm h
      simp only [this, false_or]
      by_cases hm : k ∈ r.map (fun kv => kv.1)
      · simp only [hm, if_true]
      · simp only [hm, if_false, List.cons_append]

theorem mem_insert {o : Obj} {k : Str} {v : Value} {e : Str × Value} (h : e ∈ Obj.insert k v o) :
    e = (k, v) ∨ e ∈ o := by
  induction o with
  | nil => left; simpa [Obj.insert] using h
  | cons e' r ih =>
    obtain ⟨a, x⟩ := e'
    simp only [Obj.insert] at h
    split at h
    · next h' =>
      rcases List.mem_cons.1 h with h | h
      · left; rw [h, h']
      · right; exact List.mem_cons_of_mem _ h
    · rcases List.mem_cons.1 h with h | h
      · right; rw [h]; simp
      · rcases ih h with h | h
        · exact Or.inl h
        · exact Or.inr (List.mem_cons_of_mem _ h)

theorem Value.get?_obj (o : Obj) (k : Str) : (Value.obj o).get? k = Obj.get? k o := rfl

/-- Objects with unique keys. -/
theorem wfObj_iff (o : Obj) : Value.WFObj o ↔ (keys o).Nodup ∧ ∀ e ∈ o, e.2.WF := by
  induction o with
  | nil => simp [Value.WFObj, keys]
  | cons e r ih =>
    obtain ⟨k, v⟩ := e
    simp only [Value.WFObj, ih, keys, List.map_cons, List.nodup_cons, List.mem_map, List.mem_cons]
    constructor
    · rintro ⟨h1, h2, h3, h4⟩
      refine ⟨⟨?_, h3⟩, ?_⟩
      · rintro ⟨x, hx, hk⟩; exact h1 x hx hk
      · rintro e (rfl | he)
        · exact h2
        · exact h4 e he
    · rintro ⟨⟨h1, h2⟩, h3⟩
      exact ⟨fun x hx hk => h1 ⟨x, hx, hk⟩, h3 _ (Or.inl rfl), h2, fun e he => h3 e (Or.inr he)⟩

theorem Obj.get?_of_mem {o : Obj} (h : (keys o).Nodup) {k : Str} {v : Value} (hm : (k, v) ∈ o) :
    Obj.get? k o = some v := by
  induction o with
  | nil => simp at hm
  | cons e r ih =>
    obtain ⟨a, x⟩ := e
    simp only [keys, List.map_cons, List.nodup_cons] at h
    simp only [Obj.get?]
    rcases List.mem_cons.1 hm with hm | hm
    · simp only [Prod.mk.injEq] at hm; simp [hm.1, hm.2]
    · have : a ≠ k := by
        rintro rfl; exact h.1 (List.mem_map.2 ⟨_, hm, rfl⟩)
      simp [this, ih h.2 hm]

theorem index_setIndex_ne {v w : Value} {k k' : Str} {x : Value} (h : v.setIndex k x = some w) (hk : k ≠ k') :
    w.index k' = v.index k' := by
  unfold Value.setIndex at h
  split at h
  · simp only [Option.some.injEq] at h; subst h
    simp [Value.index, Value.get?, Obj.get?, hk]
  · simp only [Option.some.injEq] at h; subst h
    simp [Value.index, Value.get?, Obj.get?_insert_ne _ _ hk]
  · simp at h

theorem index_setIndex_self {v w : Value} {k : Str} {x : Value} (h : v.setIndex k x = some w) :
    w.index k = x := by
  unfold Value.setIndex at h
  split at h
  · simp only [Option.some.injEq] at h; subst h
    simp [Value.index, Value.get?, Obj.get?]
  · simp only [Option.some.injEq] at h; subst h
    simp [Value.index, Value.get?, Obj.get?_insert_self]
  · simp at h

theorem index_modIndex_ne {v w : Value} {k k' : Str} {f : Value → Option Value} (h : v.modIndex k f = some w)
    (hk : k ≠ k') : w.index k' = v.index k' := by
  unfold Value.modIndex at h
  split at h
  · obtain ⟨x, _, rfl⟩ := Option.map_eq_some_iff.1 h
    simp [Value.index, Value.get?, Obj.get?, hk]
  · obtain ⟨x, _, rfl⟩ := Option.map_eq_some_iff.1 h
    simp [Value.index, Value.get?, Obj.get?_insert_ne _ _ hk]
  · simp at h

theorem index_modIndex_self {v w : Value} {k : Str} {f : Value → Option Value} (h : v.modIndex k f = some w) :
    f (v.index k) = some (w.index k) := by
  unfold Value.modIndex at h
  split at h
  · obtain ⟨x, hx, rfl⟩ := Option.map_eq_some_iff.1 h
    simpa [Value.index, Value.get?, Obj.get?] using hx
  · obtain ⟨x, hx, rfl⟩ := Option.map_eq_some_iff.1 h
    simpa [Value.index, Value.get?, Obj.get?_insert_self] using hx
  · simp at h

end Nts
