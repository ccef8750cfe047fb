import Verif.Model.Utils
import Verif.Lemmas.Value
import Verif.Lemmas.Num
/-
C09, C11: variable paths and truth tests.
-/
set_option autoImplicit false
namespace Nts
open Spec

/-- A key that can be a segment of a name: neither `/` nor `->` occurs in it. -/
def Spec.Segment (k : Str) : Prop := '/' ∉ k ∧ ¬ c!"->" <:+: k

/-- A separator: `->` or `/`. -/
def Spec.sep (arrow : Bool) : Str := if arrow then c!"->" else c!"/"

/-- The name `k1 sep1 k2 sep2 ... last`. -/
def Spec.nameOf : List (Str × Bool) → Str → Str
  | [], last => last
  | (k, s) :: r, last => k ++ sep s ++ nameOf r last

/-- Follow the keys one by one: object keys by name, array elements by decimal index. -/
def Spec.follow : Value → List Str → Option Value
  | v, [] => some v
  | .obj o, k :: ks => (Obj.get? k o).bind (fun x => follow x ks)
  | .arr a, k :: ks => ((parseU64 k).bind (fun i => a[i]?)).bind (fun x => follow x ks)
  | _, _ :: _ => none

theorem follow_cons (v : Value) (k : Str) (ks : List Str) :
    follow v (k :: ks) = (resolveStep v k).bind (fun x => follow x ks) := by
  cases v <;> simp [follow, resolveStep]

theorem resolveGo_push (k : Str) (cur : Value) (part rest : Str) (h1 : '/' ∉ k) (h2 : ¬ c!"->" <:+: k)
    (h3 : rest = [] ∨ (∃ r, rest = '/' :: r) ∨ (∃ r, rest = '-' :: '>' :: r)) :
    resolveGo cur part (k ++ rest) = resolveGo cur (k.reverse ++ part) rest := by
  induction k generalizing part with
  | nil => rfl
  | cons c k ih =>
    have hc : c ≠ '/' := by rintro rfl; simp at h1
    have h1' : '/' ∉ k := fun h => h1 (List.mem_cons_of_mem _ h)
    rw [List.infix_cons_iff] at h2
    have h2' : ¬ c!"->" <:+: k := fun h => h2 (Or.inr h)
    have hstep : resolveGo cur part (c :: (k ++ rest)) = resolveGo cur (c :: part) (k ++ rest) := by
      by_cases hd : c = '-'
      · subst hd
        have : ∀ r, k ++ rest ≠ '>' :: r := by
          intro r hr
          cases k with
          | nil =>
            simp only [List.nil_append] at hr
            rcases h3 with rfl | ⟨r', rfl⟩ | ⟨r', rfl⟩ <;> simp at hr
          | cons x k =>
            simp only [List.cons_append, List.cons.injEq] at hr
            exact h2 (Or.inl ⟨k, by simp [hr.1]⟩)
        rw [resolveGo.eq_def]
        simp only [hc, if_false]
        split
        · next h => exact absurd h (this _)
        · rfl
      · rw [resolveGo.eq_def]
        simp only [hc, if_false]
        split
        · next h => exact absurd rfl hd
        · rfl
    rw [List.cons_append, hstep, ih _ h1' h2']
    simp

theorem resolveGo_end (cur : Value) (part : Str) :
    resolveGo cur part [] = if part.isEmpty then some cur else resolveStep cur part.reverse := by
  rw [resolveGo.eq_def]

theorem resolveGo_sep (cur : Value) (part : Str) (s : Bool) (rest : Str) :
    resolveGo cur part (sep s ++ rest) =
      if part.isEmpty then resolveGo cur [] rest
      else (resolveStep cur part.reverse).bind (fun v => resolveGo v [] rest) := by
  cases s
  · show resolveGo cur part ('/' :: rest) = _
    rw [resolveGo.eq_def]; simp
  · show resolveGo cur part ('-' :: '>' :: rest) = _
    rw [resolveGo.eq_def]; simp

theorem resolveGo_nameOf (l : List (Str × Bool)) (last : Str) (v : Value)
    (hl : ∀ e ∈ l, Segment e.1) (hlast : Segment last) :
    resolveGo v [] (nameOf l last) = follow v ((l.map (fun e => e.1) ++ [last]).filter (fun k => !k.isEmpty)) := by
  induction l generalizing v with
  | nil =>
    have := resolveGo_push last v [] [] hlast.1 hlast.2 (Or.inl rfl)
    simp only [List.append_nil] at this
    simp only [nameOf, this, resolveGo_end, List.map_nil, List.nil_append]
    cases hl : last with
    | nil => rfl
    | cons c cs =>
      simp only [List.isEmpty_reverse, List.isEmpty_cons, Bool.false_eq_true, if_false, List.reverse_reverse,
        List.filter_cons, Bool.not_false, if_true, List.filter_nil]
      rw [follow_cons]
      cases resolveStep v (c :: cs) <;> rfl
  | cons e r ih =>
    obtain ⟨k, s⟩ := e
    have hk := hl (k, s) (by simp)
    have hr := fun v => ih v (fun e he => hl e (List.mem_cons_of_mem _ he))
    simp only [nameOf, List.append_assoc]
    rw [resolveGo_push k v [] _ hk.1 hk.2, List.append_nil, resolveGo_sep]
    · cases hke : k with
      | nil => simpa using hr v
      | cons c cs =>
        simp only [List.isEmpty_reverse, List.isEmpty_cons, Bool.false_eq_true, if_false, List.reverse_reverse,
          List.map_cons, List.cons_append, List.filter_cons, Bool.not_false, if_true]
        rw [follow_cons]
        congr 1; funext x; exact hr x
    · cases s
      · exact Or.inr (Or.inl ⟨_, rfl⟩)
      · exact Or.inr (Or.inr ⟨_, rfl⟩)

/-- **C09.** A name written as keys joined by `->` or `/` (in any mixture, at least one separator) denotes the value
reached by following the non-empty keys one by one. -/
theorem C09_path (v : Value) (l : List (Str × Bool)) (last : Str) (hl : ∀ e ∈ l, Segment e.1) (hne : l ≠ [])
    (hlast : Segment last) :
    resolvePointer v (nameOf l last) =
      follow v ((l.map (fun e => e.1) ++ [last]).filter (fun k => !k.isEmpty)) := by
  unfold resolvePointer
  have : (!contains c!"->" (nameOf l last) && !contains c!"/" (nameOf l last)) = false := by
    cases l with
    | nil => exact absurd rfl hne
    | cons e r =>
      obtain ⟨k, s⟩ := e
      cases s
      · have : contains c!"/" (nameOf ((k, false) :: r) last) = true :=
          (contains_iff (by simp)).2 ⟨k, nameOf r last, by simp [nameOf, sep]⟩
        simp [this]
      · have : contains c!"->" (nameOf ((k, true) :: r) last) = true :=
          (contains_iff (by simp)).2 ⟨k, nameOf r last, by simp [nameOf, sep]⟩
        simp [this]
  rw [this]
  exact resolveGo_nameOf l last v hl hlast

/-- **C09.** A name without separators is a plain key lookup. -/
theorem C09_plain (o : Obj) (name : Str) (h : Segment name) : resolvePointer (.obj o) name = Obj.get? name o := by
  unfold resolvePointer
  have h1 : contains c!"->" name = false := (contains_false_iff (by simp)).2 h.2
  have h2 : contains c!"/" name = false := (contains_false_iff (by simp)).2 (by
    rintro ⟨a, b, hab⟩; exact h.1 (by rw [← hab]; simp))
  simp [h1, h2, Value.get?]

/-- **C09.** These two theorems cover every name: each name is such a sequence of keys, in exactly the way one
would split it at the separators. -/
theorem C09_every_name (name : Str) : ∃ l last, (∀ e ∈ l, Segment e.1) ∧ Segment last ∧ name = nameOf l last := by
  have key : ∀ n (s : Str), s.length ≤ n → ∀ pre : Str, Segment pre →
      (∀ a, pre = a ++ ['-'] → ∀ b, s ≠ '>' :: b) →
      ∃ l last, (∀ e ∈ l, Segment e.1) ∧ Segment last ∧ pre ++ s = nameOf l last := by
    intro n
    induction n with
    | zero =>
      intro s hs pre hpre _
      have : s = [] := List.length_eq_zero_iff.1 (by omega)
      subst this
      exact ⟨[], pre, by simp, hpre, by simp [nameOf]⟩
    | succ n ih =>
      intro s hs pre hpre hb
      cases s with
      | nil => exact ⟨[], pre, by simp, hpre, by simp [nameOf]⟩
      | cons c s =>
        simp only [List.length_cons] at hs
        have hempty : Segment ([] : Str) := ⟨by simp, by simp⟩
        by_cases hc : c = '/'
        · subst hc
          obtain ⟨l, last, h1, h2, h3⟩ := ih s (by omega) [] hempty (by simp)
          refine ⟨(pre, false) :: l, last, ?_, h2, ?_⟩
          · intro e he
            rcases List.mem_cons.1 he with rfl | he
            · exact hpre
            · exact h1 e he
          · simp [nameOf, sep, ← h3]
        · by_cases harrow : c = '-' ∧ ∃ s', s = '>' :: s'
          · obtain ⟨rfl, s', rfl⟩ := harrow
            simp only [List.length_cons] at hs
            obtain ⟨l, last, h1, h2, h3⟩ := ih s' (by omega) [] hempty (by simp)
            refine ⟨(pre, true) :: l, last, ?_, h2, ?_⟩
            · intro e he
              rcases List.mem_cons.1 he with rfl | he
              · exact hpre
              · exact h1 e he
            · simp [nameOf, sep, ← h3]
          · have hseg : Segment (pre ++ [c]) := by
              refine ⟨by simp [hpre.1, Ne.symm hc], ?_⟩
              rintro ⟨a, b, hab⟩
              rcases List.eq_nil_or_concat b with rfl | ⟨b', x, rfl⟩
              · rw [List.append_nil] at hab
                have h2 : (a ++ ['-']) ++ ['>'] = pre ++ [c] := by simpa using hab
                obtain ⟨h3, h4⟩ := List.append_inj' h2 rfl
                simp only [List.cons.injEq, and_true] at h4
                exact hb a h3.symm s (by rw [← h4])
              · have h2 : (a ++ c!"->" ++ b') ++ [x] = pre ++ [c] := by simpa using hab
                obtain ⟨h3, _⟩ := List.append_inj' h2 rfl
                exact hpre.2 ⟨a, b', h3⟩
            have := ih s (by omega) (pre ++ [c]) hseg (by
              intro a ha b hs'
              obtain ⟨_, h4⟩ := List.append_inj' ha rfl
              simp only [List.cons.injEq, and_true] at h4
              exact harrow ⟨h4, b, hs'⟩)
            simpa using this
  have := key name.length name (Nat.le_refl _) [] ⟨by simp, by simp⟩ (by simp)
  simpa using this

/-- **C09.** Array elements are reached by the decimal index. -/
theorem C09_array_index (a : List Value) (i : Nat) (hi : i < 2 ^ 64) (ks : List Str) :
    follow (.arr a) (showNat i :: ks) = a[i]?.bind (fun x => follow x ks) := by
  simp [follow, parseU64_showNat i hi]

example : ∃ l last, (∀ e ∈ l, Segment e.1) ∧ l ≠ [] ∧ Segment last ∧ nameOf l last = c!"CONTEXT->GET/a-b" :=
  ⟨[(c!"CONTEXT", true), (c!"GET", false)], c!"a-b", by
    simp only [List.mem_cons, List.not_mem_nil, or_false, forall_eq_or_imp, forall_eq]
    refine ⟨⟨by decide, ?_⟩, ⟨by decide, ?_⟩⟩ <;> (rw [← contains_iff (by simp)]; decide), by simp,
    ⟨by decide, by rw [← contains_iff (by simp)]; decide⟩, rfl⟩
example : getFromKey ⟨fun _ => none, fun _ => false, fun a _ => a, fun _ => []⟩
    (.obj [(c!"a", .arr [.null, .obj [(c!"b", .str c!"x")]])]) c!"a->1/b" = c!"x" := by decide +kernel

/-! ### C11 -/

/-- **C11.** `filled`: present and neither null nor an empty string, array or object. -/
theorem C11_filled (data : Value) (name : Str) :
    (!isEmptyKey data name) = true ↔
      ∃ v, resolvePointer data name = some v ∧ v ≠ .null ∧ v ≠ .str [] ∧ v ≠ .arr [] ∧ v ≠ .obj [] := by
  unfold isEmptyKey
  cases h : resolvePointer data name with
  | none => simp
  | some v =>
    simp only [Option.some.injEq, exists_eq_left']
    cases v <;> simp [emptyVal]

/-- **C11.** `defined`: present and not null. -/
theorem C11_defined (data : Value) (name : Str) :
    isDefinedKey data name = true ↔ ∃ v, resolvePointer data name = some v ∧ v ≠ .null := by
  unfold isDefinedKey
  cases h : resolvePointer data name with
  | none => simp
  | some v =>
    simp only [Option.some.injEq, exists_eq_left']
    cases v <;> simp [Value.isNull]

/-- **C11.** `array`: present and an array or an object. -/
theorem C11_array (data : Value) (name : Str) :
    isArrayKey data name = true ↔
      ∃ v, resolvePointer data name = some v ∧ ((∃ a, v = .arr a) ∨ ∃ o, v = .obj o) := by
  unfold isArrayKey
  cases h : resolvePointer data name with
  | none => simp
  | some v =>
    simp only [Option.some.injEq, exists_eq_left']
    cases v <;> simp [arrayVal]

/-- **C11.** `bool`: true, a positive number, a non-empty array or object, or a string other than the empty string
and `false` that is not a number or is a positive number. -/
theorem C11_bool (F : F64Ops) (data : Value) (name : Str) :
    isBoolKey F data name = true ↔
      ∃ v, resolvePointer data name = some v ∧
        (v = .bool true ∨ (∃ i, v = .num (.int i) ∧ 0 < i) ∨ (∃ x, v = .num (.flt x) ∧ F.pos x = true) ∨
          (∃ a, v = .arr a ∧ a ≠ []) ∨ (∃ o, v = .obj o ∧ o ≠ []) ∨
          (∃ s, v = .str s ∧ s ≠ [] ∧ s ≠ c!"false" ∧ ∀ x, F.parse s = some x → F.pos x = true)) := by
  unfold isBoolKey
  cases h : resolvePointer data name with
  | none => simp
  | some v =>
    simp only [Option.some.injEq, exists_eq_left']
    cases v with
    | null => simp [boolVal]
    | bool b => simp [boolVal]
    | num n => cases n <;> simp [boolVal]
    | arr a => simp [boolVal]
    | obj a => simp [boolVal]
    | str s =>
      simp only [boolVal, reduceCtorEq, false_and, exists_const, false_or, Value.str.injEq, exists_eq_left']
      by_cases h1 : s = []
      · simp [h1]
      by_cases h2 : s = c!"false"
      · simp [h2]
      cases hp : F.parse s with
      | none => simp [h1, h2]
      | some x => simp [h1, h2]

/-- **C11.** `bool` implies `filled`, `filled` implies `defined`. -/
theorem C11_implications (F : F64Ops) (data : Value) (name : Str) :
    (isBoolKey F data name = true → isEmptyKey data name = false) ∧
    (isEmptyKey data name = false → isDefinedKey data name = true) := by
  constructor
  · intro h
    rw [C11_bool] at h
    have : (!isEmptyKey data name) = true := by
      rw [C11_filled]
      obtain ⟨v, hv, h⟩ := h
      refine ⟨v, hv, ?_⟩
      rcases h with rfl | ⟨i, rfl, _⟩ | ⟨x, rfl, _⟩ | ⟨a, rfl, h⟩ | ⟨o, rfl, h⟩ | ⟨s, rfl, h, _⟩ <;> simp [*]
    simpa using this
  · intro h
    have : (!isEmptyKey data name) = true := by simp [h]
    rw [C11_filled] at this
    rw [C11_defined]
    obtain ⟨v, hv, h, _⟩ := this
    exact ⟨v, hv, h⟩

example : isBoolKey ⟨parseNat1, fun n => decide (0 < n), fun a _ => a, fun _ => []⟩
    (.obj [(c!"a", .str c!"0"), (c!"b", .str c!"no")]) c!"b" = true := by decide +kernel

end Nts
