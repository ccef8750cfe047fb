import Verif.Model.Template
import Verif.Props.Escape
import Verif.Lemmas.Value
import Verif.Lemmas.State
/-
C04, C05: sanitising request data.
-/
set_option autoImplicit false
namespace Nts
open Spec

/-- The documented filter of one text. -/
abbrev Spec.filt (s : Str) : Str := escapeChars true (unescapeChars true s)

theorem filterKey_eq (k : Str) : filterKey k = filt k := by
  unfold filterKey filt
  rw [unescapeChars_eq]
  unfold unescapeCow
  by_cases h : k.contains '&' = true
  · simp only [h, if_true]; rfl
  · simp only [h]
    have hpl : unescapeGo true none k = k := unescapeGo_plain _ _ (by simpa using h)
    rw [hpl]; rfl

/-- A key that "needs no change" is already filtered. -/
theorem filt_of_not_needsChange {k : Str} (h : keyNeedsChange k = false) : filt k = k := by
  unfold keyNeedsChange at h
  simp only [Bool.or_eq_false_iff] at h
  obtain ⟨h1, h2⟩ := h
  have hp : ∀ c ∈ k, c ≠ '&' ∧ c ∉ special true := by
    intro c hc
    have := List.any_eq_false.1 h2 c hc
    simp only [Bool.or_eq_true, decide_eq_true_eq, not_or] at this
    simp [special, htmlSpecial, this]
  have hu : unescapeChars true k = k := by
    rw [unescapeChars_eq]
    exact unescapeGo_plain _ _ (by simpa using h1)
  unfold filt; rw [hu]
  exact C01_escape_plain true k hp

theorem filterValueObj_eq (o : List (Str × Value)) :
    filterValueObj o = o.map (fun kv => (kv.1, filterValue kv.2)) := by
  induction o with
  | nil => rfl
  | cons e r ih => obtain ⟨k, v⟩ := e; simp [filterValueObj, ih]

theorem filterValueList_eq (a : List Value) : filterValueList a = a.map filterValue := by
  induction a with
  | nil => rfl
  | cons e r ih => simp [filterValueList, ih]

theorem filterKeysList_eq (a : List Value) : filterKeysList a = a.map filterValueKeys := by
  induction a with
  | nil => rfl
  | cons e r ih => simp [filterKeysList, ih]

theorem filterKeysVals_eq (o : List (Str × Value)) :
    filterKeysVals o = o.map (fun kv => (kv.1, filterValueKeys kv.2)) := by
  induction o with
  | nil => rfl
  | cons e r ih => obtain ⟨k, v⟩ := e; simp [filterKeysVals, ih]

theorem filterKeysNew_mem (o acc : Obj) {e : Str × Value} (h : e ∈ filterKeysNew acc o) :
    e ∈ acc ∨ ∃ k v, (k, v) ∈ o ∧ e = (filt k, filterValueKeys v) := by
  induction o generalizing acc with
  | nil => left; simpa [filterKeysNew] using h
  | cons x r ih =>
    obtain ⟨k, v⟩ := x
    simp only [filterKeysNew] at h
    rcases ih _ h with h | ⟨k', v', hm, rfl⟩
    · rcases mem_insert h with h | h
      · right; exact ⟨k, v, by simp, by rw [h, filterKey_eq]⟩
      · left; exact h
    · right; exact ⟨k', v', List.mem_cons_of_mem _ hm, rfl⟩

theorem filterKeysNew_keys (o acc : Obj) : (∀ k ∈ keys acc, k ∈ keys (filterKeysNew acc o)) ∧
    ∀ k ∈ keys o, filt k ∈ keys (filterKeysNew acc o) := by
  induction o generalizing acc with
  | nil => simp [filterKeysNew, keys]
  | cons x r ih =>
    obtain ⟨k, v⟩ := x
    simp only [filterKeysNew]
    have h1 := ih (Obj.insert (filterKey k) (filterValueKeys v) acc)
    have hk : ∀ k' ∈ keys acc, k' ∈ keys (Obj.insert (filterKey k) (filterValueKeys v) acc) := by
      intro k' hk'; rw [keys_insert]; split
      · exact hk'
      · exact List.mem_append_left _ hk'
    have hk2 : filterKey k ∈ keys (Obj.insert (filterKey k) (filterValueKeys v) acc) := by
      rw [keys_insert]; split
      · assumption
      · simp
    refine ⟨fun k' hk' => h1.1 k' (hk k' hk'), ?_⟩
    intro k' hk'
    simp only [keys, List.map_cons, List.mem_cons] at hk'
    rcases hk' with rfl | hk'
    · rw [← filterKey_eq]; exact h1.1 _ hk2
    · exact h1.2 k' hk'

theorem filteredEntry_of_mem {f : Str → Str} {o : Obj} {k : Str} {v w : Value} (hm : (k, v) ∈ o)
    (h : Filtered f v w) : FilteredEntry f o (f k) w := by
  induction o with
  | nil => simp at hm
  | cons e r ih =>
    obtain ⟨a, x⟩ := e
    rcases List.mem_cons.1 hm with hm | hm
    · simp only [Prod.mk.injEq] at hm
      obtain ⟨rfl, rfl⟩ := hm
      exact Or.inl ⟨rfl, h⟩
    · exact Or.inr (ih hm)

mutual
/-- Sanitising replaces every string and key by its filtered form and changes nothing else. -/
theorem filtered_sanitise : (v : Value) → Filtered filt v (filterValueKeys (filterValue v))
  | .null => rfl
  | .bool _ => rfl
  | .num _ => rfl
  | .str s => by
    simp only [filterValue, filterValueKeys, Filtered, filterStr_eq]
  | .arr a => by
    simp only [filterValue, filterValueKeys, Filtered]
    exact ⟨_, rfl, filtered_sanitise_list a⟩
  | .obj o => by
    have hlist := filtered_sanitise_obj o
    simp only [filterValue, filterValueKeys, Filtered]
    split
    · next h =>
      simp only [Bool.not_eq_true', List.any_eq_false, filterValueObj_eq] at h
      have hkeep : ∀ k ∈ keys o, filt k = k := by
        intro k hk
        obtain ⟨e, he, rfl⟩ := List.mem_map.1 hk
        have := h (e.1, filterValue e.2) (List.mem_map.2 ⟨e, he, rfl⟩)
        exact filt_of_not_needsChange (by simpa using this)
      refine ⟨_, rfl, ?_, ?_⟩
      · intro e he
        rw [filterKeysVals_eq, filterValueObj_eq, List.map_map] at he
        obtain ⟨x, hx, rfl⟩ := List.mem_map.1 he
        have := filteredEntry_of_mem (f := filt) (k := x.1) (v := x.2) hx (hlist x.1 x.2 hx)
        rw [hkeep x.1 (List.mem_map.2 ⟨x, hx, rfl⟩)] at this
        exact this
      · intro k hk
        rw [hkeep k hk, filterKeysVals_eq, filterValueObj_eq]
        simpa [keys] using hk
    · refine ⟨_, rfl, ?_, ?_⟩
      · intro e he
        rcases filterKeysNew_mem _ _ he with he | ⟨k, v, hm, rfl⟩
        · simp at he
        · rw [filterValueObj_eq] at hm
          obtain ⟨x, hx, hx2⟩ := List.mem_map.1 hm
          simp only [Prod.mk.injEq] at hx2
          obtain ⟨rfl, rfl⟩ := hx2
          exact filteredEntry_of_mem hx (hlist x.1 x.2 hx)
      · intro k hk
        apply (filterKeysNew_keys _ _).2
        rw [filterValueObj_eq]
        simpa [keys] using hk
theorem filtered_sanitise_list : (a : List Value) → FilteredList filt a (filterKeysList (filterValueList a))
  | [] => rfl
  | v :: r => ⟨_, _, rfl, filtered_sanitise v, filtered_sanitise_list r⟩
theorem filtered_sanitise_obj : (o : List (Str × Value)) → ∀ k v, (k, v) ∈ o →
    Filtered filt v (filterValueKeys (filterValue v))
  | [] => by simp
  | (a, x) :: r => by
    intro k v hm
    rcases List.mem_cons.1 hm with hm | hm
    · simp only [Prod.mk.injEq] at hm
      rw [hm.2]; exact filtered_sanitise x
    · exact filtered_sanitise_obj r k v hm
end

/-- All strings and keys of a value are clean. -/
def Spec.AllClean (v : Value) : Prop :=
  (∀ s, Below v (.str s) → Clean true s) ∧ (∀ o, Below v (.obj o) → ∀ k ∈ keys o, Clean true k)

theorem below_arr {a : List Value} {w : Value} (h : Below (.arr a) w) : w = .arr a ∨ ∃ x ∈ a, Below x w := by
  cases h with
  | here => exact Or.inl rfl
  | arr hx hb => exact Or.inr ⟨_, hx, hb⟩

theorem below_obj {o : Obj} {w : Value} (h : Below (.obj o) w) : w = .obj o ∨ ∃ e ∈ o, Below e.2 w := by
  cases h with
  | here => exact Or.inl rfl
  | obj hx hb => exact Or.inr ⟨_, hx, hb⟩

theorem allClean_arr {a : List Value} (h : ∀ x ∈ a, AllClean x) : AllClean (.arr a) := by
  refine ⟨?_, ?_⟩
  · intro s hs
    rcases below_arr hs with hs | ⟨x, hx, hb⟩
    · simp at hs
    · exact (h x hx).1 s hb
  · intro o ho
    rcases below_arr ho with ho | ⟨x, hx, hb⟩
    · simp at ho
    · exact (h x hx).2 o hb

theorem allClean_obj {o : Obj} (h : ∀ e ∈ o, AllClean e.2) (hk : ∀ k ∈ keys o, Clean true k) :
    AllClean (.obj o) := by
  refine ⟨?_, ?_⟩
  · intro s hs
    rcases below_obj hs with hs | ⟨x, hx, hb⟩
    · simp at hs
    · exact (h x hx).1 s hb
  · intro o' ho
    rcases below_obj ho with ho | ⟨x, hx, hb⟩
    · simp only [Value.obj.injEq] at ho; subst ho; exact hk
    · exact (h x hx).2 o' hb

mutual
/-- A filtered value is clean everywhere. -/
theorem allClean_of_filtered : (v w : Value) → Filtered filt v w → AllClean w
  | .null, w, h => by simp only [Filtered] at h; subst h; exact ⟨nofun, nofun⟩
  | .bool _, w, h => by simp only [Filtered] at h; subst h; exact ⟨nofun, nofun⟩
  | .num _, w, h => by simp only [Filtered] at h; subst h; exact ⟨nofun, nofun⟩
  | .str s, w, h => by
    simp only [Filtered] at h; subst h
    refine ⟨?_, nofun⟩
    intro t ht
    cases ht
    exact C01_escape_clean true _
  | .arr a, w, h => by
    simp only [Filtered] at h
    obtain ⟨a', rfl, h⟩ := h
    exact allClean_arr (allClean_of_filteredList a a' h)
  | .obj o, w, h => by
    simp only [Filtered] at h
    obtain ⟨o', rfl, h, _⟩ := h
    refine allClean_obj (fun e he => (allClean_of_filteredEntry o e.1 e.2 (h e he)).2) ?_
    intro k hk
    obtain ⟨e, he, rfl⟩ := List.mem_map.1 hk
    exact (allClean_of_filteredEntry o e.1 e.2 (h e he)).1
theorem allClean_of_filteredList : (a a' : List Value) → FilteredList filt a a' → ∀ x ∈ a', AllClean x
  | [], a', h => by simp only [FilteredList] at h; subst h; simp
  | v :: r, a', h => by
    simp only [FilteredList] at h
    obtain ⟨w, r', rfl, h1, h2⟩ := h
    intro x hx
    rcases List.mem_cons.1 hx with rfl | hx
    · exact allClean_of_filtered v _ h1
    · exact allClean_of_filteredList r r' h2 x hx
theorem allClean_of_filteredEntry : (o : List (Str × Value)) → (k : Str) → (w : Value) →
    FilteredEntry filt o k w → Clean true k ∧ AllClean w
  | [], _, _, h => by simp [FilteredEntry] at h
  | (a, x) :: r, k, w, h => by
    simp only [FilteredEntry] at h
    rcases h with ⟨rfl, h⟩ | h
    · exact ⟨C01_escape_clean true _, allClean_of_filtered x w h⟩
    · exact allClean_of_filteredEntry r k w h
end

theorem initShared_schema {env : Env} {filePath raw raw' : Str} {sh sh' : Shared} {inh : Inherit}
    (h : initShared env filePath raw sh = .ok (raw', sh', inh)) :
    ∃ s1 s2, sh.schema.setIndex c!"__moveto" (.obj []) = some s1 ∧
      s1.setIndex c!"__error" (.arr []) = some s2 ∧ filterContext s2 = some sh'.schema := by
  unfold initShared at h
  have hsch : (createBlockSchema sh Inherit.new).1.schema = sh.schema := by
    obtain ⟨f, hf⟩ := createBlockSchema_sh sh Inherit.new; rw [hf]
  split at h
  · simp at h
  · dsimp only at h
    rw [hsch] at h
    split at h
    · simp at h
    · next s2 hs2 =>
      obtain ⟨s1, hs1, hs12⟩ := Option.bind_eq_some_iff.1 hs2
      split at h
      · simp at h
      · next s3 hs3 =>
        simp only [Except.ok.injEq, Prod.mk.injEq] at h
        obtain ⟨_, rfl, _⟩ := h
        exact ⟨s1, s2, hs1, hs12, hs3⟩

/-- **C04.** Once rendering has been initialised, everything below `data.CONTEXT` is clean: no string and no key at
any depth has a raw special character. -/
theorem C04_context_clean {env : Env} {filePath raw raw' : Str} {sh sh' : Shared} {inh : Inherit}
    (h : initShared env filePath raw sh = .ok (raw', sh', inh)) :
    AllClean ((sh'.schema.index c!"data").index c!"CONTEXT") := by
  obtain ⟨s1, s2, _, _, h3⟩ := initShared_schema h
  have h4 := index_modIndex_self h3
  have h5 := index_modIndex_self h4
  simp only [Option.some.injEq] at h5
  rw [← h5]
  exact allClean_of_filtered _ _ (filtered_sanitise _)

/-- **C04.** The sanitised context is the original one with strings and keys filtered, nothing else: other scalars
are untouched, arrays keep length and order, no key disappears and no entry is invented. -/
theorem C04_context_shape {env : Env} {filePath raw raw' : Str} {sh sh' : Shared} {inh : Inherit}
    (h : initShared env filePath raw sh = .ok (raw', sh', inh)) :
    Filtered filt ((sh.schema.index c!"data").index c!"CONTEXT")
      ((sh'.schema.index c!"data").index c!"CONTEXT") := by
  obtain ⟨s1, s2, h1, h2, h3⟩ := initShared_schema h
  have h4 := index_modIndex_self h3
  have h5 := index_modIndex_self h4
  simp only [Option.some.injEq] at h5
  have e1 : s2.index c!"data" = sh.schema.index c!"data" := by
    rw [index_setIndex_ne h2 (by decide), index_setIndex_ne h1 (by decide)]
  rw [← h5, e1]
  exact filtered_sanitise _

/-- **C04.** Nothing outside `data.CONTEXT` is changed by the sanitisation: other data keys, and other top-level
keys except the two internal lists, keep their values. -/
theorem C04_outside_unchanged {env : Env} {filePath raw raw' : Str} {sh sh' : Shared} {inh : Inherit}
    (h : initShared env filePath raw sh = .ok (raw', sh', inh)) :
    (∀ k, k ≠ c!"CONTEXT" → (sh'.schema.index c!"data").index k = (sh.schema.index c!"data").index k) ∧
    (∀ k, k ≠ c!"data" → k ≠ c!"__moveto" → k ≠ c!"__error" → sh'.schema.index k = sh.schema.index k) := by
  obtain ⟨s1, s2, h1, h2, h3⟩ := initShared_schema h
  have e1 : s2.index c!"data" = sh.schema.index c!"data" := by
    rw [index_setIndex_ne h2 (by decide), index_setIndex_ne h1 (by decide)]
  refine ⟨?_, ?_⟩
  · intro k hk
    have h4 := index_modIndex_self h3
    rw [index_modIndex_ne h4 (Ne.symm hk), e1]
  · intro k hd hm he
    rw [index_modIndex_ne h3 (Ne.symm hd), index_setIndex_ne h2 (Ne.symm he), index_setIndex_ne h1 (Ne.symm hm)]

/-! ### C05 -/

/-- **C05 is false of the code**: two different keys can become one, and one of the values is lost. -/
theorem C05_keys_collide :
    filterValueKeys (.obj [(c!"<", .str c!"1"), (c!"&lt;", .str c!"2")]) = .obj [(c!"&lt;", .str c!"2")] := by
  rfl

theorem filterKeysNew_eq (o acc : Obj)
    (h : ((keys acc) ++ (keys o).map filt).Nodup) :
    filterKeysNew acc o = acc ++ o.map (fun kv => (filt kv.1, filterValueKeys kv.2)) := by
  induction o generalizing acc with
  | nil => simp [filterKeysNew]
  | cons e r ih =>
    obtain ⟨k, v⟩ := e
    simp only [filterKeysNew]
    have hk : filt k ∉ keys acc := by
      intro hk
      rw [List.nodup_append] at h
      exact h.2.2 _ hk _ (by simp [keys]) rfl
    have hins : Obj.insert (filterKey k) (filterValueKeys v) acc = acc ++ [(filt k, filterValueKeys v)] := by
      rw [filterKey_eq]
      clear h ih
      induction acc with
      | nil => rfl
      | cons e r ih =>
        obtain ⟨a, x⟩ := e
        simp only [keys, List.map_cons, List.mem_cons, not_or] at hk
        simp only [Obj.insert, Ne.symm hk.1, if_false, List.cons_append]
        rw [ih hk.2]
    rw [hins, ih]
    · simp
    · have e1 : keys (acc ++ [(filt k, filterValueKeys v)]) = keys acc ++ [filt k] := by simp [keys]
      rw [e1]
      simp only [keys, List.map_cons] at h ⊢
      simpa using h

/-- **C05, the true part** (full claim: for all objects).  If no two keys of an object denote the same text once
unescaped, every entry is kept, in order, with its key filtered.  Missing: keys such as `<` and `&lt;` that denote
the same text; see `C05_keys_collide`. -/
theorem C05_no_entry_lost_partial (o : Obj) (h : ((keys o).map (unescapeChars true)).Nodup) :
    filterValueKeys (.obj o) = .obj (o.map (fun kv => (filt kv.1, filterValueKeys kv.2))) ∧
    (keys (o.map (fun kv => (filt kv.1, filterValueKeys kv.2)))).Nodup := by
  have hnd : ((keys o).map filt).Nodup := by
    have : (keys o).map filt = ((keys o).map (unescapeChars true)).map (escapeChars true) := by
      rw [List.map_map]; rfl
    rw [this]
    refine List.Pairwise.map _ ?_ h
    intro a b hab he
    exact hab (C02_injective true a b he)
  refine ⟨?_, ?_⟩
  · simp only [filterValueKeys]
    split
    · next hn =>
      simp only [Bool.not_eq_true', List.any_eq_false] at hn
      rw [filterKeysVals_eq]
      congr 1
      apply List.map_congr_left
      intro e he
      rw [filt_of_not_needsChange (by simpa using hn e he)]
    · rw [filterKeysNew_eq _ _ (by simpa [keys] using hnd)]; rfl
  · simpa [keys, List.map_map, Function.comp_def] using hnd

example : ((keys [(c!"<b>", Value.null), (c!"a", .null), (c!"&amp;lt;", .null)]).map (unescapeChars true)).Nodup := by
  decide +kernel

theorem filterValueKeys_new (o : Obj) (h : (keys o).Nodup) : filterValueKeys (.obj o) = .obj (filterKeysNew [] o) := by
  simp only [filterValueKeys]
  split
  · next hn =>
    simp only [Bool.not_eq_true', List.any_eq_false] at hn
    have same : (keys o).map filt = keys o := by
      have : ∀ k ∈ keys o, filt k = k := by
        intro k hk
        obtain ⟨e, he, rfl⟩ := List.mem_map.1 hk
        exact filt_of_not_needsChange (by simpa using hn e he)
      rw [List.map_congr_left this, List.map_id']
    rw [filterKeysVals_eq, filterKeysNew_eq _ _ (by rw [same]; simpa [keys] using h)]
    simp only [List.nil_append, Value.obj.injEq]
    apply List.map_congr_left
    intro e he
    rw [filt_of_not_needsChange (by simpa using hn e he)]
  · rfl

theorem filterKeysNew_get (o acc : Obj) (k : Str) : Obj.get? k (filterKeysNew acc o) =
    match o.reverse.find? (fun e => filt e.1 = k) with
    | some e => some (filterValueKeys e.2)
    | none => Obj.get? k acc := by
  induction o generalizing acc with
  | nil => rfl
  | cons e r ih =>
    obtain ⟨a, v⟩ := e
    simp only [filterKeysNew]
    rw [ih, List.reverse_cons, List.find?_append]
    cases hr : r.reverse.find? (fun e => filt e.1 = k) with
    | some x => rfl
    | none =>
      rw [filterKey_eq, Obj.get?_insert]
      by_cases hk : filt a = k
      · simp [hk]
      · simp [hk]

theorem insert_length (o : Obj) (k : Str) (v : Value) :
    (Obj.insert k v o).length = if k ∈ keys o then o.length else o.length + 1 := by
  induction o with
  | nil => rfl
  | cons e r ih =>
    obtain ⟨a, x⟩ := e
    simp only [Obj.insert, keys, List.map_cons, List.mem_cons]
    by_cases h : a = k
    · rw [if_pos h, if_pos (.inl h.symm)]; rfl
    · rw [if_neg h, List.length_cons, ih]
      by_cases h' : k ∈ keys r
      · rw [if_pos h', if_pos (.inr h')]; rfl
      · rw [if_neg h', if_neg]; rfl
        rintro (h1 | h1)
        · exact h h1.symm
        · exact h' h1

theorem insert_keys_new {o : Obj} {k : Str} (v : Value) (h : k ∉ keys o) : keys (Obj.insert k v o) = keys o ++ [k] := by
  induction o with
  | nil => rfl
  | cons e r ih =>
    obtain ⟨a, x⟩ := e
    simp only [keys, List.map_cons, List.mem_cons, not_or] at h
    simp only [Obj.insert, Ne.symm h.1, if_false]
    show a :: keys (Obj.insert k v r) = a :: keys r ++ [k]
    rw [ih h.2]; rfl

theorem filterKeysNew_length (o acc : Obj) (h : (keys acc).Nodup) :
    (filterKeysNew acc o).length ≤ acc.length + o.length ∧
    ((filterKeysNew acc o).length = acc.length + o.length → (keys acc ++ (keys o).map filt).Nodup) := by
  induction o generalizing acc with
  | nil => exact ⟨Nat.le_refl _, fun _ => by simpa [keys] using h⟩
  | cons e r ih =>
    obtain ⟨k, v⟩ := e
    simp only [filterKeysNew, List.length_cons]
    rw [filterKey_eq]
    by_cases hk : filt k ∈ keys acc
    · have hl := insert_length acc (filt k) (filterValueKeys v)
      rw [if_pos hk] at hl
      have hkeys : (keys (Obj.insert (filt k) (filterValueKeys v) acc)).Nodup := by
        have same : ∀ (o : Obj), filt k ∈ keys o → keys (Obj.insert (filt k) (filterValueKeys v) o) = keys o := by
          intro o
          induction o with
          | nil => intro h; simp [keys] at h
          | cons e r ih =>
            obtain ⟨a, x⟩ := e
            intro h
            simp only [Obj.insert]
            by_cases h' : a = filt k
            · rw [if_pos h']; rfl
            · rw [if_neg h']
              simp only [keys, List.map_cons, List.mem_cons] at h
              show a :: keys (Obj.insert (filt k) (filterValueKeys v) r) = a :: keys r
              rw [ih (h.resolve_left (fun h2 => h' h2.symm))]
        rw [same acc hk]; exact h
      obtain ⟨h1, h2⟩ := ih _ hkeys
      rw [hl] at h1
      exact ⟨by omega, fun h' => absurd h' (by omega)⟩
    · have hl := insert_length acc (filt k) (filterValueKeys v)
      rw [if_neg hk] at hl
      have hkeys := insert_keys_new (filterValueKeys v) hk
      have hnd : (keys (Obj.insert (filt k) (filterValueKeys v) acc)).Nodup := by
        rw [hkeys, List.nodup_append]
        refine ⟨h, by simp, ?_⟩
        intro a ha b hb
        simp only [List.mem_singleton] at hb
        subst hb
        intro he; subst he; exact hk ha
      obtain ⟨h1, h2⟩ := ih _ hnd
      rw [hl] at h1 h2
      refine ⟨by omega, fun h' => ?_⟩
      have := h2 (by omega)
      rw [hkeys] at this
      simpa [keys] using this

/-- **C05, exactly.** The sanitised object has, under each key, the value of the last entry whose key becomes that key:
nothing is invented, and of entries whose keys become one only the last is kept. -/
theorem C05_value (o : Obj) (h : (keys o).Nodup) : ∃ m, filterValueKeys (.obj o) = .obj m ∧
    ∀ k, Obj.get? k m = (o.reverse.find? (fun e => escapeChars true (unescapeChars true e.1) = k)).map (fun e => filterValueKeys e.2) := by
  refine ⟨_, filterValueKeys_new o h, fun k => ?_⟩
  rw [filterKeysNew_get]
  show _ = (o.reverse.find? (fun e => filt e.1 = k)).map _
  cases o.reverse.find? (fun e => filt e.1 = k) <;> rfl

/-- **C05, exactly** (full claim: always).  The number of entries is kept exactly when no two keys denote the same text. -/
theorem C05_exact (o : Obj) (h : (keys o).Nodup) :
    (∃ m, filterValueKeys (.obj o) = .obj m ∧ m.length = o.length) ↔ ((keys o).map (unescapeChars true)).Nodup := by
  constructor
  · rintro ⟨m, hm, hl⟩
    rw [filterValueKeys_new o h] at hm
    injection hm with hm
    have := (filterKeysNew_length o [] (by simp [keys])).2 (by rw [hm, hl]; simp)
    simp only [keys, List.map_nil, List.nil_append] at this
    have e : (keys o).map filt = ((keys o).map (unescapeChars true)).map (escapeChars true) := by
      rw [List.map_map]; rfl
    have h2 : (((keys o).map (unescapeChars true)).map (escapeChars true)).Nodup := e ▸ this
    exact List.Pairwise.of_map _ (fun a b hab he => hab (by rw [he])) h2
  · intro hn
    exact ⟨_, (C05_no_entry_lost_partial o hn).1, by simp⟩

example : (keys [(c!"<", Value.null), (c!"&lt;", .null), (c!"b", .null)]).Nodup ∧
    ¬ ((keys [(c!"<", Value.null), (c!"&lt;", .null), (c!"b", .null)]).map (unescapeChars true)).Nodup := by decide +kernel

end Nts
