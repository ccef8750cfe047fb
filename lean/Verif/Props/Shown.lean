import Verif.Spec.Shown
import Verif.Props.LangUse
import Verif.Props.Browser
import Verif.Props.Pointer
import Verif.Props.Filter
import Verif.Props.Text
import Verif.Props.Amount
/-
C125: what a visitor reads of the data.
-/
set_option autoImplicit false
namespace Nts
open Spec

/-! ### the filter and white space -/

theorem escapeChar_ws {c : Char} (h : isWs c = true) : escapeChar true c = [c] := by
  have h1 := C01_escape_plain true [c] (fun x hx => by
    rw [List.mem_singleton.1 hx]
    refine ⟨?_, fun hs => ?_⟩
    · rintro rfl; exact absurd h (by decide)
    · have : ∀ x ∈ special true, isWs x = false := by decide
      rw [this c hs] at h; cases h)
  rw [escapeChars_eq, List.flatMap_cons, List.flatMap_nil, List.append_nil] at h1
  exact h1

/-- The form of a character that is not white space neither begins nor ends with white space. -/
theorem escapeChar_ends {c : Char} (h : isWs c = false) :
    (∃ a r, escapeChar true c = a :: r ∧ isWs a = false) ∧ ∃ a r, escapeChar true c = r ++ [a] ∧ isWs a = false := by
  rcases escapeChar_cases true c with ⟨h1, _⟩ | ⟨e, he, h1, _⟩
  · rw [h1]
    exact ⟨⟨c, [], rfl, h⟩, ⟨c, [], rfl, h⟩⟩
  · rw [h1]
    obtain ⟨m, rfl, _⟩ := entity_shape he
    exact ⟨⟨'&', m ++ c!";", rfl, by decide⟩, ⟨';', '&' :: m, rfl, by decide⟩⟩

theorem escapeChars_cons (c : Char) (s : Str) : escapeChars true (c :: s) = escapeChar true c ++ escapeChars true s := by
  rw [escapeChars_eq, escapeChars_eq, List.flatMap_cons]

theorem escapeChars_append (a b : Str) : escapeChars true (a ++ b) = escapeChars true a ++ escapeChars true b := by
  rw [escapeChars_eq, escapeChars_eq, escapeChars_eq, List.flatMap_append]

theorem trimStart_escape (s : Str) : trimStart (escapeChars true s) = escapeChars true (trimStart s) := by
  unfold trimStart
  induction s with
  | nil => rfl
  | cons c s ih =>
    cases h : isWs c with
    | true => rw [escapeChars_cons, escapeChar_ws h, List.singleton_append, List.dropWhile_cons, if_pos h, ih, List.dropWhile_cons, if_pos h]
    | false =>
      rw [List.dropWhile_cons (x := c), if_neg (by rw [h]; decide), escapeChars_cons]
      obtain ⟨⟨a, r, ha, hw⟩, _⟩ := escapeChar_ends h
      rw [ha, List.cons_append, List.dropWhile_cons, if_neg (by rw [hw]; decide)]

theorem trimEnd_snoc_if (s : Str) (c : Char) : trimEnd (s ++ [c]) = if isWs c then trimEnd s else s ++ [c] := by
  unfold trimEnd
  rw [List.reverse_append, List.reverse_singleton, List.singleton_append, List.dropWhile_cons]
  split
  · rfl
  · rw [List.reverse_cons, List.reverse_reverse]

theorem trimEnd_escape (s : Str) : trimEnd (escapeChars true s) = escapeChars true (trimEnd s) := by
  obtain ⟨r, rfl⟩ : ∃ r : Str, s = r.reverse := ⟨s.reverse, (List.reverse_reverse s).symm⟩
  induction r with
  | nil => rfl
  | cons c s ih =>
    have one : escapeChars true [c] = escapeChar true c := by rw [escapeChars_cons]; exact List.append_nil _
    rw [List.reverse_cons, escapeChars_append, one, trimEnd_snoc_if]
    cases h : isWs c with
    | true => rw [escapeChar_ws h, trimEnd_snoc_if, h, if_pos rfl, if_pos rfl, ih]
    | false =>
      obtain ⟨_, ⟨a, r, ha, hw⟩⟩ := escapeChar_ends h
      rw [ha, ← List.append_assoc, trimEnd_snoc_if, hw, if_neg (by decide), if_neg (by decide), escapeChars_append, one, ha, List.append_assoc]

/-- Cutting the outer white space of a text and escaping it can be exchanged. -/
theorem trim_escape (s : Str) : trim (escapeChars true s) = escapeChars true (trim s) := by
  unfold trim
  rw [trimStart_escape, trimEnd_escape]

/-! ### request data -/

/-- What the start of a render makes of request data. -/
abbrev sanitised (v : Value) : Value := filterValueKeys (filterValue v)

theorem unescape_marked {k : Str} (h : '&' ∈ k) : ∃ c ∈ unescapeChars true k, c = '&' ∨ c ∈ special true := by
  rw [unescapeChars_eq]
  have ent : ∀ (e : Str) (semi : Bool), ∃ c ∈ entityText true e semi, c = '&' ∨ c ∈ special true := by
    intro e semi
    unfold entityText
    repeat' split
    all_goals first
      | exact ⟨'&', List.mem_cons_self .., .inl rfl⟩
      | exact ⟨_, List.mem_singleton.2 rfl, .inr (by decide)⟩
  have go : ∀ (k e : Str), ∃ c ∈ unescapeGo true (some e) k, c = '&' ∨ c ∈ special true := by
    intro k
    induction k with
    | nil => intro e; exact ent _ _
    | cons c k ih =>
      intro e
      unfold unescapeGo
      dsimp only
      split
      · obtain ⟨x, hx, h⟩ := ent e.reverse true
        exact ⟨x, List.mem_append_left _ hx, h⟩
      · exact ih _
  induction k with
  | nil => cases h
  | cons c k ih =>
    unfold unescapeGo
    dsimp only
    split
    · exact go _ _
    · next hc =>
      rcases List.mem_cons.1 h with h | h
      · exact absurd h.symm hc
      · obtain ⟨x, hx, hs⟩ := ih h
        exact ⟨x, List.mem_cons_of_mem _ hx, hs⟩

theorem unescape_plain {s : Str} (h : '&' ∉ s) : unescapeChars true s = s := by
  rw [unescapeChars_eq]; exact unescapeGo_plain _ _ h

/-- Only the key itself becomes a plain key. -/
theorem filt_plain {k e : Str} (hk : TextKey k) : filt e = k ↔ e = k := by
  have hkk : filt k = k := by
    unfold filt
    rw [unescape_plain hk.amp]
    exact C01_escape_plain _ _ fun c hc => ⟨fun h => hk.amp (h ▸ hc), hk.plain c hc⟩
  constructor
  · intro h
    have h1 : unescapeChars true e = k := by
      have := congrArg (unescapeChars true) h
      unfold filt at this
      rwa [C02_roundtrip, unescape_plain hk.amp] at this
    have h2 : '&' ∉ e := by
      intro ha
      obtain ⟨c, hc, h⟩ := unescape_marked ha
      rw [h1] at hc
      rcases h with rfl | h
      · exact hk.amp hc
      · exact hk.plain c hc h
    rw [← h1, unescape_plain h2]
  · rintro rfl
    exact hkk

theorem filterValueObj_get (o : Obj) (k : Str) : Obj.get? k (filterValueObj o) = (Obj.get? k o).map filterValue := by
  induction o with
  | nil => rfl
  | cons e r ih =>
    obtain ⟨a, v⟩ := e
    unfold filterValueObj Obj.get?
    split
    · rfl
    · exact ih

theorem filterValueObj_keys (o : Obj) : keys (filterValueObj o) = keys o := by
  induction o with
  | nil => rfl
  | cons e r ih =>
    obtain ⟨a, v⟩ := e
    unfold filterValueObj
    unfold keys at ih ⊢
    rw [List.map_cons, List.map_cons, ih]

theorem filterValueList_get (a : List Value) (i : Nat) : (filterValueList a)[i]? = a[i]?.map filterValue := by
  induction a generalizing i with
  | nil => rfl
  | cons v r ih =>
    unfold filterValueList
    cases i with
    | zero => rfl
    | succ i => exact ih i

theorem get_last {o : Obj} (h : (keys o).Nodup) {k : Str} (hk : TextKey k) :
    (o.reverse.find? (fun e => escapeChars true (unescapeChars true e.1) = k)).map (fun e => filterValueKeys e.2) =
      (Obj.get? k o).map filterValueKeys := by
  cases hf : o.reverse.find? (fun e => escapeChars true (unescapeChars true e.1) = k) with
  | some e =>
    have h1 := List.find?_some hf
    have h2 := List.mem_of_find?_eq_some hf
    have h3 : e.1 = k := (filt_plain hk).1 (by simpa using h1)
    obtain ⟨a, v⟩ := e
    cases h3
    rw [Obj.get?_of_mem h (List.mem_reverse.1 h2)]
    rfl
  | none =>
    cases hg : Obj.get? k o with
    | none => rfl
    | some v =>
      have := List.find?_eq_none.1 hf (k, v) (List.mem_reverse.2 (Obj.get?_mem hg))
      exact absurd (by simpa using (filt_plain hk).2 rfl) this

theorem sanitised_step {v : Value} (hv : v.WF) {k : Str} (hk : TextKey k) :
    resolveStep (sanitised v) k = (resolveStep v k).map sanitised := by
  cases v with
  | obj o =>
    have hn : (keys (filterValueObj o)).Nodup := by rw [filterValueObj_keys]; exact ((wfObj_iff o).1 hv).1
    obtain ⟨m, hm, hget⟩ := C05_value (filterValueObj o) hn
    show resolveStep (filterValueKeys (.obj (filterValueObj o))) k = _
    rw [hm]
    show Obj.get? k m = (Obj.get? k o).map sanitised
    rw [hget, get_last hn hk, filterValueObj_get, Option.map_map]
    rfl
  | arr a =>
    show resolveStep (filterValueKeys (.arr (filterValueList a))) k = _
    unfold filterValueKeys
    rw [filterKeysList_eq]
    unfold resolveStep
    dsimp only
    cases parseU64 k with
    | none => rfl
    | some i =>
      simp only [Option.bind_some, List.getElem?_map, filterValueList_get, Option.map_map]
      rfl
  | _ => rfl

theorem step_wf {v w : Value} (hv : v.WF) {k : Str} (h : resolveStep v k = some w) : w.WF := by
  cases v with
  | obj o => exact ((wfObj_iff o).1 hv).2 _ (Obj.get?_mem h)
  | arr a =>
    simp only [resolveStep, Option.bind_eq_some_iff] at h
    obtain ⟨i, _, h⟩ := h
    have hm := List.mem_of_getElem? h
    clear h
    revert hv
    induction a with
    | nil => cases hm
    | cons x r ih =>
      intro hv
      have hv' : x.WF ∧ Value.WFList r := by simpa [Value.WF, Value.WFList] using hv
      rcases List.mem_cons.1 hm with rfl | hm
      · exact hv'.1
      · exact ih hm (by simpa [Value.WF] using hv'.2)
  | _ => simp [resolveStep] at h

/-- Below request data, the same keys lead to the same values, sanitised. -/
theorem sanitised_follow (ks : List Str) (hks : ∀ k ∈ ks, TextKey k) (v : Value) (hv : v.WF) :
    follow (sanitised v) ks = (follow v ks).map sanitised := by
  induction ks generalizing v with
  | nil => rfl
  | cons k ks ih =>
    rw [follow_cons, follow_cons, sanitised_step hv (hks k (by simp))]
    cases h : resolveStep v k with
    | none => rfl
    | some w => exact ih (fun x hx => hks x (by simp [hx])) w (step_wf hv h)

/-! ### what is printed -/

theorem shown_plain (F : F64Ops) (hshow : ∀ x, ∀ c ∈ F.show_ x, c ≠ '&' ∧ c ∉ special true) (v : Option Value)
    (hv : ∀ s, v ≠ some (.str s)) : ∀ c ∈ shownAs F v, c ≠ '&' ∧ c ∉ special true := by
  intro c hc
  match v with
  | none => cases hc
  | some .null => cases hc
  | some (.arr _) => cases hc
  | some (.obj _) => cases hc
  | some (.str s) => exact absurd rfl (hv s)
  | some (.bool true) => revert c; show ∀ c ∈ c!"true", _; decide
  | some (.bool false) => revert c; show ∀ c ∈ c!"false", _; decide
  | some (.num (.int i)) =>
    have h := showInt_chars i c hc
    clear hc
    revert c
    decide
  | some (.num (.flt x)) => exact hshow x c hc

/-- The text of a sanitised value is the text of the value, filtered. -/
theorem shown_sanitised (F : F64Ops) (hshow : ∀ x, ∀ c ∈ F.show_ x, c ≠ '&' ∧ c ∉ special true) (v : Option Value) :
    shownAs F (v.map sanitised) = escapeChars true (unescapeChars true (shownAs F v)) := by
  have plain : ∀ v : Option Value, (∀ s, v ≠ some (.str s)) → shownAs F v = escapeChars true (unescapeChars true (shownAs F v)) := by
    intro v hv
    have h := shown_plain F hshow v hv
    rw [unescape_plain (fun ha => (h _ ha).1 rfl), C01_escape_plain _ _ h]
  match v with
  | none => rfl
  | some .null => rfl
  | some (.str s) => exact filterStr_eq s
  | some (.num n) => exact plain (some (.num n)) (by rintro s ⟨⟩)
  | some (.bool b) => exact plain (some (.bool b)) (by rintro s ⟨⟩)
  | some (.arr a) => rfl
  | some (.obj o) =>
    show shownAs F (some (filterValueKeys (.obj (filterValueObj o)))) = _
    unfold filterValueKeys
    split <;> rfl

theorem shown_other (F : F64Ops) (d : Obj) (name : Str) (h : ¬ c!"CONTEXT" <:+: name) :
    shownAs F (resolvePointer (.obj (startData d)) name) = shownAs F (resolvePointer (.obj d) name) := by
  have hget : ∀ k : Str, k <:+: name → Obj.get? k (startData d) = Obj.get? k d := by
    intro k hk
    unfold startData
    exact Obj.get?_insert_ne _ _ (by rintro rfl; exact h hk)
  obtain ⟨l, last, hl, hlast, rfl⟩ := C09_every_name name
  cases l with
  | nil =>
    rw [show nameOf [] last = last from rfl, C09_plain _ _ hlast, C09_plain _ _ hlast, hget last (List.infix_refl _)]
  | cons e r =>
    rw [C09_path _ _ _ hl (by simp) hlast, C09_path _ _ _ hl (by simp) hlast]
    have hmem : ∀ k ∈ ((e :: r).map (fun e => e.1) ++ [last]).filter (fun k => !k.isEmpty), k <:+: nameOf (e :: r) last := by
      intro k hk
      have hk := (List.mem_filter.1 hk).1
      clear hl h hget
      revert hk
      generalize e :: r = l
      induction l with
      | nil => intro hk; simp at hk; subst hk; exact List.infix_refl _
      | cons e l ih =>
        intro hk
        obtain ⟨a, s⟩ := e
        rw [List.map_cons, List.cons_append, List.mem_cons] at hk
        rcases hk with rfl | hk
        · exact ⟨[], sep s ++ nameOf l last, by simp [nameOf]⟩
        · exact (ih hk).trans ⟨a ++ sep s, [], by simp [nameOf]⟩
    cases hks : ((e :: r).map (fun e => e.1) ++ [last]).filter (fun k => !k.isEmpty) with
    | nil => rfl
    | cons k ks =>
      rw [follow_cons, follow_cons]
      show shownAs F ((Obj.get? k (startData d)).bind _) = shownAs F ((Obj.get? k d).bind _)
      rw [hget k (hmem k (by rw [hks]; simp))]

theorem nameOf_arrows (k : Str) (ks : List Str) :
    ∃ (l : List (Str × Bool)) (last : Str), ((k :: ks).intersperse c!"->").flatten = nameOf l last ∧ l.map (fun e => e.1) ++ [last] = k :: ks := by
  induction ks generalizing k with
  | nil => exact ⟨[], k, by simp [nameOf], rfl⟩
  | cons k' ks ih =>
    obtain ⟨l, last, h1, h2⟩ := ih k'
    refine ⟨(k, true) :: l, last, ?_, by rw [List.map_cons, List.cons_append, h2]⟩
    rw [List.intersperse_cons_cons, List.flatten_cons, List.flatten_cons, h1]
    simp [nameOf, sep]

theorem shown_context (F : F64Ops) (hshow : ∀ x, ∀ c ∈ F.show_ x, c ≠ '&' ∧ c ∉ special true) (d : Obj)
    (hwf : (entry d c!"CONTEXT").WF) (ks : List Str) (hks : ∀ k ∈ ks, TextKey k) (hne : ks ≠ []) :
    shownAs F (resolvePointer (.obj (startData d)) ((c!"CONTEXT" :: ks).intersperse c!"->").flatten) =
      escapeChars true (unescapeChars true (shownAs F (resolvePointer (.obj d) ((c!"CONTEXT" :: ks).intersperse c!"->").flatten))) := by
  obtain ⟨l, last, h1, h2⟩ := nameOf_arrows c!"CONTEXT" ks
  have hseg : ∀ k ∈ c!"CONTEXT" :: ks, Segment k := by
    intro k hk
    rcases List.mem_cons.1 hk with rfl | hk
    · exact ⟨by decide, by decide⟩
    · exact ⟨fun h => (hks k hk).plain _ h (by decide), (hks k hk).arrow⟩
  have hl : ∀ e ∈ l, Segment e.1 := fun e he => hseg _ (by rw [← h2]; exact List.mem_append_left _ (List.mem_map_of_mem he))
  have hlast : Segment last := hseg _ (by rw [← h2]; simp)
  have hln : l ≠ [] := by
    rintro rfl
    injection h2 with _ h
    exact hne h.symm
  rw [h1, C09_path _ _ _ hl hln hlast, C09_path _ _ _ hl hln hlast, h2]
  have hf : (c!"CONTEXT" :: ks).filter (fun k => !k.isEmpty) = c!"CONTEXT" :: ks.filter (fun k => !k.isEmpty) := rfl
  rw [hf, follow_cons, follow_cons]
  show shownAs F ((Obj.get? c!"CONTEXT" (startData d)).bind _) = escapeChars true (unescapeChars true (shownAs F ((Obj.get? c!"CONTEXT" d).bind _)))
  have hg : Obj.get? c!"CONTEXT" (startData d) = some (sanitised (entry d c!"CONTEXT")) := by
    unfold startData
    exact Obj.get?_insert_self _ _ _
  rw [hg, Option.bind_some, sanitised_follow _ (fun k hk => hks k (List.mem_filter.1 hk).1) _ hwf, shown_sanitised F hshow]
  unfold entry
  cases Obj.get? c!"CONTEXT" d with
  | none =>
    cases ks.filter (fun k => !k.isEmpty) with
    | nil => rfl
    | cons k r => rfl
  | some v => rfl

/-- What a variable prints: the text of its value in the data as given, filtered once - whether it is request data or not. -/
theorem told_prints (S : Site) (hshow : ∀ x, ∀ c ∈ S.F.show_ x, c ≠ '&' ∧ c ∉ special true) (d : Obj)
    (hwf : (entry d c!"CONTEXT").WF) (amp : Bool) (name : Str) (h : Told S (.var amp name)) (m : Mem) (hm : m.data = startData d) :
    printedAs (amp || S.filterAll) S.sanitize name (shownAs S.F (valueOf m name)) =
      escapeChars true (unescapeChars true (shownAs S.F (resolvePointer (.obj d) name))) := by
  obtain ⟨hloc, h⟩ := h
  unfold valueOf
  rw [if_neg hloc, hm]
  rcases h with ⟨hf, hc⟩ | ⟨ks, hks, hne, rfl⟩
  · have hf' : (amp || S.filterAll) = true := by simpa using hf
    unfold printedAs
    rw [hf', if_pos rfl, if_neg (fun hp => hc (List.IsInfix.trans ⟨[], c!"->", rfl⟩ hp.isInfix)), shown_other _ _ _ hc]
  · have hp : c!"CONTEXT->" <+: ((c!"CONTEXT" :: ks).intersperse c!"->").flatten := by
      cases ks with
      | nil => exact absurd rfl hne
      | cons k r =>
        rw [List.intersperse_cons_cons, List.flatten_cons, List.flatten_cons]
        exact ⟨_, rfl⟩
    rw [shown_context S.F hshow d hwf ks hks hne]
    have hcl := C01_escape_clean true (unescapeChars true (shownAs S.F (resolvePointer (.obj d) ((c!"CONTEXT" :: ks).intersperse c!"->").flatten)))
    have hb : ∀ p : Str, p ∈ [c!"{:", c!":}"] → ¬ p <:+: escapeChars true (unescapeChars true (shownAs S.F (resolvePointer (.obj d) ((c!"CONTEXT" :: ks).intersperse c!"->").flatten))) := by
      intro p hp hi
      have hm : ∀ c ∈ p, _ := fun c hc => hcl.1 c (hi.subset hc)
      rcases List.mem_cons.1 hp with rfl | hp
      · exact hm '{' (by decide) (by decide)
      · rw [List.mem_singleton.1 hp] at hm
        exact hm '}' (by decide) (by decide)
    unfold printedAs
    rw [if_pos hp]
    split
    · rfl
    · split
      · unfold sanitizeBifs
        rw [replaceAll_of_not_infix (by decide) (hb _ (by decide)), replaceAll_of_not_infix (by decide) (hb _ (by decide))]
      · rfl

/-! ### pages -/

/-- Every `&` begins one of the entities. -/
def AmpOk (s : Str) : Prop := ∀ a r, s = a ++ '&' :: r → ∃ e ∈ entities true, e <+: '&' :: r

theorem ampOk_text {t s : Str} (ht : '&' ∉ t) (h : AmpOk s) : AmpOk (t ++ s) := by
  induction t with
  | nil => exact h
  | cons c t ih =>
    intro a r hr
    cases a with
    | nil => injection hr with h1 _; subst h1; simp at ht
    | cons x a => injection hr with _ h1; exact ih (fun hm => ht (by simp [hm])) a r h1

theorem ampOk_escape (u : Str) {s : Str} (h : AmpOk s) : AmpOk (escapeChars true u ++ s) := by
  induction u with
  | nil => exact h
  | cons c u ih =>
    rw [escapeChars_cons, List.append_assoc]
    rcases escapeChar_cases true c with ⟨h1, h2, _⟩ | ⟨e, he, h1, _⟩
    · rw [h1]
      exact ampOk_text (by simpa using Ne.symm h2) ih
    · rw [h1]
      obtain ⟨m, rfl, hm⟩ := entity_shape he
      intro a r hr
      cases a with
      | nil => exact ⟨_, he, by rw [List.nil_append] at hr; rw [← hr]; exact ⟨_, rfl⟩⟩
      | cons x a =>
        have hr' : (m ++ c!";") ++ (escapeChars true u ++ s) = a ++ '&' :: r := by
          simp only [List.cons_append, List.cons.injEq] at hr
          exact hr.2
        refine ampOk_text ?_ ih a r hr'
        intro hc
        rcases List.mem_append.1 hc with hc | hc
        · exact (hm _ hc).1 rfl
        · simp at hc

theorem ampOk_noMark {s : Str} (h : AmpOk s) : ¬ c!"&#9224" <:+: s ∧ ¬ c!"&#0;" <:+: s := by
  constructor
  all_goals
    rintro ⟨a, b, rfl⟩
    obtain ⟨e, he, hp⟩ := h a _ (by rw [List.append_assoc]; rfl)
    have : ∀ e ∈ entities true, ∀ p ∈ [c!"&#9224", c!"&#0;"], (e.isPrefixOf p || p.isPrefixOf e) = false := by decide
    have h2 := this e he
  · have h3 := h2 c!"&#9224" (by decide)
    rw [Bool.or_eq_false_iff] at h3
    rcases List.prefix_or_prefix_of_prefix hp (⟨b, rfl⟩ : c!"&#9224" <+: c!"&#9224" ++ b) with h | h
    · rw [List.isPrefixOf_iff_prefix.2 h] at h3; cases h3.1
    · rw [List.isPrefixOf_iff_prefix.2 h] at h3; cases h3.2
  · have h3 := h2 c!"&#0;" (by decide)
    rw [Bool.or_eq_false_iff] at h3
    rcases List.prefix_or_prefix_of_prefix hp (⟨b, rfl⟩ : c!"&#0;" <+: c!"&#0;" ++ b) with h | h
    · rw [List.isPrefixOf_iff_prefix.2 h] at h3; cases h3.1
    · rw [List.isPrefixOf_iff_prefix.2 h] at h3; cases h3.2

theorem noOpen_append {t s : Str} (ht : ¬ c!"{:" <:+: t) (he : t.getLast? ≠ some '{') (h : ¬ c!"{:" <:+: s) : ¬ c!"{:" <:+: t ++ s := by
  induction t with
  | nil => exact h
  | cons c t ih =>
    intro hi
    rw [List.cons_append, List.infix_cons_iff] at hi
    rcases hi with hp | hi
    · obtain ⟨r, hr⟩ := hp
      injection hr with h1 h2
      subst h1
      cases t with
      | nil => exact he rfl
      | cons x t =>
        injection h2 with h2 _
        subst h2
        exact ht ⟨[], t, rfl⟩
    · refine ih (fun hx => ht (hx.trans (List.suffix_cons c t).isInfix)) ?_ hi
      cases t with
      | nil => intro h; cases h
      | cons x t => rw [← List.getLast?_cons_cons (a := c)]; exact he

theorem escaped_noOpen (u : Str) : ¬ c!"{:" <:+: escapeChars true u ∧ (escapeChars true u).getLast? ≠ some '{' := by
  have hcl := C01_escape_clean true u
  exact ⟨fun h => hcl.1 '{' (h.subset (by decide)) (by decide), fun h => hcl.1 '{' (List.mem_of_getLast? h) (by decide)⟩

/-- The number of the variables. -/
def Spec.variables (l : List Node) : Nat := l.countP (fun x => match x with | .var _ _ => true | _ => false)

theorem told_page (S : Site) (hshow : ∀ x, ∀ c ∈ S.F.show_ x, c ≠ '&' ∧ c ∉ special true) (d : Obj)
    (hwf : (entry d c!"CONTEXT").WF) (l : List Node) (h : ∀ x ∈ l, Told S x) (m : Mem) (hm : m.data = startData d) :
    Displayed S.F d l (meansAll S [] l m).1 ∧ ¬ c!"{:" <:+: (meansAll S [] l m).1 ∧
      (meansAll S [] l m).2.bifs = m.bifs + variables l ∧
      ((∀ t, Node.text t ∈ l → '&' ∉ t) → AmpOk (meansAll S [] l m).1) := by
  induction l generalizing m with
  | nil => exact ⟨.nil, by rintro ⟨a, b, h⟩; simp [meansAll] at h, rfl, fun _ a r hr => by simp [meansAll] at hr⟩
  | cons x l ih =>
    have hx := h x (by simp)
    have hl : ∀ y ∈ l, Told S y := fun y hy => h y (by simp [hy])
    match x, hx with
    | .text t, hx =>
      obtain ⟨h1, h2, h3, h4⟩ := ih hl m hm
      exact ⟨.text h1, noOpen_append hx.1 hx.2 h2, h3.trans (by unfold variables; rw [List.countP_cons]; rfl),
        fun ht => ampOk_text (ht t (by simp)) (h4 fun t' ht' => ht t' (by simp [ht']))⟩
    | .var amp name, hx =>
      obtain ⟨h1, h2, h3, h4⟩ := ih hl ((Node.var amp name).means S [] m).2 hm
      have hp : ((Node.var amp name).means S [] m).1 =
          escapeChars true (trim (unescapeChars true (shownAs S.F (resolvePointer (.obj d) name)))) := by
        rw [← trim_escape, ← told_prints S hshow d hwf amp name hx { m with bifs := m.bifs + 1 } hm]
        rfl
      have e1 : (meansAll S [] (.var amp name :: l) m).1 =
          ((Node.var amp name).means S [] m).1 ++ (meansAll S [] l ((Node.var amp name).means S [] m).2).1 := rfl
      have e2 : (meansAll S [] (.var amp name :: l) m).2 = (meansAll S [] l ((Node.var amp name).means S [] m).2).2 := rfl
      rw [e1, e2, hp]
      refine ⟨.var (C01_escape_shows _ _).1 h1, noOpen_append (escaped_noOpen _).1 (escaped_noOpen _).2 h2, ?_,
        fun ht => ampOk_escape _ (h4 fun t' ht' => ht t' (by simp [ht']))⟩
      rw [h3]
      show m.bifs + 1 + variables l = _
      unfold variables
      rw [List.countP_cons]
      simp only [if_true]
      omega

/-- **C125.** A page of texts and variables that are filtered or request data is the texts as they are and, for each variable, a text
that a browser displays as the text of its value in the data as given: encoded once, whether the value has been sanitised before the
render or not, is marked or not, or already contains character references. -/
theorem C125_render (env : Env) (n : Nat) (w : World) (t : Tpl) (S : Site) (l : List Node) (sh : Shared) (s d defs : Obj)
    (hnew : Shared.new env w t.schema = some sh) (hS : SiteOf env sh S)
    (hok : AllOk S [] l) (hraw : t.raw = printAll l) (hb : c!"{:" <:+: printAll l)
    (hs : t.schema = .obj s) (hd : Obj.get? c!"data" s = some (.obj d))
    (hinh : Obj.get? c!"inherit" s = some (.obj defs)) (hdefs : Defs S defs)
    (hmax : variables l ≤ sh.max) (hwf : (entry d c!"CONTEXT").WF)
    (hshow : ∀ x, ∀ c ∈ S.F.show_ x, c ≠ '&' ∧ c ∉ special true) (htold : ∀ x ∈ l, Told S x) :
    ∃ t' x, t.render env n w = .ok t' ∧ Displayed S.F d l x ∧ t'.out = replacements (trim x) ∧
      t'.statusCode = c!"200" ∧ t'.hasError = false ∧
      ((∀ t, Node.text t ∈ l → '&' ∉ t) → t'.out = trim x) := by
  obtain ⟨h1, h2, h3, h4⟩ := told_page S hshow d hwf l htold (startMem d defs) rfl
  obtain ⟨r, t', rfl, hr, ht, _⟩ := C77_render env n w t S l sh s d defs hnew hS hok hraw hb hs hd hinh hdefs
    (by rw [h3]; show 0 + _ ≤ _; omega)
    (fun h => h2 (List.IsInfix.trans (List.IsInfix.trans ⟨[], c!"!cache;", rfl⟩ h) (trim_infix _)))
  refine ⟨t', _, hr, h1, ht.out, ht.code, ht.noError.1, fun ha => ?_⟩
  obtain ⟨m1, m2⟩ := ampOk_noMark (h4 ha)
  rw [ht.out, C47_unchanged _ (fun h => m1 (h.trans (trim_infix _))) (fun h => m2 (h.trans (trim_infix _)))]

/-- **C125 (data without `&`).** Data without `&` are displayed exactly as they are. -/
theorem C125_exact (F : F64Ops) (d : Obj) (l : List Node) (x : Str) (h : Displayed F d l x)
    (ha : ∀ amp name, Node.var amp name ∈ l → '&' ∉ shownAs F (resolvePointer (.obj d) name)) : DisplayedExact F d l x := by
  induction h with
  | nil => exact .nil
  | text _ ih => exact .text (ih fun a n h => ha a n (by simp [h]))
  | var hy _ ih =>
    rw [unescape_plain (ha _ _ (List.mem_cons_self ..))] at hy
    exact .var hy (ih fun a n h => ha a n (by simp [h]))

/-- **C125 (any state).** At any place of any template: a variable with the filter prints, whatever its value is, a text that a browser
displays as the text of the value and in no other way. -/
theorem C125_bif (env : Env) (n : Nat) (sh : Shared) (inh : Inherit) (mods src only : Str)
    (hm : Mods mods) (hsc : '+' ∉ mods) (hmax : sh.count < sh.max) (hsel : Selected inh mods [] only)
    (hne : trim src ≠ []) (hlit : ¬ c!"{:" <:+: trim src) (hfl : Filtering sh mods) (hctx : ¬ c!"CONTEXT->" <+: trim src) :
    ∃ y, runBif env (runBlocks env n) sh inh (bifText mods [] src) only =
        finish (decide ('^' ∈ mods)) y (counted sh) (entered sh inh) ∧
      Displays y (unescapeChars true (textOf env.f64 (Spec.named (counted sh) (entered sh inh) (trim src)))) ∧
      ∀ z, Displays y z → z = unescapeChars true (textOf env.f64 (Spec.named (counted sh) (entered sh inh) (trim src))) := by
  have h := var_exact env n sh (counted sh) inh (entered sh inh) mods src only (trim src) hm hsc hmax hsel hne (fun h => absurd h hlit)
    (by rw [nested_plain hlit])
  have h2' : startsWith c!"CONTEXT->" (trim src) = false := by rw [← Bool.not_eq_true, startsWith_iff]; exact hctx
  have e : varText (decide (Filtering sh mods)) sh.filterBifs (decide ('!' ∈ mods)) (trim src)
      (textOf env.f64 (Spec.named (counted sh) (entered sh inh) (trim src))) =
      escapeChars true (unescapeChars true (textOf env.f64 (Spec.named (counted sh) (entered sh inh) (trim src)))) := by
    simp [varText, hfl, h2', reescape]
  rw [e] at h
  exact ⟨_, h, C01_escape_shows _ _⟩

theorem index_follow (F : F64Ops) (v : Value) (ks : List Str) :
    shownAs F ((resolveStep v c!"CONTEXT").bind (fun x => follow x ks)) = shownAs F (follow (v.index c!"CONTEXT") ks) := by
  have hnull : shownAs F (follow .null ks) = [] := by cases ks <;> rfl
  cases v with
  | obj o =>
    show shownAs F ((Obj.get? c!"CONTEXT" o).bind _) = shownAs F (follow ((Obj.get? c!"CONTEXT" o).getD .null) ks)
    cases Obj.get? c!"CONTEXT" o with
    | none => exact hnull.symm
    | some v => rfl
  | arr a => exact hnull.symm
  | _ => exact hnull.symm

/-- Below request data, the text of a value is that of the value as given, filtered. -/
theorem shown_request (F : F64Ops) (hshow : ∀ x, ∀ c ∈ F.show_ x, c ≠ '&' ∧ c ∉ special true) (v w : Value)
    (h : w.index c!"CONTEXT" = sanitised (v.index c!"CONTEXT")) (hwf : (v.index c!"CONTEXT").WF)
    (ks : List Str) (hks : ∀ k ∈ ks, TextKey k) (hne : ks ≠ []) :
    shownAs F (resolvePointer w ((c!"CONTEXT" :: ks).intersperse c!"->").flatten) =
      escapeChars true (unescapeChars true (shownAs F (resolvePointer v ((c!"CONTEXT" :: ks).intersperse c!"->").flatten))) := by
  obtain ⟨l, last, h1, h2⟩ := nameOf_arrows c!"CONTEXT" ks
  have hseg : ∀ k ∈ c!"CONTEXT" :: ks, Segment k := by
    intro k hk
    rcases List.mem_cons.1 hk with rfl | hk
    · exact ⟨by decide, by decide⟩
    · exact ⟨fun h => (hks k hk).plain _ h (by decide), (hks k hk).arrow⟩
  have hl : ∀ e ∈ l, Segment e.1 := fun e he => hseg _ (by rw [← h2]; exact List.mem_append_left _ (List.mem_map_of_mem he))
  have hlast : Segment last := hseg _ (by rw [← h2]; simp)
  have hln : l ≠ [] := by
    rintro rfl
    injection h2 with _ h
    exact hne h.symm
  have hf : (c!"CONTEXT" :: ks).filter (fun k => !k.isEmpty) = c!"CONTEXT" :: ks.filter (fun k => !k.isEmpty) := rfl
  rw [h1, C09_path _ _ _ hl hln hlast, C09_path _ _ _ hl hln hlast, h2, hf, follow_cons, follow_cons, index_follow, index_follow, h,
    sanitised_follow _ (fun k hk => hks k (List.mem_filter.1 hk).1) _ hwf, shown_sanitised F hshow]

/-- **C125 (request data, any state).** At any place of any template, as long as the request data are those with which the render
started, a variable in `CONTEXT` prints - filtered or not - a text that a browser displays as the text of the value as the request
gave it, and in no other way. -/
theorem C125_request (env : Env) (n : Nat) (sh sh0 sh1 : Shared) (inh inh1 : Inherit) (mods only file raw raw' : Str) (ks : List Str)
    (hinit : initShared env file raw sh0 = .ok (raw', sh1, inh1))
    (hreq : (sh.schema.index c!"data").index c!"CONTEXT" = (sh1.schema.index c!"data").index c!"CONTEXT")
    (hwf : ((sh0.schema.index c!"data").index c!"CONTEXT").WF)
    (hshow : ∀ x, ∀ c ∈ env.f64.show_ x, c ≠ '&' ∧ c ∉ special true)
    (hks : ∀ k ∈ ks, TextKey k ∧ ∀ c ∈ k, isWs c = false) (hne : ks ≠ [])
    (hm : Mods mods) (hsc : '+' ∉ mods) (hneg : '!' ∈ mods → sh.filterBifs = true)
    (hmax : sh.count < sh.max) (hsel : Selected inh mods [] only) :
    ∃ y, runBif env (runBlocks env n) sh inh (bifText mods [] ((c!"CONTEXT" :: ks).intersperse c!"->").flatten) only =
        finish (decide ('^' ∈ mods)) y (counted sh) (entered sh inh) ∧
      Displays y (unescapeChars true (textOf env.f64 (resolvePointer (sh0.schema.index c!"data") ((c!"CONTEXT" :: ks).intersperse c!"->").flatten))) ∧
      ∀ z, Displays y z → z = unescapeChars true (textOf env.f64 (resolvePointer (sh0.schema.index c!"data") ((c!"CONTEXT" :: ks).intersperse c!"->").flatten)) := by
  obtain ⟨k, r, rfl⟩ := List.exists_cons_of_ne_nil hne
  have hform : ((c!"CONTEXT" :: k :: r).intersperse c!"->").flatten = c!"CONTEXT->" ++ ((k :: r).intersperse c!"->").flatten := by
    rw [List.intersperse_cons_cons, List.flatten_cons, List.flatten_cons]; rfl
  have hchars : ∀ (l : List Str), (∀ k ∈ l, TextKey k ∧ ∀ c ∈ k, isWs c = false) → ∀ c ∈ (l.intersperse c!"->").flatten, isWs c = false ∧ c ≠ '{' := by
    intro l hl c hc
    obtain ⟨x, hx, hcx⟩ := List.mem_flatten.1 hc
    have : x ∈ l ∨ x = c!"->" := by
      clear hl hc
      induction l with
      | nil => cases hx
      | cons a l ih =>
        cases l with
        | nil => exact .inl hx
        | cons b l =>
          rw [List.intersperse_cons_cons, List.mem_cons, List.mem_cons] at hx
          rcases hx with rfl | rfl | hx
          · exact .inl (by simp)
          · exact .inr rfl
          · rcases ih hx with h | h
            · exact .inl (List.mem_cons_of_mem _ h)
            · exact .inr h
    rcases this with h | rfl
    · exact ⟨(hl x h).2 c hcx, fun he => (hl x h).1.plain c hcx (by rw [he]; decide)⟩
    · have : ∀ c ∈ c!"->", isWs c = false ∧ c ≠ '{' := by decide
      exact this c hcx
  generalize hname : ((c!"CONTEXT" :: k :: r).intersperse c!"->").flatten = name at *
  have hn : ∀ c ∈ name, isWs c = false ∧ c ≠ '{' := by
    rw [hform]
    intro c hc
    rcases List.mem_append.1 hc with h | h
    · have : ∀ c ∈ c!"CONTEXT->", isWs c = false ∧ c ≠ '{' := by decide
      exact this c h
    · exact hchars _ hks c h
  have htr : trim name = name := trim_dense fun c hc => (hn c hc).1
  have hlit : ¬ c!"{:" <:+: trim name := by rw [htr]; exact fun h => (hn '{' (h.subset (by decide))).2 rfl
  have hv := var_exact env n sh (counted sh) inh (entered sh inh) mods name only name hm hsc hmax hsel
    (by rw [htr, hform]; exact List.cons_ne_nil _ _) (fun h => absurd h hlit) (by rw [nested_plain hlit, htr])
  have hstart : startsWith c!"CONTEXT->" name = true := startsWith_iff.2 ⟨_, hform.symm⟩
  have hnm : Spec.named (counted sh) (entered sh inh) name = resolvePointer (sh.schema.index c!"data") name := by
    unfold Spec.named
    rw [stripPrefix?_eq_none.2 (by rw [hform]; rintro ⟨z, hz⟩; injection hz with h _; exact absurd h (by decide))]
    rfl
  obtain ⟨s1, s2, i1, i2, i3⟩ := initShared_schema hinit
  have i4 := index_modIndex_self i3
  have i5 := index_modIndex_self i4
  simp only [Option.some.injEq] at i5
  rw [index_setIndex_ne i2 (by decide), index_setIndex_ne i1 (by decide)] at i5
  have htext := shown_request env.f64 hshow (sh0.schema.index c!"data") (sh.schema.index c!"data") (hreq.trans i5.symm) hwf (k :: r)
    (fun x hx => (hks x hx).1) hne
  rw [hname, ← shownAs_eq, ← shownAs_eq] at htext
  rw [hnm, htext] at hv
  generalize unescapeChars true (textOf env.f64 (resolvePointer (sh0.schema.index c!"data") name)) = u at hv ⊢
  have hcl := C01_escape_clean true u
  have hb : ∀ p : Str, p ∈ [c!"{:", c!":}"] → ¬ p <:+: escapeChars true u := by
    intro p hp hi
    have hm : ∀ c ∈ p, _ := fun c hc => hcl.1 c (hi.subset hc)
    rcases List.mem_cons.1 hp with rfl | hp
    · exact hm '{' (by decide) (by decide)
    · rw [List.mem_singleton.1 hp] at hm
      exact hm '}' (by decide) (by decide)
  have e : varText (decide (Filtering sh mods)) sh.filterBifs (decide ('!' ∈ mods)) name (escapeChars true u) = escapeChars true u := by
    have hs : sanitizeBifs (escapeChars true u) = escapeChars true u := by
      unfold sanitizeBifs
      rw [replaceAll_of_not_infix (by decide) (hb _ (by decide)), replaceAll_of_not_infix (by decide) (hb _ (by decide))]
    unfold varText
    rw [hstart, hs]
    have hx : (decide ('!' ∈ mods) && !sh.filterBifs && true) = false := by
      by_cases hh : '!' ∈ mods
      · rw [hneg hh]; simp
      · simp [hh]
    rw [hx]
    simp
  rw [e] at hv
  exact ⟨_, hv, C01_escape_shows _ _⟩

/-- **C125 (clean texts).** Every text without special characters in which `&` only begins entities - such as the texts that filtered
data put into a page at any depth, C78 - is displayed as what it denotes, and in no other way. -/
theorem C125_clean (y : Str) (h : Clean true y) : Displays y (unescapeChars true y) ∧ ∀ z, Displays y z → z = unescapeChars true y := by
  have key : ∀ n (y : Str), y.length ≤ n → Clean true y → Displays y (unescapeGo true none y) := by
    intro n
    induction n with
    | zero =>
      intro y hy _
      rw [List.length_eq_zero_iff.1 (Nat.le_zero.1 hy)]
      exact .nil
    | succ n ih =>
      intro y hy hc
      cases y with
      | nil => exact .nil
      | cons c r =>
        by_cases hca : c = '&'
        · subst hca
          obtain ⟨e, he, s, hs⟩ := hc.2 [] r rfl
          have hcs : Clean true s := by
            rw [← hs] at hc
            exact ⟨fun c hm => hc.1 c (List.mem_append_right _ hm), fun a r hr => hc.2 (e ++ a) r (by rw [hr, List.append_assoc])⟩
          have hlen : s.length ≤ n := by
            have h1 := congrArg List.length hs
            have h2 : 0 < e.length := by
              obtain ⟨m, rfl, _⟩ := entity_shape he
              simp
            simp only [List.length_append, List.length_cons] at h1 hy
            omega
          rw [← hs, unescapeGo_entity he]
          have href : ∀ e ∈ entities true, ∃ c, entityText true e.tail.dropLast true = [c] ∧ (e, c) ∈ references := by
            have : ∀ e ∈ entities true, ∀ p ∈ references, p.1 = e → entityText true e.tail.dropLast true = [p.2] := by decide
            intro e he
            have hex : ∀ e ∈ entities true, ∃ p ∈ references, p.1 = e := by decide
            obtain ⟨p, hp, rfl⟩ := hex e he
            exact ⟨p.2, this _ he p hp rfl, hp⟩
          obtain ⟨c, h1, h2⟩ := href e he
          rw [h1]
          exact .ref e c _ _ h2 (ih s hlen hcs)
        · have hcr : Clean true r := ⟨fun x hm => hc.1 x (List.mem_cons_of_mem _ hm), fun a s hr => hc.2 (c :: a) s (by rw [hr]; rfl)⟩
          have : unescapeGo true none (c :: r) = c :: unescapeGo true none r := by
            simp only [unescapeGo, hca, if_false]
          rw [this]
          exact .char c _ _ hca (ih r (by simpa using hy) hcr)
  have hd : Displays y (unescapeChars true y) := by rw [unescapeChars_eq]; exact key _ y (Nat.le_refl _) h
  exact ⟨hd, fun z hz => shows_unique hz hd⟩

/-! ### cases -/

/-- A page that prints a datum and, twice, a request parameter. -/
def Sample.toldPage : List Node :=
  [.text c!"<p>", .var true c!"x", .text c!"</p>", .var false c!"CONTEXT->q", .text c!"|", .var true c!"CONTEXT->q"]

/-- Data of a visitor who likes markup. -/
def Sample.toldData : Obj := [(c!"x", .str c!"a<b & &lt;"), (c!"CONTEXT", .obj [(c!"q", .str c!" </i>{:exit;:} ")])]

theorem Sample.told : ∀ x ∈ Sample.toldPage, Told Sample.pageSite x := by
  have hctx : TextKey c!"q" := ⟨by decide, by decide, by decide⟩
  have hc : ∀ amp, Told Sample.pageSite (.var amp c!"CONTEXT->q") :=
    fun amp => ⟨by decide, .inr ⟨[c!"q"], fun k hk => List.mem_singleton.1 hk ▸ hctx, by decide, rfl⟩⟩
  intro x hx
  simp only [Sample.toldPage, List.mem_cons, List.not_mem_nil, or_false] at hx
  rcases hx with rfl | rfl | rfl | rfl | rfl | rfl
  · exact ⟨by decide, by decide⟩
  · exact ⟨by decide, .inl ⟨.inl rfl, by decide⟩⟩
  · exact ⟨by decide, by decide⟩
  · exact hc _
  · exact ⟨by decide, by decide⟩
  · exact hc _

set_option maxRecDepth 10000 in
/-- The hypotheses can be met. -/
example : ∃ t' x, (Sample.tpl (Sample.schema 1000 Sample.toldData Sample.pageDefs) (printAll Sample.toldPage)).render Sample.env 10
      Sample.pageWorld = .ok t' ∧ Displayed Sample.pageSite.F Sample.toldData Sample.toldPage x ∧ t'.out = replacements (trim x) ∧
      t'.statusCode = c!"200" ∧ t'.hasError = false ∧ ((∀ t, Node.text t ∈ Sample.toldPage → '&' ∉ t) → t'.out = trim x) :=
  C125_render Sample.env 10 Sample.pageWorld _ Sample.pageSite Sample.toldPage _ _ Sample.toldData Sample.pageDefs rfl
    ⟨rfl, rfl, rfl, rfl, rfl, rfl, Sample.page_file⟩ (by
      simp only [Sample.toldPage, AllOk, Node.Ok, and_true]
      exact ⟨textOk_of (by decide), nameOk_of (by decide), textOk_of (by decide), nameOk_of (by decide), textOk_of (by decide),
        nameOk_of (by decide)⟩) rfl (by decide +kernel) rfl rfl rfl ⟨.inr ⟨_, rfl⟩, rfl, rfl⟩ (by decide +kernel)
    (by simp [entry, Sample.toldData, Obj.get?, Value.WF, Value.WFObj]) Sample.show_clean Sample.told

/-- Right after the start of a render, whatever the request is. -/
example (sh0 sh : Shared) (inh : Inherit) (raw raw' : Str) (hinit : initShared Sample.env [] raw sh0 = .ok (raw', sh, inh))
    (hwf : ((sh0.schema.index c!"data").index c!"CONTEXT").WF) (hmax : sh.count < sh.max) :
    ∃ y, runBif Sample.env (runBlocks Sample.env 5) sh inh c!"{:;CONTEXT->q:}" [] = finish false y (counted sh) (entered sh inh) ∧
      Displays y (unescapeChars true (textOf Sample.env.f64 (resolvePointer (sh0.schema.index c!"data") c!"CONTEXT->q"))) := by
  obtain ⟨y, h1, h2, _⟩ := C125_request Sample.env 5 sh sh0 sh inh inh [] [] [] raw raw' [c!"q"] hinit rfl hwf Sample.show_clean
    (fun k hk => by rw [List.mem_singleton.1 hk]; exact ⟨⟨by decide, by decide, by decide⟩, by decide⟩) (by decide)
    (by unfold Mods; simp) (by decide) (fun h => by cases h) hmax (.inl rfl)
  exact ⟨y, h1, h2⟩

set_option maxRecDepth 10000 in
/-- The page. -/
example : (Sample.outOf (Sample.go Sample.toldData (printAll Sample.toldPage))).map (·.1) =
    some c!"<p>a&lt;b &amp; &amp;lt;</p>&lt;&#x2F;i&gt;&#123;:exit;:&#125;|&lt;&#x2F;i&gt;&#123;:exit;:&#125;" := by
  decide +kernel

set_option maxRecDepth 10000 in
/-- **C125 (the premises are needed).** A datum that is not filtered is read as HTML; a request parameter whose name has special
characters is found only under the name as it is stored, encoded. -/
theorem C125_premises_needed :
    Sample.outOf (Sample.go [(c!"x", .str c!"a<b")] c!"{:;x:}") = some (c!"a<b", c!"200") ∧
    (∀ t, ¬ Displays c!"&lt" t) ∧
    Sample.outOf (Sample.go [(c!"x", .str c!"&lt")] c!"{:;x:}") = some (c!"&lt", c!"200") ∧
    Sample.outOf (Sample.go [(c!"CONTEXT", .obj [(c!"a<", .str c!"1")])] c!"[{:;CONTEXT->a<:}]") = some (c!"[]", c!"200") ∧
    Sample.outOf (Sample.go [(c!"CONTEXT", .obj [(c!"a<", .str c!"1")])] c!"[{:;CONTEXT->a&lt;:}]") = some (c!"[1]", c!"200") := by
  refine ⟨by decide +kernel, ?_, by decide +kernel, by decide +kernel, by decide +kernel⟩
  intro t h
  generalize hs : c!"&lt" = s at h
  cases h with
  | nil => cases hs
  | char c s t hc _ => injection hs with h1 _; exact hc h1.symm
  | ref e c s t he _ =>
    have : ∀ p ∈ references, p.1.isPrefixOf c!"&lt" = false := by decide
    have h2 := this _ he
    rw [List.isPrefixOf_iff_prefix.2 (hs ▸ ⟨s, rfl⟩)] at h2
    cases h2

end Nts
