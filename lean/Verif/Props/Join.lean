import Verif.Props.EvalBif
import Verif.Props.Text
/-
C59: join.
-/
set_option autoImplicit false
namespace Nts
open Spec

/-- A key that can be written in the name given to `join`. -/
def Spec.PlainKey (k : Str) : Prop := Segment k ∧ '~' ∉ k ∧ ¬ c!"local::" <:+: k

/-- `Reaches v ks w`: following the keys `ks` one by one from `v` leads to `w`. -/
inductive Spec.Reaches : Value → List Str → Value → Prop
  | here (v : Value) : Reaches v [] v
  | key {o : Obj} {k : Str} {ks : List Str} {x w : Value} : Obj.get? k o = some x → Reaches x ks w →
      Reaches (.obj o) (k :: ks) w
  | index {a : List Value} {i : Nat} {ks : List Str} {x w : Value} : i < 2 ^ 64 → a[i]? = some x → Reaches x ks w →
      Reaches (.arr a) (showNat i :: ks) w

/-- The text of a value of an object. -/
inductive Spec.ItemText (env : Env) : Value → Str → Prop
  | str (s : Str) : ItemText env (.str s) s
  | int (i : Int) : ItemText env (.num (.int i)) (showInt i)
  | flt (x : Nat) : ItemText env (.num (.flt x)) (env.f64.show_ x)
  | bTrue : ItemText env (.bool true) c!"true"
  | bFalse : ItemText env (.bool false) c!"false"
  | null : ItemText env .null c!"null"
  | arr (a : List Value) : ItemText env (.arr a) []
  | obj (o : Obj) : ItemText env (.obj o) []

/-- The items `join` prints: the keys, the texts of the values of an object, the texts in an array. -/
inductive Spec.Items (env : Env) : Bool → Value → List Str → Prop
  | objKeys (o : Obj) : Items env true (.obj o) (o.map (fun kv => kv.1))
  | objVals (o : Obj) (l : List Str) : l.length = o.length →
      (∀ (i : Nat) (kv : Str × Value) (x : Str), o[i]? = some kv → l[i]? = some x → ItemText env kv.2 x) →
      Items env false (.obj o) l
  | arrKeys (a : List Value) (l : List Str) : l.length = a.length → (∀ (i : Nat) (x : Str), l[i]? = some x → x = showNat i) →
      Items env true (.arr a) l
  | arrStrs (l : List Str) : Items env false (.arr (l.map .str)) l

/-! ### the name -/

theorem joinStr_separated (sep : Str) (l : List Str) : joinStr sep l = separated sep l := by
  induction l with
  | nil => rfl
  | cons a r ih =>
    cases r with
    | nil => simp [joinStr, separated]
    | cons b r =>
      simp only [joinStr, ih, separated, List.intersperse, List.flatten_cons, List.append_assoc]

theorem replGo_slash {k : Str} (h : ¬ c!"->" <:+: k) (rest : Str) :
    replGo c!"->" c!"/" 0 (k ++ '/' :: rest) = k ++ '/' :: replGo c!"->" c!"/" 0 rest := by
  induction k with
  | nil =>
    rw [List.nil_append, replGo_nomatch]
    · rfl
    · rintro ⟨t, ht⟩
      simp at ht
  | cons c k ih =>
    rw [List.infix_cons_iff] at h
    rw [List.cons_append, replGo_nomatch, ih (fun h' => h (.inr h'))]
    · rfl
    · rintro ⟨t, ht⟩
      apply h
      left
      cases k with
      | nil => simp at ht
      | cons d k =>
        simp only [List.cons_append, List.nil_append, List.cons.injEq] at ht
        exact ⟨k, by rw [← ht.1, ← ht.2.1]; rfl⟩

theorem replGo_arrow {k : Str} (h : ¬ c!"->" <:+: k) (rest : Str) :
    replGo c!"->" c!"/" 0 (k ++ (c!"->" ++ rest)) = k ++ '/' :: replGo c!"->" c!"/" 0 rest := by
  induction k with
  | nil =>
    rw [List.nil_append, replGo_match _ _ _ (by simp)]
    rfl
  | cons c k ih =>
    rw [List.infix_cons_iff] at h
    rw [List.cons_append, replGo_nomatch, ih (fun h' => h (.inr h'))]
    · rfl
    · rintro ⟨t, ht⟩
      apply h
      left
      cases k with
      | nil => simp at ht
      | cons d k =>
        simp only [List.cons_append, List.nil_append, List.cons.injEq] at ht
        exact ⟨k, by rw [← ht.1, ← ht.2.1]; rfl⟩

theorem replGo_nameOf (l : List (Str × Bool)) (last : Str) (hl : ∀ e ∈ l, Segment e.1) (hlast : Segment last) :
    replGo c!"->" c!"/" 0 (nameOf l last) = joinStr c!"/" (l.map (fun e => e.1) ++ [last]) := by
  induction l with
  | nil =>
    have := replaceAll_of_not_infix (t := c!"/") (f := c!"->") (by simp) hlast.2
    unfold replaceAll at this
    rw [if_neg (by simp)] at this
    simpa [nameOf, joinStr] using this
  | cons e r ih =>
    obtain ⟨k, s⟩ := e
    have hk := hl (k, s) (by simp)
    have hr := ih (fun e he => hl e (List.mem_cons_of_mem _ he))
    have hj : joinStr c!"/" (((k, s) :: r).map (fun e => e.1) ++ [last]) =
        k ++ '/' :: joinStr c!"/" (r.map (fun e => e.1) ++ [last]) := by
      cases r with
      | nil => simp [joinStr]
      | cons e r => simp [joinStr]
    rw [hj, ← hr]
    cases s with
    | false =>
      simp only [nameOf, sep, Bool.false_eq_true, if_false, List.append_assoc, List.cons_append, List.nil_append]
      exact replGo_slash hk.2 _
    | true =>
      simp only [nameOf, sep, if_true, List.append_assoc]
      exact replGo_arrow hk.2 _

theorem splitCharGo_append (d : Char) (acc k rest : Str) (h : d ∉ k) :
    splitCharGo d acc (k ++ rest) = splitCharGo d (k.reverse ++ acc) rest := by
  induction k generalizing acc with
  | nil => rfl
  | cons c k ih =>
    have hc : c ≠ d := by rintro rfl; simp at h
    rw [List.cons_append, splitCharGo, if_neg hc, ih _ (fun h' => h (List.mem_cons_of_mem _ h'))]
    simp

theorem splitChar_join (l : List Str) (hne : l ≠ []) (h : ∀ k ∈ l, '/' ∉ k) : splitChar '/' (joinStr c!"/" l) = l := by
  induction l with
  | nil => exact absurd rfl hne
  | cons a r ih =>
    unfold splitChar at *
    cases r with
    | nil =>
      have := splitCharGo_append '/' [] a [] (h a (by simp))
      simp only [List.append_nil] at this
      simp [joinStr, this, splitCharGo]
    | cons b r =>
      simp only [joinStr, List.append_assoc]
      rw [splitCharGo_append '/' [] a _ (h a (by simp))]
      simp only [List.cons_append, List.nil_append, splitCharGo, if_true, List.append_nil, List.reverse_reverse]
      rw [ih (by simp) (fun k hk => h k (List.mem_cons_of_mem _ hk))]

theorem splitChar_slash (l : List Str) (hne : l ≠ []) (h : ∀ k ∈ l, '/' ∉ k) :
    splitChar '/' ('/' :: joinStr c!"/" l) = [] :: l := by
  have := splitChar_join l hne h
  unfold splitChar at *
  rw [splitCharGo, if_pos rfl, this]
  rfl

theorem tilde_id {k : Str} (h : '~' ∉ k) : replaceAll c!"~0" c!"~" (replaceAll c!"~1" c!"/" k) = k := by
  have h1 : ¬ c!"~1" <:+: k := fun ⟨a, b, hab⟩ => h (by rw [← hab]; simp)
  have h0 : ¬ c!"~0" <:+: k := fun ⟨a, b, hab⟩ => h (by rw [← hab]; simp)
  rw [replaceAll_of_not_infix (by simp) h1, replaceAll_of_not_infix (by simp) h0]

theorem digitsGo_head (f n : Nat) (acc : Str) (h : n < 10 ^ f) (hn : 0 < n) : ∀ r, digitsGo f n acc ≠ '0' :: r := by
  have hd : ∀ m : Fin 10, m.1 ≠ 0 → digitChar m.1 ≠ '0' := by decide
  induction f generalizing n acc with
  | zero => simp at h; omega
  | succ f ih =>
    intro r
    simp only [digitsGo]
    split
    · intro he
      injection he with h1 _
      have hlt : n < 10 := by omega
      exact hd ⟨n % 10, by omega⟩ (by simp only; omega) h1
    · exact ih (n / 10) _ (by rw [Nat.pow_succ] at h; omega) (by omega) r

theorem pointerIndex_showNat (i : Nat) (hi : i < 2 ^ 64) : pointerIndex (showNat i) = some i := by
  unfold pointerIndex
  rw [if_neg]
  · exact parseU64_showNat i hi
  · rw [Bool.or_eq_true, Bool.and_eq_true, startsWith_iff, startsWith_iff]
    rintro (⟨r, hr⟩ | ⟨⟨r, hr⟩, hlen⟩)
    · have := showNat_digits i '+' (by rw [← hr]; simp)
      revert this; decide
    · rcases Nat.eq_zero_or_pos i with rfl | h0
      · revert hlen; decide
      · exact digitsGo_head (i + 1) i [] (lt_pow_succ i) h0 r hr.symm

theorem reaches_fold {v w : Value} {ks : List Str} (h : Reaches v ks w) (hk : ∀ k ∈ ks, '~' ∉ k) :
    ks.foldl (fun cur tok => cur.bind (fun c => pointerStep c (replaceAll c!"~0" c!"~" (replaceAll c!"~1" c!"/" tok))))
      (some v) = some w := by
  induction h with
  | here v => rfl
  | key h1 _ ih =>
    rw [List.foldl_cons, Option.bind_some, tilde_id (hk _ (by simp))]
    simp only [pointerStep, h1]
    exact ih (fun k hk' => hk k (List.mem_cons_of_mem _ hk'))
  | index hi h1 _ ih =>
    rw [List.foldl_cons, Option.bind_some, tilde_id (hk _ (by simp))]
    simp only [pointerStep, pointerIndex_showNat _ hi, Option.bind_some, h1]
    exact ih (fun k hk' => hk k (List.mem_cons_of_mem _ hk'))

theorem pointer_reaches {v w : Value} {ks : List Str} (hne : ks ≠ []) (h : Reaches v ks w)
    (hs : ∀ k ∈ ks, '/' ∉ k) (hk : ∀ k ∈ ks, '~' ∉ k) : v.pointer ('/' :: joinStr c!"/" ks) = some w := by
  unfold Value.pointer
  rw [if_neg (by simp), if_neg (by simp [startsWith_iff]), splitChar_slash ks hne hs]
  exact reaches_fold h hk

theorem pointerIndex_canonical {k : Str} {i : Nat} (h : pointerIndex k = some i) : k = showNat i ∧ i < 2 ^ 64 := by
  unfold pointerIndex at h
  split at h
  · exact absurd h (by simp)
  · rename_i hc
    rw [Bool.or_eq_true, Bool.and_eq_true, startsWith_iff, startsWith_iff, decide_eq_true_eq, not_or] at hc
    unfold parseU64 at h
    dsimp only at h
    cases k with
    | nil => exact absurd h (by simp [parseNat1])
    | cons c k =>
      dsimp only at h
      rw [if_neg (by rintro rfl; exact hc.1 ⟨k, rfl⟩)] at h
      cases hp : parseNat1 (c :: k) with
      | none => rw [hp] at h; exact absurd h (by simp)
      | some n =>
        rw [hp] at h
        dsimp only at h
        split at h
        · injection h with h
          subst h
          exact ⟨parse_canonical hp hc.2, by assumption⟩
        · exact absurd h (by simp)

theorem fold_none (ks : List Str) :
    ks.foldl (fun (cur : Option Value) tok => cur.bind (fun c => pointerStep c (replaceAll c!"~0" c!"~" (replaceAll c!"~1" c!"/" tok))))
      none = none := by
  induction ks with
  | nil => rfl
  | cons k ks ih => exact ih

theorem fold_reaches {ks : List Str} (hk : ∀ k ∈ ks, '~' ∉ k) : ∀ {v w : Value},
    ks.foldl (fun cur tok => cur.bind (fun c => pointerStep c (replaceAll c!"~0" c!"~" (replaceAll c!"~1" c!"/" tok))))
      (some v) = some w → Reaches v ks w := by
  induction ks with
  | nil =>
    intro v w h
    injection h with h
    subst h
    exact .here v
  | cons k ks ih =>
    intro v w h
    rw [List.foldl_cons, Option.bind_some, tilde_id (hk _ (by simp))] at h
    cases hs : pointerStep v k with
    | none => rw [hs, fold_none] at h; exact absurd h (by simp)
    | some x =>
      rw [hs] at h
      have hr := ih (fun k hk' => hk k (List.mem_cons_of_mem _ hk')) h
      cases v with
      | obj o => exact .key hs hr
      | arr a =>
        simp only [pointerStep] at hs
        cases hp : pointerIndex k with
        | none => rw [hp] at hs; exact absurd hs (by simp)
        | some i =>
          rw [hp] at hs
          obtain ⟨h1, h2⟩ := pointerIndex_canonical hp
          rw [h1]
          exact .index h2 hs hr
      | null => exact absurd hs (by simp [pointerStep])
      | bool b => exact absurd hs (by simp [pointerStep])
      | num b => exact absurd hs (by simp [pointerStep])
      | str b => exact absurd hs (by simp [pointerStep])

theorem pointer_unreached {v : Value} {ks : List Str} (hne : ks ≠ []) (h : ∀ w, ¬ Reaches v ks w)
    (hs : ∀ k ∈ ks, '/' ∉ k) (hk : ∀ k ∈ ks, '~' ∉ k) : v.pointer ('/' :: joinStr c!"/" ks) = none := by
  unfold Value.pointer
  rw [if_neg (by simp), if_neg (by simp [startsWith_iff]), splitChar_slash ks hne hs]
  generalize hx : List.foldl _ _ _ = x
  cases x with
  | none => rfl
  | some w => exact absurd (fold_reaches hk hx) (h w)

theorem infix_sep {p a b : Str} {d : Char} (hd : d ∉ p) (h : p <:+: a ++ d :: b) : p <:+: a ∨ p <:+: b := by
  induction a with
  | nil =>
    rw [List.nil_append, List.infix_cons_iff] at h
    rcases h with ⟨t, ht⟩ | h
    · cases p with
      | nil => exact .inl List.infix_rfl
      | cons c p =>
        simp only [List.cons_append, List.cons.injEq] at ht
        exact absurd (by rw [ht.1]; simp) hd
    · exact .inr h
  | cons c a ih =>
    rw [List.cons_append, List.infix_cons_iff] at h
    rcases h with ⟨t, ht⟩ | h
    · left
      have hpre : p <+: c :: a := by
        rcases List.append_eq_append_iff.1 (show p ++ t = (c :: a) ++ d :: b from ht) with ⟨x, h1, h2⟩ | ⟨x, h1, h2⟩
        · exact ⟨x, h1.symm⟩
        · cases x with
          | nil => exact ⟨[], by simpa using h1⟩
          | cons e x =>
            simp only [List.cons_append, List.cons.injEq] at h2
            exact absurd (by rw [h1, h2.1]; simp) hd
      exact hpre.isInfix
    · rcases ih h with h | h
      · exact .inl (h.trans (List.suffix_cons c a).isInfix)
      · exact .inr h

theorem infix_joinStr {p : Str} (hd : '/' ∉ p) (l : List Str) (hne : p ≠ []) (h : p <:+: joinStr c!"/" l) :
    ∃ k ∈ l, p <:+: k := by
  induction l with
  | nil => exact absurd (List.infix_nil.1 h) hne
  | cons a r ih =>
    cases r with
    | nil => exact ⟨a, by simp, h⟩
    | cons b r =>
      simp only [joinStr, List.append_assoc, List.cons_append, List.nil_append] at h
      rcases infix_sep hd h with h | h
      · exact ⟨a, by simp, h⟩
      · obtain ⟨k, hk, h'⟩ := ih h
        exact ⟨k, List.mem_cons_of_mem _ hk, h'⟩

theorem nomatch_arrow {c : Char} (hc : c ≠ '-') (s : Str) :
    replGo c!"->" c!"/" 0 (c :: s) = c :: replGo c!"->" c!"/" 0 s :=
  replGo_nomatch _ _ _ _ (by
    rintro ⟨t, ht⟩
    injection ht with h1 _
    exact hc h1.symm)

/-- The storage `join` reads from: the local data of the block, or the data of the application. -/
def Spec.dataFor (sh : Shared) (inh : Inherit) (loc : Bool) : Value :=
  if loc then (sh.getIndir inh.indir).index c!"data" else sh.schema.index c!"data"

/-- The name of the collection `keys` in that storage. -/
def Spec.collName (loc : Bool) (l : List (Str × Bool)) (last : Str) : Str :=
  (if loc then c!"local::" else []) ++ nameOf l last

/-- What a name leads to, if anything. -/
def Spec.LeadsTo (v : Value) (ks : List Str) (x : Option Value) : Prop :=
  match x with
  | some w => Reaches v ks w
  | none => ∀ w, ¬ Reaches v ks w

theorem join_lookup (s : St) (loc : Bool) (l : List (Str × Bool)) (last : Str) (v : Option Value)
    (hl : ∀ e ∈ l, PlainKey e.1) (hlast : PlainKey last)
    (hv : LeadsTo (dataFor s.sh s.inh loc) (l.map (fun e => e.1) ++ [last]) v) :
    (if startsWith c!"/local::" (replaceAll c!"->" c!"/" (c!"/" ++ collName loc l last)) = true then
      (localDataOf s).pointer (replaceAll c!"/local::" c!"/" (replaceAll c!"->" c!"/" (c!"/" ++ collName loc l last)))
    else (dataOf s).pointer (replaceAll c!"->" c!"/" (c!"/" ++ collName loc l last))) = v := by
  have hseg : ∀ e ∈ l, Segment e.1 := fun e he => (hl e he).1
  have hkeys : ∀ k ∈ l.map (fun e => e.1) ++ [last], PlainKey k := by
    intro k hk
    rw [List.mem_append, List.mem_map, List.mem_singleton] at hk
    rcases hk with ⟨e, he, rfl⟩ | rfl
    · exact hl e he
    · exact hlast
  have hp : (dataFor s.sh s.inh loc).pointer ('/' :: joinStr c!"/" (l.map (fun e => e.1) ++ [last])) = v := by
    cases v with
    | some v => exact pointer_reaches (by simp) hv (fun k hk => (hkeys k hk).1.1) (fun k hk => (hkeys k hk).2.1)
    | none => exact pointer_unreached (by simp) hv (fun k hk => (hkeys k hk).1.1) (fun k hk => (hkeys k hk).2.1)
  have hrep := replGo_nameOf l last hseg hlast.1
  generalize hJ : joinStr c!"/" (l.map (fun e => e.1) ++ [last]) = J at *
  have hnl : ¬ c!"local::" <:+: J := by
    intro h
    rw [← hJ] at h
    obtain ⟨k, hk, h'⟩ := infix_joinStr (by decide) _ (by decide) h
    exact (hkeys k hk).2.2 h'
  cases loc with
  | false =>
    have hn : replaceAll c!"->" c!"/" (c!"/" ++ collName false l last) = '/' :: J := by
      unfold replaceAll
      rw [if_neg (by simp), ← hrep]
      exact nomatch_arrow (by decide) _
    rw [hn, if_neg]
    · exact hp
    · rw [startsWith_iff]
      rintro ⟨t, ht⟩
      simp only [List.cons_append, List.nil_append, List.cons.injEq, true_and] at ht
      exact hnl ⟨[], t, by rw [← ht]; rfl⟩
  | true =>
    have hn : replaceAll c!"->" c!"/" (c!"/" ++ collName true l last) = c!"/local::" ++ J := by
      unfold replaceAll
      rw [if_neg (by simp), ← hrep]
      simp only [collName, if_true, List.cons_append, List.nil_append]
      rw [nomatch_arrow (by decide), nomatch_arrow (by decide), nomatch_arrow (by decide), nomatch_arrow (by decide),
        nomatch_arrow (by decide), nomatch_arrow (by decide), nomatch_arrow (by decide), nomatch_arrow (by decide)]
    have hr : replaceAll c!"/local::" c!"/" (c!"/local::" ++ J) = '/' :: J := by
      have hni : ¬ c!"/local::" <:+: J := by
        intro h
        exact hnl (List.IsInfix.trans ⟨c!"/", [], rfl⟩ h)
      have := replaceAll_of_not_infix (t := c!"/") (f := c!"/local::") (by simp) hni
      unfold replaceAll at this ⊢
      rw [if_neg (by simp)] at this ⊢
      rw [replGo_match _ _ _ (by simp), this]
      rfl
    rw [hn, if_pos (by rw [startsWith_iff]; exact ⟨J, rfl⟩), hr]
    exact hp

theorem joinValue_items {env : Env} {keys : Bool} {v : Value} {l : List Str} (h : Items env keys v l) (sep : Str) :
    joinValue env keys sep v = separated sep l := by
  rw [← joinStr_separated]
  cases h with
  | objKeys o => rfl
  | objVals o _ hlen hx =>
    simp only [joinValue, Bool.false_eq_true, if_false]
    congr 1
    apply List.ext_getElem?
    intro i
    rw [List.getElem?_map]
    cases h1 : o[i]? with
    | none =>
      rw [List.getElem?_eq_none_iff] at h1
      rw [Option.map_none, eq_comm, List.getElem?_eq_none_iff]; omega
    | some kv =>
      obtain ⟨h2, _⟩ := List.getElem?_eq_some_iff.1 h1
      have h3 : l[i]? = some (l[i]'(by omega)) := List.getElem?_eq_getElem _
      rw [h3, Option.map_some]
      congr 1
      have := hx i kv _ h1 h3
      revert this
      generalize l[i]'(by omega) = x
      generalize kv.2 = w
      intro this
      cases this <;> rfl
  | arrKeys a _ hlen hx =>
    simp only [joinValue, if_true]
    congr 1
    apply List.ext_getElem?
    intro i
    rw [List.getElem?_map]
    by_cases hi : i < a.length
    · rw [List.getElem?_range hi, Option.map_some]
      have h3 : l[i]? = some (l[i]'(by omega)) := List.getElem?_eq_getElem _
      rw [h3, hx i _ h3]
    · rw [List.getElem?_eq_none_iff.2 (by simpa using hi), List.getElem?_eq_none_iff.2 (by omega)]
      rfl
  | arrStrs =>
    simp only [joinValue, Bool.false_eq_true, if_false, List.map_map]
    congr 1
    exact (List.map_congr_left (fun _ _ => rfl)).trans (List.map_id l)

theorem named_join : Named c!"join" := by
  refine ⟨by decide, ?_⟩
  intro c r hc
  injection hc with h1 h2
  subst h1
  decide

theorem join_run (env : Env) (R : Rec) (sh sh1 : Shared) (inh inh1 : Inherit) (mods src only r pre sep last : Str)
    (d : Char) (more : List Str) (loc keys : Bool) (l : List (Str × Bool)) (v : Option Value)
    (hm : Mods mods) (hf : '&' ∉ mods) (hneg : '!' ∉ mods) (hsc : '+' ∉ mods) (hmax : sh.count < sh.max)
    (hsel : Selected inh mods c!"join" only) (hsrc : trim src = d :: r)
    (hargs : ArgsGive R c!"join" only (splitChar d (d :: r)) (counted sh) (entered sh inh)
      (pre :: collName loc l last :: sep :: more) sh1 inh1)
    (hl : ∀ e ∈ l, PlainKey e.1) (hlast : PlainKey last)
    (hkeys : keys = true ↔ ∃ k, more.head? = some k ∧ k ≠ [] ∧ k ≠ c!"false" ∧ k ≠ c!"0")
    (hv : LeadsTo (dataFor sh1 inh1 loc) (l.map (fun e => e.1) ++ [last]) v) :
    runBif env R sh inh (bifText mods c!"join" src) only =
      finish (decide ('^' ∈ mods)) (v.elim [] (joinValue env keys sep)) sh1 inh1 := by
  rw [runBif_text env R sh inh mods c!"join" src only hm named_join hmax hsel]
  have hbody : bifBody env c!"join" = bifJoin env := rfl
  rw [hbody]
  unfold bifJoin
  simp only [run_bind, run_denyMods]
  rw [if_neg (by simp [start, hsc, hf, hneg])]
  simp only [andThen_ok, run_modB]
  rw [run_extractArgs R hargs _ hsrc rfl rfl rfl rfl rfl rfl]
  simp only [andThen_ok, run_argReq, List.getElem?_cons_succ, List.getElem?_cons_zero, run_getSt]
  have hk : argTruthy (argOpt (pre :: collName loc l last :: sep :: more) 3) = keys := by
    have : argOpt (pre :: collName loc l last :: sep :: more) 3 = more.head?.getD [] := by
      cases more <;> rfl
    rw [this]
    rw [Bool.eq_iff_iff, hkeys]
    unfold argTruthy
    cases more with
    | nil => simp
    | cons k more =>
      simp only [List.head?_cons, Option.getD_some, Bool.not_eq_true', Bool.or_eq_false_iff, Option.some.injEq,
        exists_eq_left']
      exact ⟨fun h => ⟨of_decide_eq_false h.1.1, of_decide_eq_false h.1.2, of_decide_eq_false h.2⟩,
        fun h => ⟨⟨decide_eq_false h.1, decide_eq_false h.2.1⟩, decide_eq_false h.2.2⟩⟩
  have hlook := join_lookup ⟨sh1, inh1, { (start sh inh mods c!"join" src only).b with
    params := (start sh inh mods c!"join" src only).b.src }, (start sh inh mods c!"join" src only).raw,
    (start sh inh mods c!"join" src only).only⟩ loc l last v hl hlast hv
  rw [hk, hlook]
  simp only [run_setOut]
  cases v <;> rfl

/-- **C59.** `{:join; /name/separator/keys/ :}` prints the elements of the named collection (its keys, when the third
argument is given and is not `false` or `0`), in order, with the separator between them.
Missing from the full statement: elements of arrays that are not texts are printed as empty texts (`C59_refuted`), and
names with `~`. -/
theorem C59_join_partial (env : Env) (R : Rec) (sh sh1 : Shared) (inh inh1 : Inherit) (mods src only r pre sep last : Str)
    (d : Char) (more : List Str) (loc keys : Bool) (l : List (Str × Bool)) (v : Value) (items : List Str)
    (hm : Mods mods) (hf : '&' ∉ mods) (hneg : '!' ∉ mods) (hsc : '+' ∉ mods) (hmax : sh.count < sh.max)
    (hsel : Selected inh mods c!"join" only) (hsrc : trim src = d :: r)
    (hargs : ArgsGive R c!"join" only (splitChar d (d :: r)) (counted sh) (entered sh inh)
      (pre :: collName loc l last :: sep :: more) sh1 inh1)
    (hl : ∀ e ∈ l, PlainKey e.1) (hlast : PlainKey last)
    (hkeys : keys = true ↔ ∃ k, more.head? = some k ∧ k ≠ [] ∧ k ≠ c!"false" ∧ k ≠ c!"0")
    (hv : Reaches (dataFor sh1 inh1 loc) (l.map (fun e => e.1) ++ [last]) v) (hitems : Items env keys v items) :
    runBif env R sh inh (bifText mods c!"join" src) only =
      finish (decide ('^' ∈ mods)) (separated sep items) sh1 inh1 := by
  rw [join_run env R sh sh1 inh inh1 mods src only r pre sep last d more loc keys l (some v) hm hf hneg hsc hmax hsel hsrc hargs
    hl hlast hkeys hv]
  simp only [Option.elim_some]
  rw [joinValue_items hitems]

/-- What is shown between the separators, for every collection: elements of an array that are not texts are shown as empty texts. -/
inductive Spec.Shows (env : Env) : Bool → Value → List Str → Prop
  | items {keys : Bool} {v : Value} {l : List Str} : Items env keys v l → Shows env keys v l
  | arr (a : List Value) (l : List Str) : l.length = a.length →
      (∀ (i : Nat) (v : Value) (x : Str), a[i]? = some v → l[i]? = some x → v = .str x ∨ (∀ s, v ≠ .str s) ∧ x = []) →
      Shows env false (.arr a) l

/-- Something that has no elements. -/
def Spec.NoColl (v : Value) : Prop := (∀ a, v ≠ .arr a) ∧ ∀ o, v ≠ .obj o

theorem joinValue_shows {env : Env} {keys : Bool} {v : Value} {l : List Str} (h : Shows env keys v l) (sep : Str) :
    joinValue env keys sep v = separated sep l := by
  cases h with
  | items h => exact joinValue_items h sep
  | arr a l hlen hx =>
    rw [← joinStr_separated]
    simp only [joinValue, Bool.false_eq_true, if_false]
    congr 1
    apply List.ext_getElem?
    intro i
    rw [List.getElem?_map]
    cases h1 : a[i]? with
    | none =>
      rw [List.getElem?_eq_none_iff] at h1
      rw [Option.map_none, eq_comm, List.getElem?_eq_none_iff]; omega
    | some w =>
      obtain ⟨h2, _⟩ := List.getElem?_eq_some_iff.1 h1
      have h3 : l[i]? = some (l[i]'(by omega)) := List.getElem?_eq_getElem _
      rw [h3, Option.map_some]
      congr 1
      rcases hx i w _ h1 h3 with h | ⟨h, h'⟩
      · rw [h]; rfl
      · rw [h']
        cases w with
        | str s => exact absurd rfl (h s)
        | _ => rfl

/-- Every collection shows something. -/
theorem shows_total (env : Env) (keys : Bool) (v : Value) (h : ¬ NoColl v) : ∃ l, Shows env keys v l := by
  cases v with
  | arr a =>
    cases keys with
    | true =>
      refine ⟨(List.range a.length).map showNat, .items (.arrKeys a _ (by simp) ?_)⟩
      intro i x hx
      rw [List.getElem?_map] at hx
      cases hi : (List.range a.length)[i]? with
      | none => rw [hi] at hx; exact absurd hx (by simp)
      | some j =>
        rw [hi] at hx
        rw [List.getElem?_eq_some_iff] at hi
        obtain ⟨_, hi⟩ := hi
        rw [List.getElem_range] at hi
        injection hx with hx
        rw [← hx, hi]
    | false =>
      refine ⟨a.map (fun v => (v.asStr?).getD []), .arr a _ (by simp) ?_⟩
      intro i v x hv hx
      rw [List.getElem?_map, hv] at hx
      injection hx with hx
      cases v with
      | str s => left; rw [← hx]; rfl
      | _ => right; exact ⟨(fun _ h => nomatch h), hx.symm⟩
  | obj o =>
    cases keys with
    | true => exact ⟨_, .items (.objKeys o)⟩
    | false =>
      refine ⟨o.map (fun kv => joinText env kv.2), .items (.objVals o _ (by simp) ?_)⟩
      intro i kv x hv hx
      rw [List.getElem?_map, hv] at hx
      injection hx with hx
      subst hx
      show ItemText env kv.2 (joinText env kv.2)
      generalize kv.2 = w
      cases w with
      | num n => cases n <;> constructor
      | bool b => cases b <;> constructor
      | _ => constructor
  | _ => exact absurd ⟨(fun _ h => nomatch h), (fun _ h => nomatch h)⟩ h

/-- **C59 (exactly).** What `join` prints for every name without `~`, whatever the data: the elements of the collection the name leads
to, in order and separated, where the elements of an array that are not texts count as empty texts; nothing when the name leads to
nothing, or to something that has no elements. -/
theorem C59_exact (env : Env) (R : Rec) (sh sh1 : Shared) (inh inh1 : Inherit) (mods src only r pre sep last : Str)
    (d : Char) (more : List Str) (loc keys : Bool) (l : List (Str × Bool))
    (hm : Mods mods) (hf : '&' ∉ mods) (hneg : '!' ∉ mods) (hsc : '+' ∉ mods) (hmax : sh.count < sh.max)
    (hsel : Selected inh mods c!"join" only) (hsrc : trim src = d :: r)
    (hargs : ArgsGive R c!"join" only (splitChar d (d :: r)) (counted sh) (entered sh inh)
      (pre :: collName loc l last :: sep :: more) sh1 inh1)
    (hl : ∀ e ∈ l, PlainKey e.1) (hlast : PlainKey last)
    (hkeys : keys = true ↔ ∃ k, more.head? = some k ∧ k ≠ [] ∧ k ≠ c!"false" ∧ k ≠ c!"0") :
    ∃ out, runBif env R sh inh (bifText mods c!"join" src) only = finish (decide ('^' ∈ mods)) out sh1 inh1 ∧
      (∀ v, Reaches (dataFor sh1 inh1 loc) (l.map (fun e => e.1) ++ [last]) v → ¬ NoColl v →
        (∃ items, Shows env keys v items) ∧ ∀ items, Shows env keys v items → out = separated sep items) ∧
      ((∀ v, Reaches (dataFor sh1 inh1 loc) (l.map (fun e => e.1) ++ [last]) v → NoColl v) → out = []) := by
  have hfun : ∀ (ks : List Str) (v a b : Value), Reaches v ks a → Reaches v ks b → a = b := by
    intro ks
    induction ks with
    | nil => intro v a b h1 h2; cases h1; cases h2; rfl
    | cons k ks ih =>
      intro v a b h1 h2
      cases v with
      | obj o =>
        cases h1 with
        | key e1 r1 =>
          cases h2 with
          | key e2 r2 =>
            rw [e1] at e2
            injection e2 with e2
            subst e2
            exact ih _ _ _ r1 r2
      | arr x =>
        generalize hk : k = k' at h2
        cases h1 with
        | index i1 e1 r1 =>
          cases h2 with
          | index i2 e2 r2 =>
            have := showNat_inj hk
            subst this
            rw [e1] at e2
            injection e2 with e2
            subst e2
            exact ih _ _ _ r1 r2
      | _ => cases h1
  by_cases hex : ∃ v, Reaches (dataFor sh1 inh1 loc) (l.map (fun e => e.1) ++ [last]) v
  · obtain ⟨v, hv⟩ := hex
    refine ⟨_, join_run env R sh sh1 inh inh1 mods src only r pre sep last d more loc keys l (some v) hm hf hneg hsc hmax hsel hsrc
      hargs hl hlast hkeys hv, ?_, ?_⟩
    · intro w hw hn
      have := hfun _ _ _ _ hv hw
      subst this
      exact ⟨shows_total env keys v hn, fun items hi => joinValue_shows hi sep⟩
    · intro h
      obtain ⟨h1, h2⟩ := h v hv
      cases v with
      | arr a => exact absurd rfl (h1 a)
      | obj o => exact absurd rfl (h2 o)
      | _ => rfl
  · refine ⟨_, join_run env R sh sh1 inh inh1 mods src only r pre sep last d more loc keys l none hm hf hneg hsc hmax hsel hsrc
      hargs hl hlast hkeys (fun w hw => hex ⟨w, hw⟩), ?_, ?_⟩
    · intro w hw
      exact absurd ⟨w, hw⟩ hex
    · intro _; rfl

set_option maxRecDepth 10000 in
/-- **C59: the full statement is false.** The numbers of an array are not printed. -/
theorem C59_refuted :
    Sample.outOf (Sample.go [(c!"a", .arr [.num (.int 1), .num (.int 2), .num (.int 3)])] c!"[{:join; /a/,/ :}]") =
      some (c!"[,,]", c!"200") := by
  decide +kernel

set_option maxRecDepth 10000 in
/-- Other cases of `C59_exact`: elements that are not texts, a value without elements, a name that leads to nothing. -/
example : Sample.outOf (Sample.go [(c!"a", .arr [.str c!"x", .null, .arr [], .str c!"y"]), (c!"t", .str c!"text")]
    c!"[{:join; /a/, / :}][{:join; /t/,/ :}][{:join; /none/,/ :}][{:join; |a->7|,| :}]") =
      some (c!"[x, , , y][][][]", c!"200") := by
  decide +kernel

set_option maxRecDepth 10000 in
/-- The premises are met: an array of texts, an object and its keys, a path. -/
example : Sample.outOf (Sample.go [(c!"a", .arr [.str c!"x", .str c!"y"]),
      (c!"o", .obj [(c!"k", .num (.int 1)), (c!"l", .bool true), (c!"m", .arr [.str c!"z", .str c!"w"])])]
    c!"[{:join; /a/, / :}][{:join; /o/-/ :}][{:join; /o/-/1/ :}][{:join; /a/-/1/ :}][{:join; |o->m|,| :}]") =
      some (c!"[x, y][1-true-][k-l-m][0-1][z,w]", c!"200") := by
  decide +kernel

end Nts
