import Verif.Spec.LangUse
import Verif.Props.Lang
/-
C78-C81: what follows from the meaning of templates (C77) for all of them.
-/
set_option autoImplicit false
namespace Nts
open Spec

/-! ### C79: variables are restored -/

theorem entry_insert (d : Obj) (j k : Str) (v : Value) : entry (Obj.insert j v d) k = if j = k then v else entry d k := by
  unfold entry
  by_cases h : j = k
  · subst h
    rw [if_pos rfl, Obj.get?_insert_self]
    rfl
  · rw [if_neg h, Obj.get?_insert_ne _ _ h]

/-- The value of the entry `k` of the data before and after are related. -/
def Keeps (R : Value → Value → Prop) (k : Str) (run : Mem → Str × Mem) : Prop := ∀ m, R (entry m.data k) (entry (run m).2.data k)

/-- What the relation has to be. -/
structure Steady (R : Value → Value → Prop) (F : F64Ops) (k : Str) (cs : List Str) : Prop where
  refl : ∀ v, R v v
  trans : ∀ u v w, R u v → R v w → R u w
  counter : k ∈ cs → ∀ m : Mem, R (entry m.data k) (.str (shownAs F (valueOf m k)))

theorem Steady.sub {R : Value → Value → Prop} {F : F64Ops} {k : Str} {cs cs' : List Str} (h : Steady R F k cs) (hs : k ∈ cs' → k ∈ cs) :
    Steady R F k cs' := ⟨h.refl, h.trans, fun hk => h.counter (hs hk)⟩

theorem keeps_block {R : Value → Value → Prop} {k : Str} {plus : Bool} {run : Mem → Str × Mem} (h : Keeps R k run) :
    Keeps R k (blockOf plus run) := fun m => h m

theorem keeps_arg {R : Value → Value → Prop} (hr : ∀ v, R v v) {k t : Str} {run : Mem → Str × Mem} (h : Keeps R k run) : Keeps R k (argOf t run) := by
  intro m
  unfold argOf
  split
  · exact h m
  · exact hr _

theorem keeps_bif {R : Value → Value → Prop} (hr : ∀ v, R v v) {k al : Str} {run : Mem → Str × Mem} (h : Keeps R k run) : Keeps R k (bifOf al run) := by
  intro m
  unfold bifOf
  split
  · exact hr _
  · exact h { m with bifs := m.bifs + 1 }

theorem keeps_setAll {k : Str} : ∀ (vs : List (Str × Value)) (d : Obj), (∀ kv ∈ vs, kv.1 ≠ k) → entry (setAll vs d) k = entry d k
  | [], _, _ => rfl
  | (j, v) :: vs, d, h => by
    simp only [setAll]
    rw [keeps_setAll vs _ (fun kv hk => h kv (by simp [hk])), entry_insert, if_neg (h (j, v) (by simp))]

theorem keeps_loop {R : Value → Value → Prop} {F : F64Ops} {k : Str} {cs : List Str} (hR : Steady R F k cs) {plus : Bool} {run : Mem → Str × Mem}
    (h : Keeps R k run) : ∀ (l : List (List (Str × Value))) (m : Mem),
    (∀ vs ∈ l, ∀ kv ∈ vs, kv.1 ≠ k) → R (entry m.data k) (entry (loopOf plus run l m).2.data k)
  | [], _, _ => hR.refl _
  | vs :: l, m, hl => by
    simp only [loopOf]
    have h1 := keeps_loop hR (plus := plus) h l (blockOf plus run { m with data := setAll vs m.data }).2 (fun vs hv => hl vs (by simp [hv]))
    have h2 := keeps_block (plus := plus) h { m with data := setAll vs m.data }
    simp only at h2
    rw [keeps_setAll _ _ (hl vs (by simp))] at h2
    exact hR.trans _ _ _ h2 h1

theorem effect_data (k : Leaf) (m : Mem) : (k.effect m).data = m.data := by cases k <;> rfl

mutual
theorem keeps_node (R : Value → Value → Prop) (S : Site) (k : Str) : ∀ (x : Node) (al : Str), Steady R S.F k x.counters → Keeps R k (x.means S al)
  | .text t, al, h => fun m => by simp only [Node.means]; exact h.refl _
  | .var amp name, al, h => fun m => by
    simp only [Node.means]
    exact keeps_bif h.refl (fun m => h.refl _) m
  | .cond neg plus kind name body, al, h => fun m => by
    simp only [Node.counters] at h
    simp only [Node.means]
    refine keeps_bif h.refl (fun m => ?_) m
    split
    · exact h.refl _
    · exact keeps_block (keeps_all R S k body kind h) m
  | .cmp neg plus kind a b body, al, h => fun m => by
    simp only [Node.counters] at h
    simp only [Node.means]
    refine keeps_bif h.refl (fun m => ?_) m
    have h1 := keeps_arg h.refl (t := printAll a) (keeps_all R S k a kind (h.sub (fun hk => by simp [hk]))) m
    have h2 := keeps_arg h.refl (t := printAll b) (keeps_all R S k b kind (h.sub (fun hk => by simp [hk]))) (argOf (printAll a) (meansAll S kind a) m).2
    split
    · exact h.trans _ _ _ h1 h2
    · exact h.trans _ _ _ (h.trans _ _ _ h1 h2) (keeps_block (keeps_all R S k body kind (h.sub (fun hk => by simp [hk]))) _)
  | .els neg plus body, al, h => fun m => by
    simp only [Node.counters] at h
    simp only [Node.means]
    refine keeps_bif h.refl (fun m => ?_) m
    split
    · exact keeps_block (keeps_all R S k body _ h) m
    · exact h.refl _
  | .coalesce plus body, al, h => fun m => by
    simp only [Node.counters] at h
    simp only [Node.means]
    exact keeps_bif h.refl (fun m => keeps_block (keeps_all R S k body _ h) { m with lastC := false }) m
  | .code plus body, al, h => fun m => by
    simp only [Node.counters] at h
    simp only [Node.means]
    exact keeps_bif h.refl (keeps_block (keeps_all R S k body _ h)) m
  | .each plus coll key val body, al, h => fun m => by
    simp only [Node.counters] at h
    simp only [Node.means]
    refine keeps_bif h.refl (fun m => ?_) m
    simp only [entry_insert]
    by_cases h1 : val = k
    · rw [if_pos h1, h1]; exact h.refl _
    · rw [if_neg h1]
      by_cases h2 : key = k
      · rw [if_pos h2, h2]; exact h.refl _
      · rw [if_neg h2]
        refine keeps_loop h (keeps_all R S k body _ h) _ m ?_
        intro vs hvs kv hkv
        obtain ⟨e, _, rfl⟩ := List.mem_map.1 hvs
        simp only [List.mem_cons, List.not_mem_nil, or_false] at hkv
        rcases hkv with rfl | rfl
        · exact h2
        · exact h1
  | .range plus v a b body, al, h => fun m => by
    simp only [Node.counters] at h
    simp only [Node.means]
    refine keeps_bif h.refl (fun m => ?_) m
    simp only [entry_insert]
    by_cases h1 : v = k
    · rw [if_pos h1, h1]
      exact h.counter (by simp [h1]) m
    · rw [if_neg h1]
      refine keeps_loop h (keeps_all R S k body _ (h.sub (fun hk => by simp [hk]))) _ m ?_
      intro vs hvs kv hkv
      obtain ⟨e, _, rfl⟩ := List.mem_map.1 hvs
      simp only [List.mem_cons, List.not_mem_nil, or_false] at hkv
      subst hkv
      exact h1
  | .param name, al, h => fun m => by
    simp only [Node.means]
    exact keeps_bif h.refl (fun m => h.refl _) m
  | .setParam name body, al, h => fun m => by
    simp only [Node.counters] at h
    simp only [Node.means]
    refine keeps_bif h.refl (fun m => ?_) m
    exact keeps_all R S k body c!"param" h m
  | .trans neg body, al, h => fun m => by
    simp only [Node.counters] at h
    simp only [Node.means]
    refine keeps_bif h.refl (fun m => ?_) m
    exact keeps_all R S k body c!"trans" h m
  | .incl path body, al, h => fun m => by
    simp only [Node.counters] at h
    simp only [Node.means]
    exact keeps_bif h.refl (keeps_block (keeps_all R S k body c!"include" h)) m
  | .snippet kind name body, al, h => fun m => by
    simp only [Node.counters] at h
    simp only [Node.means]
    exact keeps_bif h.refl (keeps_block (keeps_all R S k body c!"snippet" h)) m
  | .leaf k', al, h => fun m => by
    simp only [Node.means]
    refine keeps_bif h.refl (fun m => ?_) m
    rw [effect_data]
    exact h.refl _
  | .replace a b body, al, h => fun m => by
    simp only [Node.counters] at h
    simp only [Node.means]
    refine keeps_bif h.refl (fun m => ?_) m
    have h1 := keeps_arg h.refl (t := printAll a) (keeps_all R S k a c!"replace" (h.sub (fun hk => by simp [hk]))) m
    have h2 := keeps_arg h.refl (t := printAll b) (keeps_all R S k b c!"replace" (h.sub (fun hk => by simp [hk])))
      (argOf (printAll a) (meansAll S c!"replace" a) m).2
    exact h.trans _ _ _ (h.trans _ _ _ h1 h2) (keeps_block (plus := false) (keeps_all R S k body c!"replace" (h.sub (fun hk => by simp [hk]))) _)
  | .allow neg name body, al, h => fun m => by
    simp only [Node.counters] at h
    simp only [Node.means]
    refine keeps_bif h.refl (fun m => ?_) m
    exact keeps_all R S k body c!"allow" h m
  | .eval neg plus test body, al, h => fun m => by
    simp only [Node.counters] at h
    simp only [Node.means]
    refine keeps_bif h.refl (fun m => ?_) m
    have h1 := keeps_block (plus := plus) (keeps_all R S k test c!"eval" (h.sub (fun hk => by simp [hk]))) m
    split
    · split
      · simp only [entry_insert]
        by_cases hk : c!"__eval__" = k
        · rw [if_pos hk]
          refine h.trans _ _ _ h1 ?_
          rw [hk]
          exact h.counter (by simp [hk]) _
        · rw [if_neg hk]
          refine h.trans _ _ _ h1 ?_
          have h2 := keeps_block (plus := plus) (keeps_all R S k body c!"eval" (h.sub (fun hk => by simp [hk])))
            { (blockOf plus (meansAll S c!"eval" test) m).2 with
              data := Obj.insert c!"__eval__" (.str (blockOf plus (meansAll S c!"eval" test) m).1)
                (blockOf plus (meansAll S c!"eval" test) m).2.data }
          rw [entry_insert, if_neg hk] at h2
          exact h2
      · exact h1
    · exact h1
  | .hash body, al, h => fun m => by
    simp only [Node.counters] at h
    simp only [Node.means]
    refine keeps_bif h.refl (fun m => ?_) m
    exact keeps_all R S k body c!"hash" h m
theorem keeps_all (R : Value → Value → Prop) (S : Site) (k : Str) : ∀ (l : List Node) (al : Str), Steady R S.F k (countersAll l) →
    Keeps R k (meansAll S al l)
  | [], al, h => fun m => by simp only [meansAll]; exact h.refl _
  | x :: l, al, h => fun m => by
    simp only [countersAll] at h
    simp only [meansAll]
    exact h.trans _ _ _ (keeps_node R S k x al (h.sub (fun hk => by simp [hk])) m) (keeps_all R S k l al (h.sub (fun hk => by simp [hk])) _)
end

theorem stay_all (S : Site) (k : Str) (l : List Node) (al : Str) (h : k ∉ countersAll l) (m : Mem) :
    entry (meansAll S al l m).2.data k = entry m.data k :=
  (keeps_all (fun u v => u = v) S k l al ⟨fun _ => rfl, fun _ _ _ => Eq.trans, fun hk => absurd hk h⟩ m).symm

/-! ### C78: what the output is made of -/

theorem dropWhile_nil {w : Str} : List.dropWhile isWs w = [] ↔ Blank w := by
  induction w with
  | nil => exact ⟨fun _ => fun _ h => by simp at h, fun _ => rfl⟩
  | cons c w ih =>
    rw [List.dropWhile_cons]
    split
    · next hc =>
      rw [ih]
      refine ⟨fun h x hx => ?_, fun h x hx => h x (List.mem_cons_of_mem _ hx)⟩
      rcases List.mem_cons.1 hx with rfl | hx
      · exact hc
      · exact h x hx
    · next hc =>
      refine ⟨fun h => by simp at h, fun h => absurd (h c (by simp)) hc⟩

theorem built_append {T : Str → Prop} {x y : Str} (h : MadeOf T x) (h' : MadeOf T y) : MadeOf T (x ++ y) := by
  induction h with
  | nil => exact h'
  | text h1 h2 h3 _ ih => rw [List.append_assoc]; exact .text h1 h2 h3 ih
  | clean h1 _ ih => rw [List.append_assoc]; exact .clean h1 ih

theorem clean_after {a s : Str} (h : Clean true (a ++ s)) : Clean true s :=
  ⟨fun c hc => h.1 c (by simp [hc]), fun x r hr => h.2 (a ++ x) r (by rw [hr]; simp)⟩

theorem entity_noWs {e : Str} (he : e ∈ entities true) : ∀ c ∈ e, isWs c = false := by
  revert e
  decide

theorem clean_before {s b : Str} (hb : Blank b) (h : Clean true (s ++ b)) : Clean true s := by
  refine ⟨fun c hc => h.1 c (by simp [hc]), fun x r hr => ?_⟩
  obtain ⟨e, he, hp⟩ := h.2 x (r ++ b) (by rw [hr]; simp)
  refine ⟨e, he, ?_⟩
  have hp' : e <+: ('&' :: r) ++ b := hp
  by_cases hl : e.length ≤ ('&' :: r).length
  · exact List.prefix_of_prefix_length_le hp' (List.prefix_append _ _) hl
  · exfalso
    obtain ⟨u, hu⟩ := List.prefix_of_prefix_length_le (List.prefix_append ('&' :: r) b) hp' (by omega)
    obtain ⟨z, hz⟩ := hp'
    rw [← hu, List.append_assoc] at hz
    have hz := List.append_cancel_left hz
    cases u with
    | nil => rw [List.append_nil] at hu; rw [hu] at hl; exact hl (Nat.le_refl _)
    | cons c u =>
      have h1 := entity_noWs he c (by rw [← hu]; simp)
      have h2 := hb c (by rw [← hz]; simp)
      rw [h1] at h2
      exact absurd h2 (by decide)

open Classical in
theorem trimStart_append (w s : Str) : trimStart (w ++ s) = if Blank w then trimStart s else trimStart w ++ s := by
  unfold trimStart
  rw [List.dropWhile_append]
  by_cases h : Blank w
  · rw [if_pos h]
    have : List.dropWhile isWs w = [] := by rw [dropWhile_nil]; exact h
    rw [this]
    rfl
  · rw [if_neg h]
    have : List.dropWhile isWs w ≠ [] := by rw [Ne, dropWhile_nil]; exact h
    rw [if_neg (by simpa using this)]

open Classical in
theorem trimEnd_append (w s : Str) : trimEnd (w ++ s) = if Blank s then trimEnd w else w ++ trimEnd s := by
  unfold trimEnd
  rw [List.reverse_append, List.dropWhile_append]
  by_cases h : Blank s
  · rw [if_pos h]
    have : List.dropWhile isWs s.reverse = [] := by rw [dropWhile_nil]; intro c hc; exact h c (by simpa using hc)
    rw [this]
    rfl
  · rw [if_neg h]
    have : List.dropWhile isWs s.reverse ≠ [] := by
      rw [Ne, dropWhile_nil]
      intro hx
      exact h (fun c hc => hx c (by simpa using hc))
    rw [if_neg (by simpa using this), List.reverse_append, List.reverse_reverse]

theorem built_trimStart {T : Str → Prop} {s : Str} (h : MadeOf T s) : MadeOf T (trimStart s) := by
  induction h with
  | nil => exact .nil
  | @text a w b out h1 h2 h3 h4 ih =>
    rw [trimStart_append]
    split
    · exact ih
    · obtain ⟨u, hu, hub⟩ := trimStart_eq w
      refine .text (a := a ++ u) (b := b) ?_ ?_ h3 h4
      · rw [hu] at h1
        simpa using h1
      · intro c hc
        rcases List.mem_append.1 hc with hc | hc
        · exact h2 c hc
        · exact hub c hc
  | @clean x out h1 h2 ih =>
    rw [trimStart_append]
    split
    · exact ih
    · obtain ⟨u, hu, hub⟩ := trimStart_eq x
      rw [hu] at h1
      exact .clean (clean_after h1) h2

theorem built_trimEnd {T : Str → Prop} {s : Str} (h : MadeOf T s) : MadeOf T (trimEnd s) := by
  induction h with
  | nil => exact .nil
  | @text a w b out h1 h2 h3 h4 ih =>
    rw [trimEnd_append]
    split
    · obtain ⟨u, hu, hub⟩ := trimEnd_eq w
      have := MadeOf.text (T := T) (a := a) (w := trimEnd w) (b := u ++ b) (out := []) ?_ h2 ?_ .nil
      · simpa using this
      · rw [hu] at h1
        simpa using h1
      · intro c hc
        rcases List.mem_append.1 hc with hc | hc
        · exact hub c hc
        · exact h3 c hc
    · exact .text h1 h2 h3 ih
  | @clean x out h1 h2 ih =>
    rw [trimEnd_append]
    split
    · obtain ⟨u, hu, hub⟩ := trimEnd_eq x
      rw [hu] at h1
      have := MadeOf.clean (T := T) (clean_before hub h1) .nil
      simpa using this
    · exact .clean h1 ih

theorem built_trim {T : Str → Prop} {s : Str} (h : MadeOf T s) : MadeOf T (trim s) := built_trimEnd (built_trimStart h)

theorem built_clean {T : Str → Prop} {x : Str} (h : Clean true x) : MadeOf T x := by
  have := MadeOf.clean (T := T) h .nil
  simpa using this

theorem built_text {T : Str → Prop} {x : Str} (h : T x) : MadeOf T x := by
  have := MadeOf.text (T := T) (a := []) (w := x) (b := []) (out := []) (by simpa using h) (by simp) (by simp) .nil
  simpa using this

theorem resolvePointer_below {v w : Value} {k : Str} (h : resolvePointer v k = some w) : Below v w := by
  obtain ⟨l, last, h1, h2, rfl⟩ := C09_every_name k
  by_cases hl : l = []
  · subst hl
    have e : nameOf [] last = last := rfl
    rw [e] at h
    unfold resolvePointer at h
    have h3 : contains c!"->" last = false := (contains_false_iff (by simp)).2 h2.2
    have h4 : contains c!"/" last = false := (contains_false_iff (by simp)).2 (by
      rintro ⟨a, b, hab⟩; exact h2.1 (by rw [← hab]; simp))
    rw [h3, h4] at h
    simp only [Bool.not_false, Bool.and_self, if_true] at h
    cases v with
    | obj o => exact .obj (Obj.get?_mem h) (.here _)
    | _ => simp [Value.get?] at h
  · rw [C09_path _ _ _ h1 hl h2] at h
    exact follow_below h

/-- What holds of the data and the definitions while a filtered template is evaluated. -/
structure Guarded (S : Site) (T : Str → Prop) (loc : Value) (m : Mem) : Prop where
  ctx : ∀ w, Below (entry m.data c!"CONTEXT") w → Clean true (shownAs S.F (some w))
  params : ∀ w, Below (entry m.defs c!"params") w → MadeOf T (shownAs S.F (some w))
  locale : entry m.defs c!"locale" = loc

/-- The output is made of the texts, and the data and the definitions stay guarded. -/
def Makes (S : Site) (T : Str → Prop) (loc : Value) (run : Mem → Str × Mem) : Prop :=
  ∀ m, Guarded S T loc m → MadeOf T (run m).1 ∧ Guarded S T loc (run m).2

theorem makes_block {S : Site} {T : Str → Prop} {loc : Value} {plus : Bool} {run : Mem → Str × Mem} (h : Makes S T loc run) :
    Makes S T loc (blockOf plus run) := by
  intro m hm
  obtain ⟨h1, h2⟩ := h m hm
  refine ⟨built_trim h1, h2.ctx, ?_, ?_⟩
  · cases plus
    · exact hm.params
    · exact h2.params
  · cases plus
    · exact hm.locale
    · exact h2.locale

theorem makes_bif {S : Site} {T : Str → Prop} {loc : Value} {al : Str} {run : Mem → Str × Mem} (h : Makes S T loc run) :
    Makes S T loc (bifOf al run) := by
  intro m hm
  unfold bifOf
  split
  · exact ⟨.nil, hm⟩
  · obtain ⟨h1, h2⟩ := h { m with bifs := m.bifs + 1 } ⟨hm.ctx, hm.params, hm.locale⟩
    exact ⟨built_trim h1, h2.ctx, h2.params, h2.locale⟩

theorem Guarded.data {S : Site} {T : Str → Prop} {loc : Value} {m : Mem} (h : Guarded S T loc m) {d : Obj}
    (hd : entry d c!"CONTEXT" = entry m.data c!"CONTEXT") : Guarded S T loc { m with data := d } :=
  ⟨fun w hw => h.ctx w (by rw [← hd]; exact hw), h.params, h.locale⟩

theorem makes_loop {S : Site} {T : Str → Prop} {loc : Value} {plus : Bool} {run : Mem → Str × Mem} (h : Makes S T loc run) :
    ∀ (l : List (List (Str × Value))) (m : Mem), (∀ vs ∈ l, ∀ kv ∈ vs, kv.1 ≠ c!"CONTEXT") → Guarded S T loc m →
    MadeOf T (loopOf plus run l m).1 ∧ Guarded S T loc (loopOf plus run l m).2
  | [], m, _, hm => ⟨.nil, hm⟩
  | vs :: l, m, hl, hm => by
    simp only [loopOf]
    obtain ⟨h1, h2⟩ := makes_block (plus := plus) h { m with data := setAll vs m.data }
      (hm.data (keeps_setAll _ _ (hl vs (by simp))))
    obtain ⟨h3, h4⟩ := makes_loop h l _ (fun vs hv => hl vs (by simp [hv])) h2
    exact ⟨built_append h1 h3, h4⟩

theorem counters_binds_aux {k : Str} {a b c d : List Str} (h1 : k ∈ a → k ∈ b) (h2 : k ∈ c → k ∈ d) : k ∈ a ++ c → k ∈ b ++ d := by
  intro h
  rcases List.mem_append.1 h with h | h
  · exact List.mem_append.2 (.inl (h1 h))
  · exact List.mem_append.2 (.inr (h2 h))

mutual
theorem counters_binds (k : Str) : ∀ x : Node, k ∈ x.counters → k ∈ x.binds
  | .text _, h | .var _ _, h | .param _, h | .leaf _, h => by simp [Node.counters] at h
  | .cond _ _ _ _ body, h => by simp only [Node.counters] at h; simp only [Node.binds]; exact counters_bindsAll k body h
  | .cmp _ _ _ a b body, h => by
    simp only [Node.counters] at h
    simp only [Node.binds]
    exact counters_binds_aux (counters_bindsAll k a) (counters_binds_aux (counters_bindsAll k b) (counters_bindsAll k body)) h
  | .els _ _ body, h => by simp only [Node.counters] at h; simp only [Node.binds]; exact counters_bindsAll k body h
  | .coalesce _ body, h => by simp only [Node.counters] at h; simp only [Node.binds]; exact counters_bindsAll k body h
  | .code _ body, h => by simp only [Node.counters] at h; simp only [Node.binds]; exact counters_bindsAll k body h
  | .each _ _ _ _ body, h => by
    simp only [Node.counters] at h
    simp only [Node.binds]
    exact List.mem_cons_of_mem _ (List.mem_cons_of_mem _ (counters_bindsAll k body h))
  | .range _ v _ _ body, h => by
    simp only [Node.counters, List.mem_cons] at h
    simp only [Node.binds, List.mem_cons]
    exact h.imp id (counters_bindsAll k body)
  | .setParam _ body, h => by simp only [Node.counters] at h; simp only [Node.binds]; exact counters_bindsAll k body h
  | .trans _ body, h => by simp only [Node.counters] at h; simp only [Node.binds]; exact counters_bindsAll k body h
  | .incl _ body, h => by simp only [Node.counters] at h; simp only [Node.binds]; exact counters_bindsAll k body h
  | .snippet _ _ body, h => by simp only [Node.counters] at h; simp only [Node.binds]; exact counters_bindsAll k body h
  | .replace a b body, h => by
    simp only [Node.counters] at h
    simp only [Node.binds]
    exact counters_binds_aux (counters_bindsAll k a) (counters_binds_aux (counters_bindsAll k b) (counters_bindsAll k body)) h
  | .allow _ _ body, h => by simp only [Node.counters] at h; simp only [Node.binds]; exact counters_bindsAll k body h
  | .eval _ _ test body, h => by
    simp only [Node.counters, List.mem_cons] at h
    simp only [Node.binds, List.mem_cons]
    exact h.imp id (counters_binds_aux (counters_bindsAll k test) (counters_bindsAll k body))
  | .hash body, h => by simp only [Node.counters] at h; simp only [Node.binds]; exact counters_bindsAll k body h
theorem counters_bindsAll (k : Str) : ∀ l : List Node, k ∈ countersAll l → k ∈ bindsAll l
  | [], h => by simp [countersAll] at h
  | x :: l, h => by
    simp only [countersAll] at h
    simp only [bindsAll]
    exact counters_binds_aux (counters_binds k x) (counters_bindsAll k l) h
end

/-- An argument of a comparison: only the data can change. -/
theorem guarded_arg {S : Site} {T : Str → Prop} {loc : Value} {al : Str} {a : List Node} {m : Mem} (h : c!"CONTEXT" ∉ bindsAll a)
    (hm : Guarded S T loc m) : Guarded S T loc (argOf (printAll a) (meansAll S al a) m).2 := by
  unfold argOf
  split
  · have := stay_all S c!"CONTEXT" a al (fun hx => h (counters_bindsAll _ a hx)) m
    exact ⟨fun w hw => hm.ctx w (by rw [← this]; exact hw), hm.params, hm.locale⟩
  · exact hm

theorem below_insert {k : Str} {v w : Value} {o : Obj} (h : Below (.obj (Obj.insert k v o)) w) :
    w = .obj (Obj.insert k v o) ∨ Below v w ∨ ∃ e ∈ o, Below e.2 w := by
  rcases below_obj h with rfl | ⟨e, he, hw⟩
  · exact .inl rfl
  · right
    have : e.2 = v ∨ e ∈ o := by
      clear hw h
      induction o with
      | nil => simp [Obj.insert] at he; left; rw [he]
      | cons x o ih =>
        obtain ⟨j, y⟩ := x
        simp only [Obj.insert] at he
        split at he
        · rcases List.mem_cons.1 he with rfl | he
          · left; rfl
          · right; simp [he]
        · rcases List.mem_cons.1 he with rfl | he
          · right; simp
          · rcases ih he with h | h
            · exact .inl h
            · right; simp [h]
    rcases this with h | h
    · left; rw [← h]; exact hw
    · exact .inr ⟨e, h, hw⟩

theorem built_param {S : Site} {T : Str → Prop} {m : Mem} {name t : Str} (ht : MadeOf T t)
    (hm : ∀ w, Below (entry m.defs c!"params") w → MadeOf T (shownAs S.F (some w))) :
    ∀ w, Below (.obj (Obj.insert name (.str t) (paramsOf m))) w → MadeOf T (shownAs S.F (some w)) := by
  intro w hw
  rcases below_insert hw with rfl | h | ⟨e, he, h⟩
  · exact .nil
  · cases h
    exact ht
  · unfold paramsOf at he
    split at he
    · next o ho =>
      refine hm w ?_
      rw [ho]
      exact .obj (k := e.1) (x := e.2) he h
    · simp at he

mutual
theorem makes_node (S : Site) (T : Str → Prop) (loc : Value)
    (htr : ∀ key, T (shownAs S.F (resolvePointer ((loc.index c!"trans").index S.lang) key))) :
    ∀ (x : Node) (al : Str), x.Filters S → c!"CONTEXT" ∉ x.binds → (∀ t ∈ x.texts, T t) → Makes S T loc (x.means S al)
  | .text t, al, _, _, ht => fun m hm => by
    simp only [Node.texts, List.mem_singleton, forall_eq] at ht
    simp only [Node.means]
    exact ⟨built_text ht, hm⟩
  | .var amp name, al, hf, _, _ => by
    intro m hm
    simp only [Node.Filters] at hf
    simp only [Node.means]
    refine makes_bif (fun m hm => ⟨?_, hm⟩) m hm
    have hb : (amp || S.filterAll) = true := by simpa using hf
    simp only [hb, printedAs, if_true]
    split
    · next hp =>
      obtain ⟨r, rfl⟩ := hp
      unfold valueOf
      rw [if_neg (by rintro ⟨z, hz⟩; simp at hz)]
      cases hv : resolvePointer (.obj m.data) (c!"CONTEXT->" ++ r) with
      | none => exact .nil
      | some w =>
        have := resolve_context hv
        exact built_clean (hm.ctx w this)
    · exact built_clean (C01_escape_clean true _)
  | .cond neg plus kind name body, al, hf, hk, ht => by
    intro m hm
    simp only [Node.Filters] at hf
    simp only [Node.binds] at hk
    simp only [Node.texts] at ht
    simp only [Node.means]
    refine makes_bif (fun m hm => ?_) m hm
    split
    · exact ⟨.nil, hm⟩
    · exact makes_block (makes_all S T loc htr body _ hf hk ht) m hm
  | .cmp neg plus kind a b body, al, hf, hk, ht => by
    intro m hm
    simp only [Node.Filters] at hf
    simp only [Node.binds, List.mem_append, not_or] at hk
    simp only [Node.texts] at ht
    simp only [Node.means]
    refine makes_bif (fun m hm => ?_) m hm
    have h2 := guarded_arg (al := kind) hk.2.1 (guarded_arg (al := kind) hk.1 hm)
    split
    · exact ⟨.nil, h2⟩
    · exact makes_block (makes_all S T loc htr body _ hf hk.2.2 ht) _ h2
  | .els neg plus body, al, hf, hk, ht => by
    intro m hm
    simp only [Node.Filters] at hf
    simp only [Node.binds] at hk
    simp only [Node.texts] at ht
    simp only [Node.means]
    refine makes_bif (fun m hm => ?_) m hm
    split
    · exact makes_block (makes_all S T loc htr body _ hf hk ht) m hm
    · exact ⟨.nil, hm⟩
  | .coalesce plus body, al, hf, hk, ht => by
    intro m hm
    simp only [Node.Filters] at hf
    simp only [Node.binds] at hk
    simp only [Node.texts] at ht
    simp only [Node.means]
    exact makes_bif (fun m hm => makes_block (makes_all S T loc htr body _ hf hk ht) { m with lastC := false }
      ⟨hm.ctx, hm.params, hm.locale⟩) m hm
  | .code plus body, al, hf, hk, ht => by
    intro m hm
    simp only [Node.Filters] at hf
    simp only [Node.binds] at hk
    simp only [Node.texts] at ht
    simp only [Node.means]
    exact makes_bif (makes_block (makes_all S T loc htr body _ hf hk ht)) m hm
  | .each plus coll key val body, al, hf, hk, ht => by
    intro m hm
    simp only [Node.Filters] at hf
    simp only [Node.binds, List.mem_cons, not_or] at hk
    simp only [Node.texts] at ht
    simp only [Node.means]
    refine makes_bif (fun m hm => ?_) m hm
    obtain ⟨h1, h2⟩ := makes_loop (plus := plus) (makes_all S T loc htr body _ hf hk.2.2 ht)
      ((elementsOf (valueOf m coll)).map (fun kv => [(key, .str kv.1), (val, kv.2)])) m (by
        intro vs hvs kv hkv
        obtain ⟨e, _, rfl⟩ := List.mem_map.1 hvs
        simp only [List.mem_cons, List.not_mem_nil, or_false] at hkv
        rcases hkv with rfl | rfl
        · exact Ne.symm hk.1
        · exact Ne.symm hk.2.1) hm
    refine ⟨h1, h2.data ?_⟩
    rw [entry_insert, if_neg (Ne.symm hk.2.1), entry_insert, if_neg (Ne.symm hk.1)]
  | .range plus v a b body, al, hf, hk, ht => by
    intro m hm
    simp only [Node.Filters] at hf
    simp only [Node.binds, List.mem_cons, not_or] at hk
    simp only [Node.texts] at ht
    simp only [Node.means]
    refine makes_bif (fun m hm => ?_) m hm
    obtain ⟨h1, h2⟩ := makes_loop (plus := plus) (makes_all S T loc htr body _ hf hk.2 ht)
      ((span a b).map (fun i => [(v, .str (showInt i))])) m (by
        intro vs hvs kv hkv
        obtain ⟨e, _, rfl⟩ := List.mem_map.1 hvs
        simp only [List.mem_cons, List.not_mem_nil, or_false] at hkv
        subst hkv
        exact Ne.symm hk.1) hm
    refine ⟨h1, h2.data ?_⟩
    rw [entry_insert, if_neg (Ne.symm hk.1)]
  | .param name, al, _, _, _ => by
    intro m hm
    simp only [Node.means]
    refine makes_bif (fun m hm => ⟨?_, hm⟩) m hm
    dsimp only
    cases hv : resolvePointer (entry m.defs c!"params") name with
    | none => exact .nil
    | some w => exact hm.params w (resolvePointer_below hv)
  | .setParam name body, al, hf, hk, ht => by
    intro m hm
    simp only [Node.Filters] at hf
    simp only [Node.binds] at hk
    simp only [Node.texts] at ht
    simp only [Node.means]
    refine makes_bif (fun m hm => ?_) m hm
    obtain ⟨h1, h2⟩ := makes_block (plus := false) (makes_all S T loc htr body _ hf hk ht) m hm
    refine ⟨.nil, h2.ctx, ?_, ?_⟩
    · simp only [entry_insert, if_true]
      exact built_param h1 h2.params
    · simp only [entry_insert]
      rw [if_neg (by decide)]
      exact h2.locale
  | .trans neg body, al, hf, hk, ht => by
    intro m hm
    simp only [Node.Filters] at hf
    simp only [Node.binds] at hk
    simp only [Node.texts] at ht
    simp only [Node.means]
    refine makes_bif (fun m hm => ?_) m hm
    obtain ⟨h1, h2⟩ := makes_block (plus := false) (makes_all S T loc htr body _ hf hk ht) m hm
    refine ⟨?_, h2⟩
    dsimp only
    split
    · split
      · exact .nil
      · exact h1
    · unfold translated
      rw [hm.locale]
      exact built_text (htr _)
  | .incl path body, al, hf, hk, ht => by
    intro m hm
    simp only [Node.Filters] at hf
    simp only [Node.binds] at hk
    simp only [Node.texts] at ht
    simp only [Node.means]
    exact makes_bif (makes_block (makes_all S T loc htr body _ hf hk ht)) m hm
  | .snippet kind name body, al, hf, hk, ht => by
    intro m hm
    simp only [Node.Filters] at hf
    simp only [Node.binds] at hk
    simp only [Node.texts] at ht
    simp only [Node.means]
    exact makes_bif (makes_block (makes_all S T loc htr body _ hf hk ht)) m hm
  | .leaf k, al, hf, _, ht => by
    intro m hm
    simp only [Node.means]
    refine makes_bif (fun m hm => ?_) m hm
    cases k with
    | lang =>
      simp only [Node.Filters] at hf
      exact ⟨built_clean hf, hm⟩
    | mark =>
      simp only [Node.texts, List.mem_singleton, forall_eq] at ht
      exact ⟨built_text ht, hm⟩
    | up =>
      simp only [Node.texts, List.mem_singleton, forall_eq] at ht
      exact ⟨built_text ht, hm⟩
    | join keys name sep => simp only [Node.Filters] at hf
    | load locale path v =>
      simp only [Node.Filters] at hf
      simp only [Node.texts, List.mem_singleton, forall_eq] at ht
      subst hf
      refine ⟨built_text ht, hm.ctx, ?_, ?_⟩
      · simp only [Leaf.effect, loaded, Bool.false_eq_true, if_false, entry_insert]
        rw [if_neg (by decide)]
        exact hm.params
      · simp only [Leaf.effect, loaded, Bool.false_eq_true, if_false, entry_insert]
        rw [if_neg (by decide)]
        exact hm.locale
  | .replace _ _ _, al, hf, _, _ => by simp only [Node.Filters] at hf
  | .allow neg name body, al, hf, hk, ht => by
    intro m hm
    simp only [Node.Filters] at hf
    simp only [Node.binds] at hk
    simp only [Node.texts] at ht
    simp only [Node.means]
    refine makes_bif (fun m hm => ?_) m hm
    obtain ⟨h1, h2⟩ := makes_block (plus := false) (makes_all S T loc htr body c!"allow" hf hk ht) m hm
    refine ⟨?_, h2⟩
    dsimp only
    split
    · exact .nil
    · exact h1
  | .eval neg plus test body, al, hf, hk, ht => by
    intro m hm
    simp only [Node.Filters] at hf
    simp only [Node.binds, List.mem_cons, List.mem_append, not_or] at hk
    simp only [Node.texts, List.mem_append] at ht
    simp only [Node.means]
    refine makes_bif (fun m hm => ?_) m hm
    have hg : Guarded S T loc (blockOf plus (meansAll S c!"eval" test) m).2 := by
      cases plus with
      | true => exact (makes_block (plus := true) (makes_all S T loc htr test c!"eval" (hf.1 rfl) hk.2.1 (fun t h => ht t (.inl h))) m hm).2
      | false =>
        have := stay_all S c!"CONTEXT" test c!"eval" (fun hx => hk.2.1 (counters_bindsAll _ test hx)) m
        exact ⟨fun w hw => hm.ctx w (by rw [← this]; exact hw), hm.params, hm.locale⟩
    have hb := makes_all S T loc htr body c!"eval" hf.2 hk.2.2 (fun t h => ht t (.inr h))
    generalize blockOf plus (meansAll S c!"eval" test) m = rt at hg ⊢
    split
    · split
      · obtain ⟨h1, h2⟩ := makes_block (plus := plus) hb { rt.2 with data := Obj.insert c!"__eval__" (.str rt.1) rt.2.data }
          (hg.data (by rw [entry_insert, if_neg (by decide)]))
        exact ⟨h1, h2.data (by rw [entry_insert, if_neg (by decide)])⟩
      · next ho =>
        have := (makes_block (plus := false) hb rt.2 hg).1
        simp only [blockOf, text_means S c!"eval" body ho] at this
        exact ⟨this, hg⟩
    · exact ⟨.nil, hg⟩
  | .hash body, al, hf, hk, ht => by
    intro m hm
    simp only [Node.Filters] at hf
    simp only [Node.binds] at hk
    simp only [Node.means]
    refine makes_bif (fun m hm => ⟨built_clean (hf _), ?_⟩) m hm
    have := stay_all S c!"CONTEXT" body c!"hash" (fun hx => hk (counters_bindsAll _ body hx)) m
    exact ⟨fun w hw => hm.ctx w (by rw [← this]; exact hw), hm.params, hm.locale⟩
theorem makes_all (S : Site) (T : Str → Prop) (loc : Value)
    (htr : ∀ key, T (shownAs S.F (resolvePointer ((loc.index c!"trans").index S.lang) key))) :
    ∀ (l : List Node) (al : Str), AllFilter S l → c!"CONTEXT" ∉ bindsAll l → (∀ t ∈ textsAll l, T t) → Makes S T loc (meansAll S al l)
  | [], al, _, _, _ => fun m hm => by simp only [meansAll]; exact ⟨.nil, hm⟩
  | x :: l, al, hf, hk, ht => fun m hm => by
    simp only [AllFilter] at hf
    simp only [bindsAll, List.mem_append, not_or] at hk
    simp only [textsAll, List.mem_append] at ht
    simp only [meansAll]
    obtain ⟨h1, h2⟩ := makes_node S T loc htr x al hf.1 hk.1 (fun t h => ht t (.inl h)) m hm
    obtain ⟨h3, h4⟩ := makes_all S T loc htr l al hf.2 hk.2 (fun t h => ht t (.inr h)) _ h2
    exact ⟨built_append h1 h3, h4⟩
end

theorem clean_of_chars {s : Str} (h : ∀ c ∈ s, c ≠ '&' ∧ c ∉ special true) : Clean true s := by
  refine ⟨fun c hc => (h c hc).2, fun a r he => ?_⟩
  exact absurd rfl (h '&' (by rw [he]; simp)).1

theorem clean_nil : Clean true ([] : Str) := clean_of_chars (by simp)

theorem shown_clean {F : F64Ops} (hshow : ∀ x, ∀ c ∈ F.show_ x, c ≠ '&' ∧ c ∉ special true) {w : Value}
    (h : ∀ s, w = .str s → Clean true s) : Clean true (shownAs F (some w)) := by
  have hd : ∀ c, c ∈ c!"0123456789" → c ≠ '&' ∧ c ∉ special true := by
    intro c hc
    refine ⟨?_, digit_not_special hc⟩
    rintro rfl
    exact absurd hc (by decide)
  cases w with
  | str s => exact h s rfl
  | num n =>
    refine clean_of_chars ?_
    cases n with
    | flt x => exact hshow x
    | int i =>
      show ∀ c ∈ showInt i, _
      intro c hc
      unfold showInt at hc
      split at hc
      · rcases List.mem_cons.1 hc with rfl | hc
        · decide
        · exact hd c (showNat_digits _ c hc)
      · exact hd c (showNat_digits _ c hc)
  | bool b =>
    cases b
    · exact clean_of_chars (s := c!"false") (by decide)
    · exact clean_of_chars (s := c!"true") (by decide)
  | _ => exact clean_nil

theorem start_context (d : Obj) : AllClean (entry (startData d) c!"CONTEXT") := by
  unfold startData
  rw [entry_insert, if_pos rfl]
  exact allClean_of_filtered _ _ (filtered_sanitise _)

/-- The texts a template of the language is made of, and the translations of the schema. -/
def Spec.Written (S : Site) (l : List Node) (defs : Obj) (t : Str) : Prop :=
  t ∈ textsAll l ∨ ∃ key, t = shownAs S.F (resolvePointer (((entry defs c!"locale").index c!"trans").index S.lang) key)

/-- **C78 (meaning).** When every variable a template prints is filtered (by the modifier or by `filter_all`), what it means is,
for all data, made of the texts of the template, each whole up to its outer white space, of translations, and of clean texts. -/
theorem C78_means (S : Site) (l : List Node) (d defs : Obj) (hf : AllFilter S l) (hk : c!"CONTEXT" ∉ bindsAll l)
    (hshow : ∀ x, ∀ c ∈ S.F.show_ x, c ≠ '&' ∧ c ∉ special true)
    (hp : ∀ w, Below (entry defs c!"params") w → Clean true (shownAs S.F (some w))) :
    MadeOf (Written S l defs) (meansAll S [] l (startMem d defs)).1 := by
  refine (makes_all S (Written S l defs) (entry defs c!"locale") (fun key => .inr ⟨key, rfl⟩) l [] hf hk (fun t ht => .inl ht)
    (startMem d defs) ⟨fun w hw => ?_, fun w hw => built_clean (hp w hw), rfl⟩).1
  refine shown_clean hshow ?_
  rintro s rfl
  exact (start_context d).1 s hw

theorem built_char {T : Str → Prop} {c : Char} (hc : c ∈ special true) (hT : ∀ t, T t → c ∉ t) {x : Str} (h : MadeOf T x) : c ∉ x := by
  induction h with
  | nil => simp
  | @text a w b out h1 _ _ _ ih =>
    have := hT _ h1
    simp only [List.mem_append, not_or] at this ⊢
    exact ⟨this.2.1, ih⟩
  | @clean x out h1 _ ih =>
    simp only [List.mem_append, not_or]
    exact ⟨fun h => h1.1 c h hc, ih⟩

theorem trimEnd_tail {w b : Str} (hb : Blank b) : trimEnd (w ++ b) = trimEnd w := by
  rw [trimEnd_append, if_pos hb]

theorem trimEnd_snoc {w : Str} {c : Char} (hc : isWs c = false) : trimEnd (w ++ [c]) = w ++ [c] := by
  unfold trimEnd
  simp [hc]

theorem built_open {T : Str → Prop} (hT : ∀ t, T t → ¬ c!"{:" <:+: t ∧ (trimEnd t).getLast? ≠ some '{') {x : Str} (h : MadeOf T x) :
    ¬ c!"{:" <:+: x := by
  induction h with
  | nil => exact fun h => by simp at h
  | @text a w b out h1 h2 h3 _ ih =>
    obtain ⟨h4, h5⟩ := hT _ h1
    refine pair_append ?_ ih (.inl ?_)
    · exact fun hx => h4 (hx.trans ⟨a, b, by simp⟩)
    · intro hl
      obtain ⟨u, rfl⟩ := List.getLast?_eq_some_iff.1 hl
      apply h5
      rw [← List.append_assoc, trimEnd_tail h3, ← List.append_assoc, trimEnd_snoc (by decide)]
      simp
  | @clean x out h1 _ ih =>
    have hx : '{' ∉ x := fun h => h1.1 _ h (by decide)
    refine pair_append ?_ ih (.inl ?_)
    · rintro ⟨u, v, rfl⟩
      exact hx (by simp)
    · intro hl
      obtain ⟨u, rfl⟩ := List.getLast?_eq_some_iff.1 hl
      exact hx (by simp)

theorem mem_dropMark {m : Str} {c : Char} : ∀ (s : Str) (k : Nat), c ∈ dropMark m k s → c ∈ s
  | [], k, h => by cases k <;> simp [dropMark] at h
  | x :: s, k + 1, h => by
    rw [dropMark_succ] at h
    exact List.mem_cons_of_mem _ (mem_dropMark s k h)
  | x :: s, 0, h => by
    rw [dropMark_zero] at h
    split at h
    · exact List.mem_cons_of_mem _ (mem_dropMark s _ h)
    · rcases List.mem_cons.1 h with rfl | h
      · simp
      · exact List.mem_cons_of_mem _ (mem_dropMark s _ h)

theorem mem_replacements {c : Char} {s : Str} (h : c ∈ replacements s) : c ∈ s := by
  unfold replacements at h
  rcases mem_replaceAll (by decide) h with h | h
  · simp at h
  · exact mem_dropMark _ _ h

/-- **C78 (render).** A template in which every printed variable is filtered, whose texts and translations do not end in `{`,
renders, for all data, to its texts and to clean texts (of which the marks are then taken out, C47): data cannot add a special
character, an entity of their own or a delimiter, however deep in loops, conditions, comparisons, parameters, translations,
included files and snippets they are printed, and the output needs no second pass. -/
theorem C78_render (env : Env) (n : Nat) (w : World) (t : Tpl) (S : Site) (l : List Node) (sh : Shared) (s d defs : Obj)
    (hnew : Shared.new env w t.schema = some sh) (hS : SiteOf env sh S)
    (hok : AllOk S [] l) (hraw : t.raw = printAll l) (hb : c!"{:" <:+: printAll l)
    (hs : t.schema = .obj s) (hd : Obj.get? c!"data" s = some (.obj d))
    (hinh : Obj.get? c!"inherit" s = some (.obj defs)) (hdefs : Defs S defs)
    (hmax : (meansAll S [] l (startMem d defs)).2.bifs ≤ sh.max)
    (hf : AllFilter S l) (hk : c!"CONTEXT" ∉ bindsAll l)
    (hshow : ∀ x, ∀ c ∈ S.F.show_ x, c ≠ '&' ∧ c ∉ special true)
    (hp : ∀ w, Below (entry defs c!"params") w → Clean true (shownAs S.F (some w)))
    (hT : ∀ t, Written S l defs t → ¬ c!"{:" <:+: t ∧ (trimEnd t).getLast? ≠ some '{') :
    ∃ t' x, t.render env n w = .ok t' ∧ MadeOf (Written S l defs) x ∧ ¬ c!"{:" <:+: x ∧ t'.out = replacements x ∧
      t'.statusCode = c!"200" ∧ t'.hasError = false ∧
      ∀ c ∈ special true, (∀ t, Written S l defs t → c ∉ t) → c ∉ t'.out := by
  have h1 := built_trim (C78_means S l d defs hf hk hshow hp)
  have h2 := built_open hT h1
  obtain ⟨r, t', rfl, hr, ht, _⟩ := C77_render env n w t S l sh s d defs hnew hS hok hraw hb hs hd hinh hdefs hmax
    (fun h => h2 (List.IsInfix.trans ⟨[], c!"!cache;", rfl⟩ h))
  refine ⟨t', _, hr, h1, h2, ht.out, ht.code, ht.noError.1, ?_⟩
  intro c hc hT' hmem
  rw [ht.out] at hmem
  exact built_char hc hT' h1 (mem_replacements hmem)

theorem shownAs_str (F : F64Ops) (v : Option Value) : shownAs F (some (.str (shownAs F v))) = shownAs F v := rfl

theorem firstKey_plain {k : Str} (h : firstKey k = k) : ¬ c!"->" <:+: k ∧ '/' ∉ k := by
  induction k with
  | nil => simp
  | cons c r ih =>
    rw [firstKey] at h
    split at h
    · simp at h
    · next hc =>
      rw [not_or] at hc
      simp only [List.cons.injEq, true_and] at h
      obtain ⟨h1, h2⟩ := ih h
      refine ⟨?_, ?_⟩
      · rw [List.infix_cons_iff, not_or]
        exact ⟨hc.2, h1⟩
      · simp only [List.mem_cons, not_or]
        exact ⟨Ne.symm hc.1, h2⟩

theorem resolve_plain {k : Str} (h : firstKey k = k) (v : Value) : resolvePointer v k = v.get? k := by
  obtain ⟨h1, h2⟩ := firstKey_plain h
  have h3 : contains c!"->" k = false := (contains_false_iff (by simp)).2 h1
  have h4 : contains c!"/" k = false := (contains_false_iff (by simp)).2 (by
    rintro ⟨a, b, hab⟩; exact h2 (by rw [← hab]; simp))
  unfold resolvePointer
  rw [h3, h4]
  rfl

/-- **C79 (variables).** Whatever is rendered, every variable of the data that is not the variable of a `for` or of an `eval` has the value with
which the render started: loops give back the variables they set, at every depth and in every round. -/
theorem C79_render (env : Env) (n : Nat) (w : World) (t : Tpl) (S : Site) (l : List Node) (sh : Shared) (s d defs : Obj)
    (hnew : Shared.new env w t.schema = some sh) (hS : SiteOf env sh S)
    (hok : AllOk S [] l) (hraw : t.raw = printAll l) (hb : c!"{:" <:+: printAll l)
    (hs : t.schema = .obj s) (hd : Obj.get? c!"data" s = some (.obj d))
    (hinh : Obj.get? c!"inherit" s = some (.obj defs)) (hdefs : Defs S defs)
    (hmax : (meansAll S [] l (startMem d defs)).2.bifs ≤ sh.max)
    (hcache : ¬ c!"{:!cache;" <:+: trim (meansAll S [] l (startMem d defs)).1) :
    ∃ t' d', t.render env n w = .ok t' ∧ t'.shared.schema.index c!"data" = .obj d' ∧
      (∀ k, k ∉ countersAll l → entry d' k = entry (startData d) k) ∧
      (∀ k, firstKey k = k → ¬ c!"local::" <+: k →
        entry d' k = entry (startData d) k ∨ entry d' k = .str (shownAs S.F (some (entry (startData d) k)))) := by
  obtain ⟨r, t', rfl, hr, _, hdata⟩ := C77_render env n w t S l sh s d defs hnew hS hok hraw hb hs hd hinh hdefs hmax hcache
  refine ⟨t', _, hr, hdata, fun k hk => stay_all S k l [] hk _, fun k hk hl => ?_⟩
  refine keeps_all (fun u v => v = u ∨ v = .str (shownAs S.F (some u))) S k l [] ⟨fun _ => .inl rfl, ?_, ?_⟩ (startMem d defs)
  · rintro u v w (rfl | rfl) (rfl | rfl)
    · exact .inl rfl
    · exact .inr rfl
    · exact .inr rfl
    · exact .inr rfl
  · intro _ m
    right
    unfold valueOf
    rw [if_neg hl, resolve_plain hk]
    unfold entry
    show Value.str (shownAs S.F (Obj.get? k m.data)) = _
    cases Obj.get? k m.data <;> rfl

/-! ### C80: what the output depends on -/

theorem resolveGo_first {d1 d2 : Obj} : ∀ (s part : Str), part.reverse ++ firstKey s ≠ [] →
    Obj.get? (part.reverse ++ firstKey s) d1 = Obj.get? (part.reverse ++ firstKey s) d2 →
    resolveGo (.obj d1) part s = resolveGo (.obj d2) part s
  | [], part, hn, h => by
    simp only [firstKey, List.append_nil, ne_eq, List.reverse_eq_nil_iff] at hn h
    simp only [resolveGo, List.isEmpty_iff, if_neg hn, resolveStep, h]
  | c :: r, part, hn, h => by
    rw [firstKey] at hn h
    by_cases hc : c = '/'
    · rw [if_pos (.inl hc)] at hn h
      simp only [List.append_nil, ne_eq, List.reverse_eq_nil_iff] at hn h
      rw [resolveGo, resolveGo, if_pos hc, if_pos hc]
      · simp only [List.isEmpty_iff, if_neg hn, resolveStep, h]
      · rintro r' rfl
        exact absurd hc (by decide)
      · rintro r' rfl
        exact absurd hc (by decide)
    · by_cases hp : c!"->" <+: c :: r
      · rw [if_pos (.inr hp)] at hn h
        simp only [List.append_nil, ne_eq, List.reverse_eq_nil_iff] at hn h
        obtain ⟨r', hr⟩ := hp
        simp only [List.cons_append, List.nil_append, List.cons.injEq] at hr
        obtain ⟨rfl, rfl⟩ := hr
        rw [resolveGo, resolveGo, if_neg hc, if_neg hc]
        simp only [List.isEmpty_iff, if_neg hn, resolveStep, h]
      · rw [if_neg (by rw [not_or]; exact ⟨hc, hp⟩)] at hn h
        have ih := resolveGo_first (d1 := d1) (d2 := d2) r (c :: part) (by simp) (by simpa using h)
        rw [resolveGo, resolveGo, if_neg hc, if_neg hc]
        · exact ih
        · rintro r' rfl rfl
          exact hp ⟨r', rfl⟩
        · rintro r' rfl rfl
          exact hp ⟨r', rfl⟩

theorem resolve_first {d1 d2 : Obj} {name : Str} (hn : firstKey name ≠ []) (h : Obj.get? (firstKey name) d1 = Obj.get? (firstKey name) d2) :
    resolvePointer (.obj d1) name = resolvePointer (.obj d2) name := by
  unfold resolvePointer
  split
  · next hc =>
    have : firstKey name = name := by
      simp only [Bool.and_eq_true, Bool.not_eq_true'] at hc
      have h1 := (contains_false_iff (by simp)).1 hc.1
      have h2 := (contains_false_iff (by simp)).1 hc.2
      clear hn h hc
      induction name with
      | nil => rfl
      | cons c r ih =>
        rw [List.infix_cons_iff, not_or] at h1 h2
        rw [firstKey, if_neg, ih h1.2 h2.2]
        rw [not_or]
        refine ⟨?_, h1.1⟩
        rintro rfl
        exact h2.1 ⟨r, rfl⟩
    rw [this] at h
    exact h
  · exact resolveGo_first name [] hn h

theorem firstKey_first : ∀ k : Str, firstKey (firstKey k) = firstKey k
  | [] => rfl
  | c :: r => by
    rw [firstKey]
    split
    · rfl
    · next h =>
      rw [not_or] at h
      rw [firstKey, firstKey_first r, if_neg]
      rw [not_or]
      refine ⟨h.1, ?_⟩
      rintro ⟨z, hz⟩
      simp only [List.cons_append, List.nil_append, List.cons.injEq] at hz
      obtain ⟨rfl, hz⟩ := hz
      apply h.2
      cases r with
      | nil => simp [firstKey] at hz
      | cons x r =>
        rw [firstKey] at hz
        split at hz
        · simp at hz
        · simp only [List.cons.injEq] at hz
          exact ⟨r, by rw [← hz.1]; rfl⟩

/-- Two memories with the same definitions and the same entries `K` of the data. -/
structure Same (K : Str → Prop) (m1 m2 : Mem) : Prop where
  defs : m1.defs = m2.defs
  last : m1.last = m2.last
  lastC : m1.lastC = m2.lastC
  bifs : m1.bifs = m2.bifs
  data : ∀ k, K k → firstKey k = k → k ≠ [] → Obj.get? k m1.data = Obj.get? k m2.data

/-- The same output, and the entries stay the same. -/
def Alike (K : Str → Prop) (run : Mem → Str × Mem) : Prop :=
  ∀ m1 m2, Same K m1 m2 → (run m1).1 = (run m2).1 ∧ Same K (run m1).2 (run m2).2

theorem alike_block {K : Str → Prop} {plus : Bool} {run : Mem → Str × Mem} (h : Alike K run) : Alike K (blockOf plus run) := by
  intro m1 m2 hm
  obtain ⟨h1, h2⟩ := h m1 m2 hm
  refine ⟨congrArg trim h1, ?_, hm.last, hm.lastC, h2.bifs, h2.data⟩
  cases plus
  · exact hm.defs
  · exact h2.defs

theorem alike_arg {K : Str → Prop} {t : Str} {run : Mem → Str × Mem} (h : Alike K run) : Alike K (argOf t run) := by
  intro m1 m2 hm
  unfold argOf
  split
  · exact alike_block h m1 m2 hm
  · exact ⟨rfl, hm⟩

theorem alike_bif {K : Str → Prop} {al : Str} {run : Mem → Str × Mem} (h : Alike K run) : Alike K (bifOf al run) := by
  intro m1 m2 hm
  unfold bifOf
  have hl := hm.lastC
  by_cases hc : al = c!"coalesce" ∧ m1.lastC = true
  · rw [if_pos hc, if_pos (by rw [← hl]; exact hc)]
    exact ⟨rfl, hm⟩
  · rw [if_neg hc, if_neg (by rw [← hl]; exact hc)]
    obtain ⟨h1, h2⟩ := h { m1 with bifs := m1.bifs + 1 } { m2 with bifs := m2.bifs + 1 }
      ⟨hm.defs, hm.last, hm.lastC, congrArg (· + 1) hm.bifs, hm.data⟩
    dsimp only
    rw [h1]
    exact ⟨rfl, h2.defs, rfl, rfl, h2.bifs, h2.data⟩

theorem same_setAll {K : Str → Prop} : ∀ (vs : List (Str × Value)) {d1 d2 : Obj},
    (∀ k, K k → firstKey k = k → k ≠ [] → Obj.get? k d1 = Obj.get? k d2) →
    ∀ k, (K k ∨ k ∈ vs.map (·.1)) → firstKey k = k → k ≠ [] → Obj.get? k (setAll vs d1) = Obj.get? k (setAll vs d2)
  | [], d1, d2, h, k, hk, hf, hn => by
    simp only [List.map_nil, List.not_mem_nil, or_false] at hk
    exact h k hk hf hn
  | (j, v) :: vs, d1, d2, h, k, hk, hf, hn => by
    simp only [setAll]
    refine same_setAll (K := fun k => K k ∨ k = j) vs (fun i hi hif hin => ?_) k ?_ hf hn
    · by_cases hij : j = i
      · subst hij
        rw [Obj.get?_insert_self, Obj.get?_insert_self]
      · rw [Obj.get?_insert_ne _ _ hij, Obj.get?_insert_ne _ _ hij]
        rcases hi with hi | hi
        · exact h i hi hif hin
        · exact absurd hi.symm hij
    · simp only [List.map_cons, List.mem_cons] at hk
      rcases hk with hk | hk | hk
      · exact .inl (.inl hk)
      · exact .inl (.inr hk)
      · exact .inr hk

theorem alike_loop {K : Str → Prop} {vars : List Str} {plus : Bool} {run : Mem → Str × Mem} (h : Alike (fun k => K k ∨ k ∈ vars) run) :
    ∀ (l : List (List (Str × Value))), (∀ vs ∈ l, vs.map (·.1) = vars) → Alike K (loopOf plus run l)
  | [], _ => fun m1 m2 hm => ⟨rfl, hm⟩
  | vs :: l, hl => fun m1 m2 hm => by
    simp only [loopOf]
    obtain ⟨h1, h2⟩ := alike_block (plus := plus) h { m1 with data := setAll vs m1.data } { m2 with data := setAll vs m2.data }
      ⟨hm.defs, hm.last, hm.lastC, hm.bifs, fun k hk => same_setAll vs hm.data k (by rw [hl vs (by simp)]; exact hk)⟩
    obtain ⟨h3, h4⟩ := alike_loop (plus := plus) h l (fun vs hv => hl vs (by simp [hv])) _ _
      (⟨h2.defs, h2.last, h2.lastC, h2.bifs, fun k hk => h2.data k (.inl hk)⟩ : Same K _ _)
    exact ⟨by rw [h1, h3], h4⟩

theorem same_value {K : Str → Prop} {m1 m2 : Mem} {name : Str} (hm : Same K m1 m2) (hK : ∀ k ∈ reads name, K k)
    (hn : c!"local::" <+: name ∨ firstKey name ≠ []) : valueOf m1 name = valueOf m2 name := by
  unfold valueOf
  rw [hm.defs]
  split
  · rfl
  · next hl =>
    have hf : firstKey name ≠ [] := hn.resolve_left hl
    refine resolve_first hf (hm.data _ (hK _ ?_) (firstKey_first _) hf)
    unfold reads
    rw [if_neg hl]
    simp

theorem same_insert {K : Str → Prop} {j : Str} {v1 v2 : Value} {d1 d2 : Obj}
    (h : ∀ k, K k → firstKey k = k → k ≠ [] → Obj.get? k d1 = Obj.get? k d2) (hv : K j → firstKey j = j → j ≠ [] → v1 = v2) :
    ∀ k, K k → firstKey k = k → k ≠ [] → Obj.get? k (Obj.insert j v1 d1) = Obj.get? k (Obj.insert j v2 d2) := by
  intro k hk hf hn
  by_cases hj : j = k
  · subst hj
    rw [Obj.get?_insert_self, Obj.get?_insert_self, hv hk hf hn]
  · rw [Obj.get?_insert_ne _ _ hj, Obj.get?_insert_ne _ _ hj]
    exact h k hk hf hn

theorem same_entry {K : Str → Prop} {m1 m2 : Mem} (hm : Same K m1 m2) {k : Str} (hk : K k) (hf : firstKey k = k) (hn : k ≠ []) :
    entry m1.data k = entry m2.data k := by
  unfold entry
  rw [hm.data k hk hf hn]

mutual
theorem alike_node (S : Site) : ∀ (x : Node) (K : Str → Prop) (al : Str), (∀ k ∈ x.free, K k) →
    (∀ name ∈ x.names, c!"local::" <+: name ∨ firstKey name ≠ []) → Alike K (x.means S al)
  | .text t, K, al, _, _ => fun m1 m2 hm => by simp only [Node.means]; exact ⟨trivial, hm⟩
  | .var amp name, K, al, hK, hn => fun m1 m2 hm => by
    simp only [Node.free] at hK
    simp only [Node.names, List.mem_singleton, forall_eq] at hn
    simp only [Node.means]
    refine alike_bif (fun m1 m2 hm => ⟨?_, hm⟩) m1 m2 hm
    dsimp only
    rw [same_value hm hK hn]
  | .cond neg plus kind name body, K, al, hK, hn => fun m1 m2 hm => by
    simp only [Node.free, List.mem_append] at hK
    simp only [Node.names, List.mem_cons] at hn
    simp only [Node.means]
    refine alike_bif (fun m1 m2 hm => ?_) m1 m2 hm
    rw [same_value hm (fun k hk => hK k (.inl hk)) (hn _ (.inl rfl))]
    split
    · exact ⟨rfl, hm⟩
    · exact alike_block (alike_all S body K kind (fun k hk => hK k (.inr hk)) (fun k hk => hn k (.inr hk))) m1 m2 hm
  | .cmp neg plus kind a b body, K, al, hK, hn => fun m1 m2 hm => by
    simp only [Node.free, List.mem_append] at hK
    simp only [Node.names, List.mem_append] at hn
    simp only [Node.means]
    refine alike_bif (fun m1 m2 hm => ?_) m1 m2 hm
    obtain ⟨h1, h2⟩ := alike_arg (t := printAll a) (alike_all S a K kind (fun k hk => hK k (.inl hk)) (fun k hk => hn k (.inl hk))) m1 m2 hm
    obtain ⟨h3, h4⟩ := alike_arg (t := printAll b)
      (alike_all S b K kind (fun k hk => hK k (.inr (.inl hk))) (fun k hk => hn k (.inr (.inl hk)))) _ _ h2
    rw [h1, h3]
    split
    · exact ⟨rfl, h4⟩
    · exact alike_block (alike_all S body K kind (fun k hk => hK k (.inr (.inr hk))) (fun k hk => hn k (.inr (.inr hk)))) _ _ h4
  | .els neg plus body, K, al, hK, hn => fun m1 m2 hm => by
    simp only [Node.free] at hK
    simp only [Node.names] at hn
    simp only [Node.means]
    refine alike_bif (fun m1 m2 hm => ?_) m1 m2 hm
    rw [hm.last]
    split
    · exact alike_block (alike_all S body K _ hK hn) m1 m2 hm
    · exact ⟨rfl, hm⟩
  | .coalesce plus body, K, al, hK, hn => fun m1 m2 hm => by
    simp only [Node.free] at hK
    simp only [Node.names] at hn
    simp only [Node.means]
    exact alike_bif (fun m1 m2 hm => alike_block (alike_all S body K _ hK hn) { m1 with lastC := false } { m2 with lastC := false }
      ⟨hm.defs, hm.last, rfl, hm.bifs, hm.data⟩) m1 m2 hm
  | .code plus body, K, al, hK, hn => fun m1 m2 hm => by
    simp only [Node.free] at hK
    simp only [Node.names] at hn
    simp only [Node.means]
    exact alike_bif (alike_block (alike_all S body K _ hK hn)) m1 m2 hm
  | .each plus coll key val body, K, al, hK, hn => fun m1 m2 hm => by
    simp only [Node.free, List.mem_append, List.mem_filter, decide_eq_true_eq] at hK
    simp only [Node.names, List.mem_cons] at hn
    simp only [Node.means]
    refine alike_bif (fun m1 m2 hm => ?_) m1 m2 hm
    dsimp only
    rw [same_value hm (fun k hk => hK k (.inl hk)) (hn _ (.inl rfl))]
    obtain ⟨h1, h2⟩ := alike_loop (K := K) (vars := [key, val]) (plus := plus)
      (alike_all S body _ c!"each" (fun k hk => by
        by_cases h : k ≠ key ∧ k ≠ val
        · exact .inl (hK k (.inr ⟨hk, h⟩))
        · right
          simp only [List.mem_cons, List.not_mem_nil, or_false]
          by_cases h' : k = key
          · exact .inl h'
          · right
            by_cases h'' : k = val
            · exact h''
            · exact absurd ⟨h', h''⟩ h) (fun k hk => hn k (.inr hk)))
      ((elementsOf (valueOf m2 coll)).map (fun kv => [(key, .str kv.1), (val, kv.2)])) (by
        intro vs hvs
        obtain ⟨e, _, rfl⟩ := List.mem_map.1 hvs
        rfl) m1 m2 hm
    refine ⟨h1, h2.defs, h2.last, h2.lastC, h2.bifs, ?_⟩
    exact same_insert (same_insert h2.data (fun hk hf hn => same_entry hm hk hf hn)) (fun hk hf hn => same_entry hm hk hf hn)
  | .range plus v a b body, K, al, hK, hn => fun m1 m2 hm => by
    simp only [Node.free, List.mem_filter, decide_eq_true_eq] at hK
    simp only [Node.names] at hn
    simp only [Node.means]
    refine alike_bif (fun m1 m2 hm => ?_) m1 m2 hm
    dsimp only
    obtain ⟨h1, h2⟩ := alike_loop (K := K) (vars := [v]) (plus := plus)
      (alike_all S body _ c!"for" (fun k hk => by
        by_cases h : k = v
        · exact .inr (by simp [h])
        · exact .inl (hK k ⟨hk, h⟩)) hn)
      ((span a b).map (fun i => [(v, .str (showInt i))])) (by
        intro vs hvs
        obtain ⟨e, _, rfl⟩ := List.mem_map.1 hvs
        rfl) m1 m2 hm
    refine ⟨h1, h2.defs, h2.last, h2.lastC, h2.bifs, same_insert h2.data (fun hk hf hn => ?_)⟩
    rw [same_value hm (name := v) (fun k hk' => ?_) (.inr (by rw [hf]; exact hn))]
    unfold reads at hk'
    split at hk'
    · simp at hk'
    · rw [List.mem_singleton.1 hk', hf]
      exact hk
  | .param name, K, al, _, _ => fun m1 m2 hm => by
    simp only [Node.means]
    refine alike_bif (fun m1 m2 hm => ⟨?_, hm⟩) m1 m2 hm
    dsimp only
    rw [hm.defs]
  | .setParam name body, K, al, hK, hn => fun m1 m2 hm => by
    simp only [Node.free] at hK
    simp only [Node.names] at hn
    simp only [Node.means]
    refine alike_bif (fun m1 m2 hm => ?_) m1 m2 hm
    obtain ⟨h1, h2⟩ := alike_block (plus := false) (alike_all S body K c!"param" hK hn) m1 m2 hm
    dsimp only
    refine ⟨rfl, ?_, h2.last, h2.lastC, h2.bifs, h2.data⟩
    unfold paramsOf
    dsimp only
    rw [h1, h2.defs]
  | .trans neg body, K, al, hK, hn => fun m1 m2 hm => by
    simp only [Node.free] at hK
    simp only [Node.names] at hn
    simp only [Node.means]
    refine alike_bif (fun m1 m2 hm => ?_) m1 m2 hm
    obtain ⟨h1, h2⟩ := alike_block (plus := false) (alike_all S body K c!"trans" hK hn) m1 m2 hm
    dsimp only
    refine ⟨?_, h2⟩
    unfold translated
    rw [h1, hm.defs]
  | .incl path body, K, al, hK, hn => fun m1 m2 hm => by
    simp only [Node.free] at hK
    simp only [Node.names] at hn
    simp only [Node.means]
    exact alike_bif (alike_block (alike_all S body K c!"include" hK hn)) m1 m2 hm
  | .snippet kind name body, K, al, hK, hn => fun m1 m2 hm => by
    simp only [Node.free] at hK
    simp only [Node.names] at hn
    simp only [Node.means]
    exact alike_bif (alike_block (alike_all S body K c!"snippet" hK hn)) m1 m2 hm
  | .leaf k, K, al, hK, hn => fun m1 m2 hm => by
    simp only [Node.means]
    refine alike_bif (fun m1 m2 hm => ?_) m1 m2 hm
    cases k with
    | lang => exact ⟨rfl, hm⟩
    | mark => exact ⟨rfl, hm⟩
    | up => exact ⟨rfl, hm⟩
    | join keys name sep =>
      simp only [Node.free] at hK
      simp only [Node.names, List.mem_singleton, forall_eq] at hn
      simp only [Leaf.shown, Leaf.effect]
      rw [same_value hm hK hn]
      exact ⟨rfl, hm⟩
    | load locale path v =>
      refine ⟨rfl, ?_, hm.last, hm.lastC, hm.bifs, hm.data⟩
      simp only [Leaf.effect]
      rw [hm.defs]
  | .replace a b body, K, al, hK, hn => fun m1 m2 hm => by
    simp only [Node.free, List.mem_append] at hK
    simp only [Node.names, List.mem_append] at hn
    simp only [Node.means]
    refine alike_bif (fun m1 m2 hm => ?_) m1 m2 hm
    obtain ⟨h1, h2⟩ := alike_arg (t := printAll a)
      (alike_all S a K c!"replace" (fun k hk => hK k (.inl hk)) (fun k hk => hn k (.inl hk))) m1 m2 hm
    obtain ⟨h3, h4⟩ := alike_arg (t := printAll b)
      (alike_all S b K c!"replace" (fun k hk => hK k (.inr (.inl hk))) (fun k hk => hn k (.inr (.inl hk)))) _ _ h2
    obtain ⟨h5, h6⟩ := alike_block (plus := false)
      (alike_all S body K c!"replace" (fun k hk => hK k (.inr (.inr hk))) (fun k hk => hn k (.inr (.inr hk)))) _ _ h4
    dsimp only
    rw [h1, h3, h5]
    exact ⟨rfl, h6⟩
  | .allow neg name body, K, al, hK, hn => fun m1 m2 hm => by
    simp only [Node.free] at hK
    simp only [Node.names] at hn
    simp only [Node.means]
    refine alike_bif (fun m1 m2 hm => ?_) m1 m2 hm
    obtain ⟨h1, h2⟩ := alike_block (plus := false) (alike_all S body K c!"allow" hK hn) m1 m2 hm
    dsimp only
    rw [h1]
    exact ⟨rfl, h2⟩
  | .eval neg plus test body, K, al, hK, hn => fun m1 m2 hm => by
    simp only [Node.free, List.mem_append, List.mem_filter, decide_eq_true_eq] at hK
    simp only [Node.names, List.mem_append] at hn
    simp only [Node.means]
    refine alike_bif (fun m1 m2 hm => ?_) m1 m2 hm
    obtain ⟨h1, h2⟩ := alike_block (plus := plus)
      (alike_all S test K c!"eval" (fun k hk => hK k (.inl hk)) (fun k hk => hn k (.inl hk))) m1 m2 hm
    generalize blockOf plus (meansAll S c!"eval" test) m1 = r1 at h1 h2 ⊢
    generalize blockOf plus (meansAll S c!"eval" test) m2 = r2 at h1 h2 ⊢
    rw [h1]
    split
    · split
      · obtain ⟨h3, h4⟩ := alike_block (plus := plus)
          (alike_all S body (fun k => K k ∨ k ∈ [c!"__eval__"]) c!"eval" (fun k hk => by
            by_cases h : k = c!"__eval__"
            · exact .inr (by simp [h])
            · exact .inl (hK k (.inr ⟨hk, h⟩))) (fun k hk => hn k (.inr hk)))
          { r1.2 with data := Obj.insert c!"__eval__" (.str r2.1) r1.2.data }
          { r2.2 with data := Obj.insert c!"__eval__" (.str r2.1) r2.2.data }
          ⟨h2.defs, h2.last, h2.lastC, h2.bifs, fun k hk => same_setAll [(c!"__eval__", .str r2.1)] h2.data k hk⟩
        refine ⟨h3, h4.defs, h4.last, h4.lastC, h4.bifs, ?_⟩
        refine same_insert (fun k hk => h4.data k (.inl hk)) (fun hk hf hn => ?_)
        rw [same_value h2 (name := c!"__eval__") (fun k hk' => ?_) (.inr (by rw [hf]; exact hn))]
        unfold reads at hk'
        split at hk'
        · simp at hk'
        · rw [List.mem_singleton.1 hk', hf]
          exact hk
      · exact ⟨rfl, h2⟩
    · exact ⟨rfl, h2⟩
  | .hash body, K, al, hK, hn => fun m1 m2 hm => by
    simp only [Node.free] at hK
    simp only [Node.names] at hn
    simp only [Node.means]
    refine alike_bif (fun m1 m2 hm => ?_) m1 m2 hm
    obtain ⟨h1, h2⟩ := alike_block (plus := false) (alike_all S body K c!"hash" hK hn) m1 m2 hm
    dsimp only
    rw [h1]
    exact ⟨rfl, h2⟩
theorem alike_all (S : Site) : ∀ (l : List Node) (K : Str → Prop) (al : Str), (∀ k ∈ freeAll l, K k) →
    (∀ name ∈ namesAll l, c!"local::" <+: name ∨ firstKey name ≠ []) → Alike K (meansAll S al l)
  | [], K, al, _, _ => fun m1 m2 hm => by simp only [meansAll]; exact ⟨trivial, hm⟩
  | x :: l, K, al, hK, hn => fun m1 m2 hm => by
    simp only [freeAll, List.mem_append] at hK
    simp only [namesAll, List.mem_append] at hn
    simp only [meansAll]
    obtain ⟨h1, h2⟩ := alike_node S x K al (fun k hk => hK k (.inl hk)) (fun k hk => hn k (.inl hk)) m1 m2 hm
    obtain ⟨h3, h4⟩ := alike_all S l K al (fun k hk => hK k (.inr hk)) (fun k hk => hn k (.inr hk)) _ _ h2
    exact ⟨by rw [h1, h3], h4⟩
end

theorem start_same {d1 d2 : Obj} {k : Str} (h : Obj.get? k d1 = Obj.get? k d2) : Obj.get? k (startData d1) = Obj.get? k (startData d2) := by
  unfold startData
  by_cases hk : c!"CONTEXT" = k
  · rw [← hk] at h ⊢
    rw [Obj.get?_insert_self, Obj.get?_insert_self]
    unfold entry
    rw [h]
  · rw [Obj.get?_insert_ne _ _ hk, Obj.get?_insert_ne _ _ hk, h]

/-- **C80 (render).** The output of a template depends only on the entries of the data that its variables name, other than the
variables its own loops set: with the same entries, the same definitions and the same options two renders give the same output,
the same status, and evaluate the same number of BIFs, however different the rest of the data, the clock, the random numbers, and the files that the
template does not include are. -/
theorem C80_render (env1 env2 : Env) (n1 n2 : Nat) (w1 w2 : World) (t1 t2 : Tpl) (S : Site) (l : List Node) (sh1 sh2 : Shared) (s1 s2 d1 d2 defs : Obj)
    (hnew1 : Shared.new env1 w1 t1.schema = some sh1) (hS1 : SiteOf env1 sh1 S)
    (hnew2 : Shared.new env2 w2 t2.schema = some sh2) (hS2 : SiteOf env2 sh2 S)
    (hok : AllOk S [] l) (hraw1 : t1.raw = printAll l) (hraw2 : t2.raw = printAll l) (hb : c!"{:" <:+: printAll l)
    (hs1 : t1.schema = .obj s1) (hd1 : Obj.get? c!"data" s1 = some (.obj d1)) (hinh1 : Obj.get? c!"inherit" s1 = some (.obj defs))
    (hs2 : t2.schema = .obj s2) (hd2 : Obj.get? c!"data" s2 = some (.obj d2)) (hinh2 : Obj.get? c!"inherit" s2 = some (.obj defs))
    (hdefs : Defs S defs)
    (hmax1 : (meansAll S [] l (startMem d1 defs)).2.bifs ≤ sh1.max) (hmax2 : sh1.max ≤ sh2.max)
    (hcache : ¬ c!"{:!cache;" <:+: trim (meansAll S [] l (startMem d1 defs)).1)
    (hnames : ∀ name ∈ namesAll l, c!"local::" <+: name ∨ firstKey name ≠ [])
    (hsame : ∀ k ∈ freeAll l, Obj.get? k d1 = Obj.get? k d2) :
    ∃ t1' t2', t1.render env1 n1 w1 = .ok t1' ∧ t2.render env2 n2 w2 = .ok t2' ∧ t1'.out = t2'.out ∧
      t1'.statusCode = t2'.statusCode ∧ t1'.statusText = t2'.statusText ∧ t1'.statusParam = t2'.statusParam ∧
      t1'.hasError = t2'.hasError ∧ t1'.shared.count = t2'.shared.count := by
  obtain ⟨h1, h2⟩ := alike_all S l (fun k => k ∈ freeAll l) [] (fun _ h => h) hnames (startMem d1 defs) (startMem d2 defs)
    ⟨rfl, rfl, rfl, rfl, fun k hk _ _ => start_same (hsame k hk)⟩
  have h3 := h2.bifs
  obtain ⟨r1, t1', rfl, hr1, ht1, _⟩ := C77_render env1 n1 w1 t1 S l sh1 s1 d1 defs hnew1 hS1 hok hraw1 hb hs1 hd1 hinh1 hdefs hmax1 hcache
  obtain ⟨r2, t2', rfl, hr2, ht2, _⟩ := C77_render env2 n2 w2 t2 S l sh2 s2 d2 defs hnew2 hS2 hok hraw2 hb hs2 hd2 hinh2 hdefs
    (by rw [← h3]; omega) (by rw [← h1]; exact hcache)
  refine ⟨t1', t2', hr1, hr2, ?_, ?_, ?_, ?_, ?_, ?_⟩
  · rw [ht1.out, ht2.out, h1]
  · rw [ht1.code, ht2.code]
  · rw [ht1.text, ht2.text]
  · rw [ht1.param, ht2.param]
  · rw [ht1.noError.1, ht2.noError.1]
  · rw [ht1.ran, ht2.ran, h3]

/-! ### C81: files and snippets written where they are used -/

theorem bif_al {al1 al2 : Str} (h1 : al1 ≠ c!"coalesce") (h2 : al2 ≠ c!"coalesce") (run : Mem → Str × Mem) : bifOf al1 run = bifOf al2 run := by
  funext m
  unfold bifOf
  rw [if_neg (fun h => h1 h.1), if_neg (fun h => h2 h.1)]

theorem node_al (S : Site) {al1 al2 : Str} (h1 : al1 ≠ c!"coalesce") (h2 : al2 ≠ c!"coalesce") (x : Node) (m : Mem) :
    x.means S al1 m = x.means S al2 m := by
  cases x <;> simp only [Node.means] <;> rw [bif_al h1 h2]

theorem all_al (S : Site) {al1 al2 : Str} (h1 : al1 ≠ c!"coalesce") (h2 : al2 ≠ c!"coalesce") : ∀ (l : List Node) (m : Mem),
    meansAll S al1 l m = meansAll S al2 l m
  | [], m => by simp only [meansAll]
  | x :: l, m => by
    simp only [meansAll]
    rw [node_al S h1 h2, all_al S h1 h2 l]

/-- Not a text. -/
def Spec.Node.isBif : Node → Bool
  | .text _ => false
  | _ => true

theorem bifText_open (mods name src : Str) : ∃ r, bifText mods name src = c!"{:" ++ r := by
  unfold bifText
  exact ⟨_, by simp only [List.append_assoc]; rfl⟩

theorem print_bif {x : Node} (h : x.isBif = true) : ∃ r, x.print = c!"{:" ++ r := by
  cases x with
  | text t => simp [Node.isBif] at h
  | _ => simp only [Node.print]; exact bifText_open _ _ _

theorem print_open : ∀ (l : List Node), (∀ t, .text t ∈ l → TextOk t) → (c!"{:" <:+: printAll l ↔ l.any Node.isBif = true)
  | [], _ => by simp [printAll]
  | x :: l, h => by
    have ih := print_open l (fun t ht => h t (by simp [ht]))
    simp only [printAll, List.any_cons, Bool.or_eq_true]
    by_cases hx : x.isBif = true
    · obtain ⟨r, hr⟩ := print_bif hx
      exact ⟨fun _ => .inl hx, fun _ => ⟨[], r ++ printAll l, by rw [hr]; simp⟩⟩
    · cases x with
      | text t =>
        have ht := h t (by simp)
        simp only [Node.print]
        refine ⟨fun hi => .inr ?_, fun hi => ?_⟩
        · by_cases hl : l.any Node.isBif = true
          · exact hl
          · exact absurd hi (pair_append ht.noOpen (fun hh => hl (ih.1 hh)) (.inl ht.last))
        · rcases hi with hi | hi
          · exact absurd hi hx
          · exact (ih.2 hi).trans ⟨t, [], by simp⟩
      | _ => simp [Node.isBif] at hx

theorem inlined_bif (x : Node) : x.inlined.isBif = x.isBif := by cases x <;> simp only [Node.inlined, Node.isBif]

theorem inline_any : ∀ l : List Node, (inlineAll l).any Node.isBif = l.any Node.isBif
  | [] => by simp only [inlineAll]
  | x :: l => by simp only [inlineAll, List.any_cons, inlined_bif, inline_any l]

theorem inline_text (t : Str) : ∀ l : List Node, .text t ∈ inlineAll l → .text t ∈ l
  | [], h => by simp [inlineAll] at h
  | x :: l, h => by
    simp only [inlineAll, List.mem_cons] at h ⊢
    rcases h with h | h
    · left
      cases x <;> simp only [Node.inlined, reduceCtorEq] at h ⊢
      exact h
    · exact .inr (inline_text t l h)

theorem textOk_mem {S : Site} {al t : Str} : ∀ l : List Node, AllOk S al l → .text t ∈ l → TextOk t
  | [], _, h => by simp at h
  | x :: l, hok, h => by
    simp only [AllOk] at hok
    rcases List.mem_cons.1 h with h | h
    · have := hok.1
      rw [← h] at this
      simpa only [Node.Ok] using this
    · exact textOk_mem l hok.2 h

theorem inline_open {S : Site} {al : Str} {l : List Node} (h : AllOk S al l) : c!"{:" <:+: printAll (inlineAll l) ↔ c!"{:" <:+: printAll l := by
  rw [print_open _ (fun t ht => textOk_mem l h (inline_text t l ht)), print_open _ (fun t ht => textOk_mem l h ht), inline_any]

theorem inline_same {S : Site} {al : Str} {l : List Node} (h : AllOk S al l) (ho : ¬ c!"{:" <:+: printAll l) : inlineAll l = l := by
  rw [print_open _ (fun t ht => textOk_mem l h ht)] at ho
  clear h
  induction l with
  | nil => simp only [inlineAll]
  | cons x l ih =>
    simp only [List.any_cons, Bool.or_eq_true, not_or] at ho
    simp only [inlineAll]
    rw [ih ho.2]
    cases x with
    | text t => simp only [Node.inlined]
    | _ => simp [Node.isBif] at ho

theorem inline_arg {S : Site} {al : Str} {l : List Node} (h : AllOk S al l) (hm : meansAll S al (inlineAll l) = meansAll S al l) :
    argOf (printAll (inlineAll l)) (meansAll S al (inlineAll l)) = argOf (printAll l) (meansAll S al l) := by
  funext m
  unfold argOf
  rw [hm]
  by_cases ho : c!"{:" <:+: printAll l
  · rw [if_pos ho, if_pos ((inline_open h).2 ho)]
  · rw [if_neg ho, if_neg (fun hx => ho ((inline_open h).1 hx))]
    rw [inline_same h ho]

mutual
theorem inline_node (S : Site) : ∀ (x : Node) (al : Str), x.Ok S al → x.inlined.means S al = x.means S al
  | .text t, al, _ => by simp only [Node.inlined]
  | .var amp name, al, _ => by simp only [Node.inlined]
  | .cond neg plus kind name body, al, h => by
    simp only [Node.Ok] at h
    funext m
    simp only [Node.inlined, Node.means, inline_all S body kind h.2.2]
  | .cmp neg plus kind a b body, al, h => by
    simp only [Node.Ok] at h
    funext m
    simp only [Node.inlined, Node.means]
    rw [inline_arg h.2.1 (inline_all S a kind h.2.1), inline_arg h.2.2.1 (inline_all S b kind h.2.2.1), inline_all S body kind h.2.2.2.1]
  | .els neg plus body, al, h => by
    simp only [Node.Ok] at h
    funext m
    simp only [Node.inlined, Node.means, inline_all S body c!"else" h]
  | .coalesce plus body, al, h => by
    simp only [Node.Ok] at h
    funext m
    simp only [Node.inlined, Node.means, inline_all S body c!"coalesce" h]
  | .code plus body, al, h => by
    simp only [Node.Ok] at h
    funext m
    simp only [Node.inlined, Node.means, inline_all S body c!"code" h]
  | .each plus coll key val body, al, h => by
    simp only [Node.Ok] at h
    funext m
    simp only [Node.inlined, Node.means, inline_all S body c!"each" h.2.2.2]
  | .range plus v a b body, al, h => by
    simp only [Node.Ok] at h
    funext m
    simp only [Node.inlined, Node.means, inline_all S body c!"for" h.2.2.2.2]
  | .param name, al, _ => by simp only [Node.inlined]
  | .setParam name body, al, h => by
    simp only [Node.Ok] at h
    funext m
    simp only [Node.inlined, Node.means, inline_all S body c!"param" h.2.2]
  | .trans neg body, al, h => by
    simp only [Node.Ok] at h
    funext m
    simp only [Node.inlined, Node.means, inline_all S body c!"trans" h]
  | .incl path body, al, h => by
    simp only [Node.Ok] at h
    funext m
    simp only [Node.inlined, Node.means]
    have : meansAll S c!"code" (inlineAll body) = meansAll S c!"include" body := by
      funext m
      rw [all_al S (al1 := c!"code") (al2 := c!"include") (by decide) (by decide), inline_all S body c!"include" h.2.2.2]
    rw [this]
  | .snippet kind name body, al, h => by
    simp only [Node.Ok] at h
    funext m
    simp only [Node.inlined, Node.means]
    have : meansAll S c!"code" (inlineAll body) = meansAll S c!"snippet" body := by
      funext m
      rw [all_al S (al1 := c!"code") (al2 := c!"snippet") (by decide) (by decide), inline_all S body c!"snippet" h.2.2.2]
    rw [this]
  | .leaf _, al, _ => by simp only [Node.inlined]
  | .replace a b body, al, h => by
    simp only [Node.Ok] at h
    funext m
    simp only [Node.inlined, Node.means]
    rw [inline_arg h.1 (inline_all S a c!"replace" h.1), inline_arg h.2.1 (inline_all S b c!"replace" h.2.1),
      inline_all S body c!"replace" h.2.2.1]
  | .allow neg name body, al, h => by
    simp only [Node.Ok] at h
    funext m
    simp only [Node.inlined, Node.means, inline_all S body c!"allow" h.2.2]
  | .eval neg plus test body, al, h => by
    simp only [Node.Ok] at h
    funext m
    simp only [Node.inlined, Node.means, inline_all S test c!"eval" h.1, inline_all S body c!"eval" h.2.2]
    by_cases ho : c!"{:" <:+: printAll body
    · simp only [if_pos ho, if_pos ((inline_open h.2.2).2 ho)]
    · rw [inline_same h.2.2 ho]
  | .hash body, al, h => by
    simp only [Node.Ok] at h
    funext m
    simp only [Node.inlined, Node.means, inline_all S body c!"hash" h.1]
theorem inline_all (S : Site) : ∀ (l : List Node) (al : Str), AllOk S al l → meansAll S al (inlineAll l) = meansAll S al l
  | [], al, _ => by simp only [inlineAll]
  | x :: l, al, h => by
    simp only [AllOk] at h
    funext m
    simp only [inlineAll, meansAll]
    rw [inline_node S x al h.1, inline_all S l al h.2]
end

/-- **C81 (render).** Writing the text of an included file (in a `code` with `+`) or of a snippet (in a `code`) where it is used
changes neither the output nor the status nor the number of BIFs of a render, however deep files and snippets are used in files
and snippets. -/
theorem C81_render (env : Env) (n : Nat) (w : World) (t1 t2 : Tpl) (S : Site) (l : List Node) (sh : Shared) (s d defs : Obj)
    (hnew : Shared.new env w t1.schema = some sh) (hS : SiteOf env sh S) (hsch : t2.schema = t1.schema)
    (hok1 : AllOk S [] l) (hraw1 : t1.raw = printAll l) (hok2 : AllOk S [] (inlineAll l)) (hraw2 : t2.raw = printAll (inlineAll l))
    (hb : c!"{:" <:+: printAll l)
    (hs : t1.schema = .obj s) (hd : Obj.get? c!"data" s = some (.obj d))
    (hinh : Obj.get? c!"inherit" s = some (.obj defs)) (hdefs : Defs S defs)
    (hmax : (meansAll S [] l (startMem d defs)).2.bifs ≤ sh.max)
    (hcache : ¬ c!"{:!cache;" <:+: trim (meansAll S [] l (startMem d defs)).1) :
    ∃ t1' t2', t1.render env n w = .ok t1' ∧ t2.render env n w = .ok t2' ∧ t1'.out = t2'.out ∧
      t1'.statusCode = t2'.statusCode ∧ t1'.statusText = t2'.statusText ∧ t1'.statusParam = t2'.statusParam ∧
      t1'.hasError = t2'.hasError ∧ t1'.shared.count = t2'.shared.count := by
  have h := inline_all S l [] hok1
  obtain ⟨r1, t1', rfl, hr1, ht1, _⟩ := C77_render env n w t1 S l sh s d defs hnew hS hok1 hraw1 hb hs hd hinh hdefs hmax hcache
  obtain ⟨r2, t2', rfl, hr2, ht2, _⟩ := C77_render env n w t2 S (inlineAll l) sh s d defs (by rw [hsch]; exact hnew) hS hok2 hraw2
    ((inline_open hok1).2 hb) (by rw [hsch]; exact hs) hd hinh hdefs (by rw [h]; exact hmax) (by rw [h]; exact hcache)
  rw [h] at ht2
  refine ⟨t1', t2', hr1, hr2, ?_, ?_, ?_, ?_, ?_, ?_⟩
  · rw [ht1.out, ht2.out]
  · rw [ht1.code, ht2.code]
  · rw [ht1.text, ht2.text]
  · rw [ht1.param, ht2.param]
  · rw [ht1.noError.1, ht2.noError.1]
  · rw [ht1.ran, ht2.ran]

/-! ### The premises are met -/

theorem Sample.page_file : ∀ path t, Sample.pageSite.file path = some t →
    ∃ e canon, Sample.pageWorld.fs path = some e ∧ Sample.env.canon path = .ok canon ∧ e.content = some t := by
  intro p t h
  simp only [Sample.pageSite] at h
  split at h
  · next hp =>
    simp only [Option.some.injEq] at h
    subst h hp
    exact ⟨_, _, rfl, rfl, rfl⟩
  · simp at h

/-- A page that prints data in all the places of the language, always with the filter. -/
def Sample.safePage : List Node :=
  [.text c!"<ul>", .each false c!"l" c!"k" c!"v" [.text c!" <li>", .var true c!"v", .text c!"</li> "],
    .code true [.setParam c!"who" [.var true c!"x"]], .incl c!"p.ntpl" Sample.part, .snippet c!"snip" c!"s" Sample.button,
    .var true c!"CONTEXT->GET->q", .text c!"</ul>", .allow true c!"any" [.var true c!"x"],
    .eval false false [.var false c!"x"] [.text c!"(", .var true c!"__eval__", .text c!")"], .leaf .mark, .leaf .up, .leaf .lang]

/-- Its data, all of them hostile. -/
def Sample.hostile : Obj :=
  [(c!"x", .str c!"{:exit;:}"), (c!"l", .arr [.str c!"<script>", .str c!"&", .str c!"'/"]),
    (c!"CONTEXT", .obj [(c!"GET", .obj [(c!"q", .str c!"<{:;x:}>")])])]

theorem Sample.safePage_ok : AllOk Sample.pageSite [] Sample.safePage := by
  simp only [Sample.safePage, Sample.part, Sample.button, AllOk, Node.Ok, Leaf.Ok, and_true, true_and]
  exact ⟨textOk_of (by decide), ⟨nameOk_of (by decide), ⟨nameOk_of (by decide), by decide⟩, ⟨nameOk_of (by decide), by decide⟩,
      textOk_of (by decide), nameOk_of (by decide), textOk_of (by decide)⟩,
    ⟨nameOk_of (by decide), nameOk_of (by decide)⟩,
    ⟨nameOk_of (by decide), by decide, rfl, textOk_of (by decide), textOk_of (by decide), textOk_of (by decide), nameOk_of (by decide),
      textOk_of (by decide)⟩,
    ⟨by decide, nameOk_of (by decide), by decide, textOk_of (by decide), nameOk_of (by decide), textOk_of (by decide)⟩,
    nameOk_of (by decide), textOk_of (by decide), ⟨nameOk_of (by decide), by decide, nameOk_of (by decide)⟩,
    nameOk_of (by decide), by decide, textOk_of (by decide), nameOk_of (by decide), textOk_of (by decide)⟩

theorem Sample.show_clean : ∀ x, ∀ c ∈ Sample.pageSite.F.show_ x, c ≠ '&' ∧ c ∉ special true := by
  intro x c hc
  have h := showNat_digits x c hc
  refine ⟨?_, digit_not_special h⟩
  rintro rfl
  exact absurd h (by decide)

theorem Sample.page_trans (key : Str) :
    shownAs Sample.pageSite.F (resolvePointer (((entry Sample.pageDefs c!"locale").index c!"trans").index Sample.pageSite.lang) key) ∈
      [c!"", c!"Hello"] := by
  have e : ((entry Sample.pageDefs c!"locale").index c!"trans").index Sample.pageSite.lang = .obj [(c!"Hi", .str c!"Hello")] := rfl
  rw [e]
  cases h : resolvePointer (.obj [(c!"Hi", .str c!"Hello")]) key with
  | none => exact List.mem_cons_self
  | some w =>
    rcases below_obj (resolvePointer_below h) with rfl | ⟨x, hx, hw⟩
    · exact List.mem_cons_self
    · simp only [List.mem_cons, List.not_mem_nil, or_false] at hx
      subst hx
      cases hw
      exact List.mem_cons_of_mem _ List.mem_cons_self

set_option maxRecDepth 10000 in
/-- The premises of C78 are met, with hostile data. -/
example : ∃ t' x, (Sample.tpl (Sample.schema 1000 Sample.hostile Sample.pageDefs) (printAll Sample.safePage)).render Sample.env 10
      Sample.pageWorld = .ok t' ∧ MadeOf (Written Sample.pageSite Sample.safePage Sample.pageDefs) x ∧ ¬ c!"{:" <:+: x ∧
      t'.out = replacements x ∧ t'.statusCode = c!"200" ∧ t'.hasError = false ∧
      ∀ c ∈ special true, (∀ t, Written Sample.pageSite Sample.safePage Sample.pageDefs t → c ∉ t) → c ∉ t'.out :=
  C78_render Sample.env 10 Sample.pageWorld _ Sample.pageSite Sample.safePage _ _ Sample.hostile Sample.pageDefs rfl
    ⟨rfl, rfl, rfl, rfl, rfl, rfl, Sample.page_file⟩ Sample.safePage_ok rfl (by decide +kernel) rfl rfl rfl ⟨.inr ⟨_, rfl⟩, rfl, rfl⟩ (by decide +kernel)
    (by
      simp only [Sample.safePage, Sample.part, Sample.button, AllFilter, Node.Filters, true_or, and_self, true_and, and_true,
        Bool.false_eq_true, false_implies]
      exact clean_of_chars (s := c!"en") (by decide)) (by decide +kernel)
    Sample.show_clean
    (by
      intro w hw
      have e : entry Sample.pageDefs c!"params" = .obj [] := rfl
      rw [e] at hw
      rcases below_obj hw with rfl | ⟨x, hx, _⟩
      · exact clean_nil
      · simp at hx)
    (by
      rintro t (ht | ⟨key, rfl⟩)
      · have : ∀ t ∈ textsAll Sample.safePage, ¬ c!"{:" <:+: t ∧ (trimEnd t).getLast? ≠ some '{' := by decide +kernel
        exact this t ht
      · have : ∀ t ∈ [c!"", c!"Hello"], ¬ c!"{:" <:+: t ∧ (trimEnd t).getLast? ≠ some '{' := by decide +kernel
        exact this _ (Sample.page_trans key))

set_option maxRecDepth 10000 in
/-- What is rendered. -/
example : (Sample.outOf ((Sample.tpl (Sample.schema 1000 Sample.hostile Sample.pageDefs) (printAll Sample.safePage)).render Sample.env 10
      Sample.pageWorld)).map (·.1) =
    some c!"<ul><li>&lt;script&gt;</li><li>&amp;</li><li>&#x27;&#x2F;</li><p>Hello &#123;:exit;:&#125;</p>[&#123;:exit;:&#125;]&lt;&#123;:;x:&#125;&gt;</ul>(&#123;:exit;:&#125;)en" := by
  decide +kernel

set_option maxRecDepth 10000 in
/-- **C78 (the premises are needed).** A loop whose variable is named `CONTEXT` makes the filter trust data of the schema; and a
text that ends in `{` and white space forms a delimiter with the data that follow it. -/
theorem C78_premises_needed :
    Sample.outOf (Sample.go [(c!"l", .arr [.obj [(c!"a", .str c!"<script>")]])] c!"{:each; l k CONTEXT >> {:&;CONTEXT->a:} :}") =
      some (c!"<script>", c!"200") ∧
    Sample.outOf (Sample.go [(c!"x", .str c!":a")] c!"{:code; {:;y:}{ :}{:&;x:}") = some (c!"{:a", c!"200") := by
  constructor <;> decide +kernel

set_option maxRecDepth 10000 in
/-- The premises of C79 are met; the variable of the `for` had no value, and has the empty text in the end. -/
example : ∃ t' d', (Sample.tpl (Sample.schema 1000 Sample.pageData Sample.pageDefs) (printAll Sample.page)).render Sample.env 10
      Sample.pageWorld = .ok t' ∧ t'.shared.schema.index c!"data" = .obj d' ∧
      (∀ k, k ∉ countersAll Sample.page → entry d' k = entry (startData Sample.pageData) k) ∧
      (∀ k, firstKey k = k → ¬ c!"local::" <+: k → entry d' k = entry (startData Sample.pageData) k ∨
        entry d' k = .str (shownAs Sample.pageSite.F (some (entry (startData Sample.pageData) k)))) :=
  C79_render Sample.env 10 Sample.pageWorld _ Sample.pageSite Sample.page _ _ Sample.pageData Sample.pageDefs rfl
    ⟨rfl, rfl, rfl, rfl, rfl, rfl, Sample.page_file⟩ Sample.page_ok rfl (by decide +kernel) rfl rfl rfl ⟨.inr ⟨_, rfl⟩, rfl, rfl⟩ (by decide +kernel)
    (by decide +kernel)

/-- The loops of the page set more variables than that one. -/
example : countersAll Sample.page = [c!"i", c!"__eval__", c!"__eval__"] ∧
    bindsAll Sample.page = [c!"k", c!"v", c!"i", c!"__eval__", c!"__eval__"] := by decide

/-- The data of the page and other entries, among them the variables of its loops. -/
def Sample.moreData : Obj :=
  [(c!"k", .str c!"other"), (c!"i", .num (.int 9)), (c!"x", .str c!"X<"), (c!"v", .obj [(c!"b", .bool true)]), (c!"secret", .str c!"s"),
    (c!"l", .arr [.str c!"a", .obj [(c!"b", .bool true)], .num (.int 3)])]

/-- What the page reads. -/
example : freeAll Sample.page = [c!"l", c!"x", c!"u", c!"x", c!"x", c!"x", c!"x", c!"x", c!"x", c!"u"] := by decide

set_option maxRecDepth 10000 in
/-- The premises of C80 are met. -/
example : ∃ t1' t2', (Sample.tpl (Sample.schema 1000 Sample.pageData Sample.pageDefs) (printAll Sample.page)).render Sample.env 10
      Sample.pageWorld = .ok t1' ∧
      (Sample.tpl (Sample.schema 1000 Sample.moreData Sample.pageDefs) (printAll Sample.page)).render Sample.env 10
      Sample.pageWorld = .ok t2' ∧ t1'.out = t2'.out ∧
      t1'.statusCode = t2'.statusCode ∧ t1'.statusText = t2'.statusText ∧ t1'.statusParam = t2'.statusParam ∧
      t1'.hasError = t2'.hasError ∧ t1'.shared.count = t2'.shared.count :=
  C80_render Sample.env Sample.env 10 10 Sample.pageWorld Sample.pageWorld _ _ Sample.pageSite Sample.page _ _ _ _ Sample.pageData Sample.moreData
    Sample.pageDefs rfl ⟨rfl, rfl, rfl, rfl, rfl, rfl, Sample.page_file⟩ rfl ⟨rfl, rfl, rfl, rfl, rfl, rfl, Sample.page_file⟩ Sample.page_ok rfl rfl
    (by decide +kernel) rfl rfl rfl rfl rfl rfl ⟨.inr ⟨_, rfl⟩, rfl, rfl⟩ (by decide +kernel) (Nat.le_refl _) (by decide +kernel)
    (by decide +kernel) (by
      intro k hk
      have e : freeAll Sample.page = [c!"l", c!"x", c!"u", c!"x", c!"x", c!"x", c!"x", c!"x", c!"x", c!"u"] := by decide
      rw [e] at hk
      simp only [List.mem_cons, List.not_mem_nil, or_false] at hk
      rcases hk with rfl | rfl | rfl | rfl | rfl | rfl | rfl | rfl | rfl | rfl <;> rfl)

set_option maxRecDepth 10000 in
/-- Also with another clock and other random numbers. -/
example : ∃ t1' t2', (Sample.tpl (Sample.schema 1000 Sample.pageData Sample.pageDefs) (printAll Sample.page)).render Sample.env 10
      Sample.pageWorld = .ok t1' ∧
      (Sample.tpl (Sample.schema 1000 Sample.pageData Sample.pageDefs) (printAll Sample.page)).render
        { Sample.env with now := fun _ => 7, randRange := fun _ _ b => b, randHash := fun _ => c!"z" } 3
        ⟨Sample.pageWorld.fs, 99⟩ = .ok t2' ∧ t1'.out = t2'.out ∧
      t1'.statusCode = t2'.statusCode ∧ t1'.statusText = t2'.statusText ∧ t1'.statusParam = t2'.statusParam ∧
      t1'.hasError = t2'.hasError ∧ t1'.shared.count = t2'.shared.count :=
  C80_render Sample.env { Sample.env with now := fun _ => 7, randRange := fun _ _ b => b, randHash := fun _ => c!"z" } 10 3
    Sample.pageWorld ⟨Sample.pageWorld.fs, 99⟩ _ _ Sample.pageSite Sample.page _ _ _ _ Sample.pageData Sample.pageData
    Sample.pageDefs rfl ⟨rfl, rfl, rfl, rfl, rfl, rfl, Sample.page_file⟩ rfl ⟨rfl, rfl, rfl, rfl, rfl, rfl, Sample.page_file⟩ Sample.page_ok rfl rfl
    (by decide +kernel) rfl rfl rfl rfl rfl rfl ⟨.inr ⟨_, rfl⟩, rfl, rfl⟩ (by decide +kernel) (Nat.le_refl _) (by decide +kernel)
    (by decide +kernel) (fun _ _ => rfl)

theorem Sample.page_inline_ok : AllOk Sample.pageSite [] (inlineAll Sample.page) := by
  simp only [Sample.page, Sample.part, Sample.button, inlineAll, Node.inlined, AllOk, Node.Ok, Leaf.Ok, and_true, true_and]
  exact ⟨textOk_of (by decide), ⟨nameOk_of (by decide), ⟨nameOk_of (by decide), by decide⟩, ⟨nameOk_of (by decide), by decide⟩,
      textOk_of (by decide), nameOk_of (by decide), textOk_of (by decide),
      ⟨by decide, nameOk_of (by decide), textOk_of (by decide), nameOk_of (by decide)⟩, textOk_of (by decide)⟩,
    ⟨by decide, nameOk_of (by decide), textOk_of (by decide), textOk_of (by decide), by decide, by decide⟩,
    ⟨nameOk_of (by decide), nameOk_of (by decide), nameOk_of (by decide)⟩, textOk_of (by decide),
    ⟨⟨nameOk_of (by decide), textOk_of (by decide), nameOk_of (by decide)⟩,
      ⟨nameOk_of (by decide), by decide⟩, by decide, by decide, by decide, nameOk_of (by decide), textOk_of (by decide)⟩,
    ⟨textOk_of (by decide), textOk_of (by decide), textOk_of (by decide), nameOk_of (by decide), textOk_of (by decide)⟩,
    ⟨textOk_of (by decide), nameOk_of (by decide), textOk_of (by decide)⟩,
    ⟨textOk_of (by decide), nameOk_of (by decide), textOk_of (by decide), by decide, by decide⟩,
    ⟨nameOk_of (by decide), by decide, nameOk_of (by decide)⟩,
    ⟨nameOk_of (by decide), by decide, textOk_of (by decide), nameOk_of (by decide), textOk_of (by decide)⟩,
    ⟨textOk_of (by decide), nameOk_of (by decide)⟩, by decide, textOk_of (by decide)⟩

set_option maxRecDepth 10000 in
/-- The premises of C81 are met. -/
example : ∃ t1' t2', (Sample.tpl (Sample.schema 1000 Sample.pageData Sample.pageDefs) (printAll Sample.page)).render Sample.env 10
      Sample.pageWorld = .ok t1' ∧
      (Sample.tpl (Sample.schema 1000 Sample.pageData Sample.pageDefs) (printAll (inlineAll Sample.page))).render Sample.env 10
      Sample.pageWorld = .ok t2' ∧ t1'.out = t2'.out ∧
      t1'.statusCode = t2'.statusCode ∧ t1'.statusText = t2'.statusText ∧ t1'.statusParam = t2'.statusParam ∧
      t1'.hasError = t2'.hasError ∧ t1'.shared.count = t2'.shared.count :=
  C81_render Sample.env 10 Sample.pageWorld (Sample.tpl (Sample.schema 1000 Sample.pageData Sample.pageDefs) (printAll Sample.page))
    (Sample.tpl (Sample.schema 1000 Sample.pageData Sample.pageDefs) (printAll (inlineAll Sample.page))) Sample.pageSite Sample.page _ _
    Sample.pageData Sample.pageDefs rfl ⟨rfl, rfl, rfl, rfl, rfl, rfl, Sample.page_file⟩ rfl Sample.page_ok rfl Sample.page_inline_ok rfl
    (by decide +kernel) rfl rfl rfl ⟨.inr ⟨_, rfl⟩, rfl, rfl⟩ (by decide +kernel) (by decide +kernel)

end Nts
