import Verif.Spec.Rename
import Verif.Props.LangUse
/-
C111: the names of the variables do not matter.
-/
set_option autoImplicit false
namespace Nts
open Spec

/-! ### Names -/

/-- What can follow a first key. -/
def SepStart (r : Str) : Prop := r = [] ∨ (∃ z, r = '/' :: z) ∨ ∃ z, r = '-' :: '>' :: z

theorem firstKey_append {r : Str} (hr : SepStart r) : ∀ {k : Str}, firstKey k = k → firstKey (k ++ r) = k
  | [], _ => by
    rcases hr with rfl | ⟨z, rfl⟩ | ⟨z, rfl⟩
    · rfl
    · simp [firstKey]
    · simp [firstKey]
  | c :: k, h => by
    rw [firstKey] at h
    split at h
    · simp at h
    · next hc =>
      rw [not_or] at hc
      simp only [List.cons.injEq, true_and] at h
      have hn : ¬ (c = '/' ∨ c!"->" <+: c :: (k ++ r)) := by
        rw [not_or]
        refine ⟨hc.1, ?_⟩
        rintro ⟨z, hz⟩
        simp only [List.cons_append, List.nil_append, List.cons.injEq] at hz
        obtain ⟨rfl, hz⟩ := hz
        cases k with
        | nil =>
          rcases hr with rfl | ⟨z', rfl⟩ | ⟨z', rfl⟩
          · simp at hz
          · simp at hz
          · simp at hz
        | cons x k =>
          simp only [List.cons_append, List.cons.injEq] at hz
          exact hc.2 ⟨k, by rw [← hz.1]; rfl⟩
      rw [List.cons_append, firstKey, if_neg hn, firstKey_append hr h]

/-- A name is its first key and what follows. -/
theorem firstKey_rest : ∀ (s : Str), ∃ r, s = firstKey s ++ r ∧ SepStart r
  | [] => ⟨[], rfl, .inl rfl⟩
  | c :: r => by
    rw [firstKey]
    split
    · next h =>
      refine ⟨c :: r, rfl, .inr ?_⟩
      rcases h with rfl | ⟨z, hz⟩
      · exact .inl ⟨r, rfl⟩
      · exact .inr ⟨z, by rw [← hz]; rfl⟩
    · obtain ⟨q, h1, h2⟩ := firstKey_rest r
      exact ⟨q, by rw [List.cons_append, ← h1], h2⟩

/-- What follows the first key, looked up in its value. -/
def below (v : Value) : Str → Option Value
  | '/' :: z => resolveGo v [] z
  | '-' :: '>' :: z => resolveGo v [] z
  | _ => some v

theorem resolveGo_key (d : Obj) {r : Str} (hr : SepStart r) : ∀ (k part : Str), firstKey k = k → part.reverse ++ k ≠ [] →
    resolveGo (.obj d) part (k ++ r) = (Obj.get? (part.reverse ++ k) d).bind (fun v => below v r)
  | [], part, _, hn => by
    simp only [List.append_nil, ne_eq, List.reverse_eq_nil_iff] at hn
    rw [List.nil_append, List.append_nil]
    rcases hr with rfl | ⟨z, rfl⟩ | ⟨z, rfl⟩
    · simp only [resolveGo, List.isEmpty_iff, if_neg hn, resolveStep, below]
      cases Obj.get? part.reverse d <;> rfl
    · rw [resolveGo, if_pos rfl]
      · simp only [List.isEmpty_iff, if_neg hn, resolveStep, below]
      · rintro r' h
        exact absurd h (by decide)
    · rw [resolveGo, if_neg (by decide)]
      simp only [List.isEmpty_iff, if_neg hn, resolveStep, below]
  | c :: k, part, h, hn => by
    have h0 := firstKey_append hr h
    rw [firstKey] at h
    split at h
    · simp at h
    · next hc =>
      simp only [List.cons.injEq, true_and] at h
      have hc' : ¬ (c = '/' ∨ c!"->" <+: c :: (k ++ r)) := by
        intro h'
        rw [List.cons_append, firstKey, if_pos h'] at h0
        simp at h0
      rw [not_or] at hc'
      have ih := resolveGo_key d hr k (c :: part) h (by simp)
      rw [List.cons_append, resolveGo, if_neg hc'.1]
      · rw [ih]; simp
      · rintro r' rfl h2
        exact hc'.2 ⟨r', by rw [h2]; rfl⟩

theorem resolve_key_rest (d : Obj) {k r : Str} (hr : SepStart r) (hk : firstKey k = k) (hn : k ≠ []) :
    resolvePointer (.obj d) (k ++ r) = (Obj.get? k d).bind (fun v => below v r) := by
  unfold resolvePointer
  split
  · next hc =>
    simp only [Bool.and_eq_true, Bool.not_eq_true'] at hc
    have h1 := (contains_false_iff (by simp)).1 hc.1
    have h2 := (contains_false_iff (by simp)).1 hc.2
    rcases hr with rfl | ⟨z, rfl⟩ | ⟨z, rfl⟩
    · rw [List.append_nil]
      show Obj.get? k d = _
      cases Obj.get? k d <;> rfl
    · exact absurd ⟨k, z, by simp⟩ h2
    · exact absurd ⟨k, z, by simp⟩ h1
  · have := resolveGo_key d hr k [] hk (by simpa using hn)
    simpa using this

theorem local_first (name : Str) : c!"local::" <+: firstKey name ↔ c!"local::" <+: name := by
  constructor
  · intro h
    obtain ⟨r, h1, _⟩ := firstKey_rest name
    rw [h1]
    exact h.trans (List.prefix_append _ _)
  · rintro ⟨z, rfl⟩
    refine ⟨firstKey z, ?_⟩
    simp [firstKey, List.cons_prefix_cons]

/-- The parts of a renamed name. -/
theorem nameAs_parts {ρ : Str → Str} {name : Str} (hl : ¬ c!"local::" <+: name) :
    ∃ r, SepStart r ∧ name = firstKey name ++ r ∧ nameAs ρ name = ρ (firstKey name) ++ r := by
  obtain ⟨r, h1, h2⟩ := firstKey_rest name
  refine ⟨r, h2, h1, ?_⟩
  unfold nameAs
  rw [if_neg hl]
  congr 1
  conv => lhs; rw [h1]
  have : firstKey (firstKey name ++ r) = firstKey name := by rw [← h1]
  rw [this, List.drop_left]

theorem nameAs_local {ρ : Str → Str} (hρ : Renaming ρ) {name : Str} (hn : c!"local::" <+: name ∨ firstKey name ≠ []) :
    c!"local::" <+: nameAs ρ name ↔ c!"local::" <+: name := by
  by_cases hl : c!"local::" <+: name
  · unfold nameAs
    rw [if_pos hl]
  · obtain ⟨r, h1, h2, h3⟩ := nameAs_parts (ρ := ρ) hl
    have hf := (hρ.plain _ (firstKey_first name) (hn.resolve_left hl)).1
    refine ⟨fun h => ?_, fun h => absurd h hl⟩
    rw [← local_first, h3, firstKey_append h1 hf, hρ.loc, local_first] at h
    exact h

theorem nameAs_context {ρ : Str → Str} (hρ : Renaming ρ) {name : Str} (hn : c!"local::" <+: name ∨ firstKey name ≠ []) :
    c!"CONTEXT->" <+: nameAs ρ name ↔ c!"CONTEXT->" <+: name := by
  by_cases hl : c!"local::" <+: name
  · unfold nameAs
    rw [if_pos hl]
  · obtain ⟨r, h1, h2, h3⟩ := nameAs_parts (ρ := ρ) hl
    have hf := (hρ.plain _ (firstKey_first name) (hn.resolve_left hl)).1
    have key : ∀ k, firstKey k = k → (c!"CONTEXT->" <+: k ++ r ↔ k = c!"CONTEXT" ∧ c!"->" <+: r) := by
      intro k hk
      constructor
      · rintro ⟨z, hz⟩
        have e : firstKey (c!"CONTEXT->" ++ z) = c!"CONTEXT" := by simp [firstKey, List.cons_prefix_cons]
        rw [hz, firstKey_append h1 hk] at e
        subst e
        refine ⟨rfl, z, ?_⟩
        simpa using hz
      · rintro ⟨rfl, z, rfl⟩
        exact ⟨z, by simp⟩
    rw [h3, key _ hf]
    conv => rhs; rw [h2, key _ (firstKey_first name)]
    constructor
    · rintro ⟨h, h'⟩
      exact ⟨hρ.inj _ _ (by rw [h, hρ.context]), h'⟩
    · rintro ⟨h, h'⟩
      exact ⟨by rw [h, hρ.context], h'⟩

theorem nameAs_plain {ρ : Str → Str} {k : Str} (hk : firstKey k = k) (hl : ¬ c!"local::" <+: k) : nameAs ρ k = ρ k := by
  unfold nameAs
  rw [if_neg hl, hk, List.drop_length, List.append_nil]

/-! ### Texts -/

theorem bifText_opens (mods name src : Str) : c!"{:" <:+: bifText mods name src :=
  ⟨[], mods ++ name ++ c!";" ++ src ++ c!":}", by simp [bifText]⟩

theorem renamed_text {ρ : Str → Str} : ∀ x : Node, (x.renamed ρ).print = x.print ∨ (c!"{:" <:+: x.print ∧ c!"{:" <:+: (x.renamed ρ).print) := by
  intro x
  cases x with
  | text t => exact .inl (by simp only [Node.renamed])
  | _ =>
    right
    simp only [Node.renamed, Node.print]
    exact ⟨bifText_opens _ _ _, bifText_opens _ _ _⟩

/-- A renamed text is the same, or both have BIFs. -/
theorem renamed_texts (ρ : Str → Str) : ∀ l : List Node,
    printAll (renameAll ρ l) = printAll l ∨ (c!"{:" <:+: printAll l ∧ c!"{:" <:+: printAll (renameAll ρ l))
  | [] => .inl (by simp only [renameAll])
  | x :: l => by
    simp only [renameAll, printAll]
    rcases renamed_text (ρ := ρ) x with h1 | ⟨h1, h1'⟩
    · rcases renamed_texts ρ l with h2 | ⟨h2, h2'⟩
      · exact .inl (by rw [h1, h2])
      · exact .inr ⟨h2.trans (List.suffix_append _ _).isInfix, h2'.trans (List.suffix_append _ _).isInfix⟩
    · exact .inr ⟨h1.trans (List.prefix_append _ _).isInfix, h1'.trans (List.prefix_append _ _).isInfix⟩

theorem infix_skip {q a b : Str} (h : '{' ∉ a) : '{' :: q <:+: a ++ b ↔ '{' :: q <:+: b := by
  induction a with
  | nil => rfl
  | cons c a ih =>
    simp only [List.mem_cons, not_or] at h
    rw [List.cons_append, List.infix_cons_iff, ih h.2]
    constructor
    · rintro (h' | h')
      · obtain ⟨z, hz⟩ := h'
        simp only [List.cons_append, List.cons.injEq] at hz
        exact absurd hz.1 h.1
      · exact h'
    · exact .inr

theorem snip_split {l1 l2 : Str} (h : c!"{:snip" = l1 ++ l2) (h1 : l1 ≠ []) (h2 : l2 ≠ []) :
    (l1 = c!"{" ∧ l2 = c!":snip") ∨ (l1 = c!"{:" ∧ l2 = c!"snip") ∨ (l1 = c!"{:s" ∧ l2 = c!"nip") ∨ (l1 = c!"{:sn" ∧ l2 = c!"ip") ∨
      (l1 = c!"{:sni" ∧ l2 = c!"p") := by
  have e1 : l1 = (c!"{:snip").take l1.length := by rw [h]; simp
  have e2 : l2 = (c!"{:snip").drop l1.length := by rw [h]; simp
  have e3 : l1.length + l2.length = 6 := by rw [← List.length_append, ← h]; rfl
  have e4 := List.length_pos_iff.2 h1
  have e5 := List.length_pos_iff.2 h2
  generalize l1.length = n at e1 e2 e3 e4
  have : n = 1 ∨ n = 2 ∨ n = 3 ∨ n = 4 ∨ n = 5 := by omega
  rcases this with rfl | rfl | rfl | rfl | rfl
  · exact .inl ⟨e1, e2⟩
  · exact .inr (.inl ⟨e1, e2⟩)
  · exact .inr (.inr (.inl ⟨e1, e2⟩))
  · exact .inr (.inr (.inr (.inl ⟨e1, e2⟩)))
  · exact .inr (.inr (.inr (.inr ⟨e1, e2⟩)))

/-- Before something that is not a part of `:snip`. -/
theorem snip_before {a b : Str} (h : ∀ c ∈ b.head?, c ≠ ':' ∧ c ≠ 's' ∧ c ≠ 'n' ∧ c ≠ 'i' ∧ c ≠ 'p') :
    c!"{:snip" <:+: a ++ b ↔ c!"{:snip" <:+: a ∨ c!"{:snip" <:+: b := by
  rw [List.infix_append_iff_ne_nil]
  constructor
  · rintro (h1 | h1 | ⟨l1, l2, n1, n2, e, h1, z, h2⟩)
    · exact .inl h1
    · exact .inr h1
    · subst h2
      rcases snip_split e n1 n2 with ⟨_, rfl⟩ | ⟨_, rfl⟩ | ⟨_, rfl⟩ | ⟨_, rfl⟩ | ⟨_, rfl⟩ <;> simp at h
  · rintro (h1 | h1)
    · exact .inl h1
    · exact .inr (.inl h1)

/-- After something that does not end in a part of `{:snip`. -/
theorem snip_after {a b : Str} (h1 : a.getLast? ≠ some '{') (h2 : ¬ c!"{:" <:+: a ∨ a.getLast? = some '}') :
    c!"{:snip" <:+: a ++ b ↔ c!"{:snip" <:+: a ∨ c!"{:snip" <:+: b := by
  rw [List.infix_append_iff_ne_nil]
  constructor
  · rintro (h | h | ⟨l1, l2, n1, n2, e, h, _⟩)
    · exact .inl h
    · exact .inr h
    · exfalso
      obtain ⟨z, rfl⟩ := h
      rcases snip_split e n1 n2 with ⟨rfl, _⟩ | ⟨rfl, _⟩ | ⟨rfl, _⟩ | ⟨rfl, _⟩ | ⟨rfl, _⟩
      · simp at h1
      all_goals
        rcases h2 with h2 | h2
        · exact h2 ⟨z, _, by rw [List.append_assoc]; rfl⟩
        · simp at h2
  · rintro (h | h)
    · exact .inl h
    · exact .inr (.inl h)

theorem snip_bif {mods name src : Str} (hn : '{' ∉ mods ++ name) :
    c!"{:snip" <:+: bifText mods name src ↔ c!"snip" <+: mods ++ name ++ c!";" ++ src ++ c!":}" ∨ c!"{:snip" <:+: src := by
  have e : bifText mods name src = '{' :: ((c!":" ++ (mods ++ name) ++ c!";") ++ (src ++ c!":}")) := by simp [bifText]
  rw [e, List.infix_cons_iff, infix_skip (by simpa using hn)]
  have e1 : c!"{:snip" <+: '{' :: ((c!":" ++ (mods ++ name) ++ c!";") ++ (src ++ c!":}")) ↔ c!"snip" <+: mods ++ name ++ c!";" ++ src ++ c!":}" := by
    simp [List.cons_prefix_cons]
  rw [e1]
  have e2 : c!"{:snip" <:+: src ++ c!":}" ↔ c!"{:snip" <:+: src := by
    rw [List.infix_append_iff_ne_nil]
    constructor
    · rintro (h | h | ⟨l1, l2, n1, n2, e, h, z, h2⟩)
      · exact h
      · exact absurd h (by decide)
      · rcases snip_split e n1 n2 with ⟨_, rfl⟩ | ⟨_, rfl⟩ | ⟨_, rfl⟩ | ⟨_, rfl⟩ | ⟨_, rfl⟩ <;> simp at h2
    · exact .inl
  rw [e2]

/-- `{:name` with a name of the language other than `snip` and `snippet`. -/
theorem snip_kind {kind src : Str} (neg plus : Bool) (hk : kind ∈ langNames) (hk' : kind ≠ c!"snippet" ∧ kind ≠ c!"snip") :
    c!"{:snip" <:+: bifText (marks neg plus) kind src ↔ c!"{:snip" <:+: src := by
  rw [snip_bif (by
    obtain ⟨k1, k2, k3⟩ := kind_text hk neg plus
    intro h
    exact k1 (List.mem_append_left _ h))]
  constructor
  · rintro (h | h)
    · exfalso
      have : ∀ s, ¬ c!"snip" <+: marks neg plus ++ kind ++ c!";" ++ s := by
        intro s
        simp only [langNames, List.mem_cons, List.not_mem_nil, or_false] at hk
        revert hk'
        cases neg <;> cases plus <;> rcases hk with rfl | rfl | rfl | rfl | rfl | rfl | rfl | rfl | rfl | rfl | rfl | rfl | rfl | rfl | rfl | rfl | rfl | rfl | rfl | rfl | rfl | rfl | rfl | rfl <;>
          simp [marks, List.cons_prefix_cons]
      exact this (src ++ c!":}") (by simpa using h)
    · exact h
  · exact .inr

mutual
/-- A snippet is used in what is written (not in files or snippets). -/
def Spec.Node.snips : Node → Bool
  | .text _ => false
  | .var _ _ => false
  | .cond _ _ _ _ body => snipsAll body
  | .cmp _ _ _ a b body => snipsAll a || (snipsAll b || snipsAll body)
  | .els _ _ body => snipsAll body
  | .coalesce _ body => snipsAll body
  | .code _ body => snipsAll body
  | .each _ _ _ _ body => snipsAll body
  | .range _ _ _ _ body => snipsAll body
  | .param _ => false
  | .setParam _ body => snipsAll body
  | .trans _ body => snipsAll body
  | .incl _ _ => false
  | .snippet _ _ _ => true
  | .leaf _ => false
  | .replace a b body => snipsAll a || (snipsAll b || snipsAll body)
  | .allow _ _ body => snipsAll body
  | .eval _ _ test body => snipsAll test || snipsAll body
  | .hash body => snipsAll body
/-- In one of them. -/
def Spec.snipsAll : List Node → Bool
  | [] => false
  | x :: l => Node.snips x || snipsAll l
end

mutual
theorem snips_renamed (ρ : Str → Str) : ∀ x : Node, (x.renamed ρ).snips = x.snips
  | .text _ => by simp only [Node.renamed]
  | .var _ _ => by simp only [Node.renamed, Node.snips]
  | .cond _ _ _ _ body => by simp only [Node.renamed, Node.snips]; exact snips_renameAll ρ body
  | .cmp _ _ _ a b body => by simp only [Node.renamed, Node.snips]; rw [snips_renameAll ρ a, snips_renameAll ρ b, snips_renameAll ρ body]
  | .els _ _ body => by simp only [Node.renamed, Node.snips]; exact snips_renameAll ρ body
  | .coalesce _ body => by simp only [Node.renamed, Node.snips]; exact snips_renameAll ρ body
  | .code _ body => by simp only [Node.renamed, Node.snips]; exact snips_renameAll ρ body
  | .each _ _ _ _ body => by simp only [Node.renamed, Node.snips]; exact snips_renameAll ρ body
  | .range _ _ _ _ body => by simp only [Node.renamed, Node.snips]; exact snips_renameAll ρ body
  | .param _ => by simp only [Node.renamed]
  | .setParam _ body => by simp only [Node.renamed, Node.snips]; exact snips_renameAll ρ body
  | .trans _ body => by simp only [Node.renamed, Node.snips]; exact snips_renameAll ρ body
  | .incl _ _ => by simp only [Node.renamed, Node.snips]
  | .snippet _ _ _ => by simp only [Node.renamed, Node.snips]
  | .leaf _ => by simp only [Node.renamed, Node.snips]
  | .replace a b body => by simp only [Node.renamed, Node.snips]; rw [snips_renameAll ρ a, snips_renameAll ρ b, snips_renameAll ρ body]
  | .allow _ _ body => by simp only [Node.renamed, Node.snips]; exact snips_renameAll ρ body
  | .eval _ _ test body => by simp only [Node.renamed, Node.snips]; rw [snips_renameAll ρ test, snips_renameAll ρ body]
  | .hash body => by simp only [Node.renamed, Node.snips]; exact snips_renameAll ρ body
theorem snips_renameAll (ρ : Str → Str) : ∀ l : List Node, snipsAll (renameAll ρ l) = snipsAll l
  | [] => by simp only [renameAll]
  | x :: l => by simp only [renameAll, snipsAll]; rw [snips_renamed ρ x, snips_renameAll ρ l]
end

/-- Something without braces, then a template. -/
theorem snip_body {a t : Str} (h : '{' ∉ a) : c!"{:snip" <:+: a ++ t ++ c!" " ↔ c!"{:snip" <:+: t := by
  rw [List.append_assoc, infix_skip h, snip_before (by simp)]
  exact ⟨fun h => h.resolve_right (by decide), .inl⟩

theorem snip_args {a b t : Str} : c!"{:snip" <:+: c!" /" ++ a ++ c!"/" ++ b ++ c!"/ >> " ++ t ++ c!" " ↔
    c!"{:snip" <:+: a ∨ c!"{:snip" <:+: b ∨ c!"{:snip" <:+: t := by
  have e : c!" /" ++ a ++ c!"/" ++ b ++ c!"/ >> " ++ t ++ c!" " = c!" /" ++ (a ++ (c!"/" ++ (b ++ (c!"/ >> " ++ t ++ c!" ")))) := by
    simp
  rw [e, infix_skip (by decide), snip_before (by simp), infix_skip (by decide), snip_before (by simp), snip_body (by decide)]

theorem snip_plain {a : Str} (h : '{' ∉ a) : ¬ c!"{:snip" <:+: c!" " ++ a ++ c!" " := by
  intro h'
  have : '{' ∈ c!" " ++ a ++ c!" " := h'.subset (by simp)
  simp [h] at this

theorem isBif_last (mods name src : Str) : (bifText mods name src).getLast? = some '}' := by
  unfold bifText
  rw [List.getLast?_append]
  rfl

mutual
theorem snip_node {S : Site} {al : Str} : ∀ (x : Node), x.Ok S al → (c!"{:snip" <:+: x.print ↔ x.snips = true)
  | .text t, h => by
    simp only [Node.Ok] at h
    simp only [Node.print, Node.snips, Bool.false_eq_true, iff_false]
    exact fun h' => h.noOpen (List.IsInfix.trans ⟨[], c!"snip", rfl⟩ h')
  | .var amp name, h => by
    simp only [Node.Ok] at h
    simp only [Node.print, Node.snips, Bool.false_eq_true, iff_false]
    rw [snip_bif (by cases amp <;> decide)]
    rintro (h' | h')
    · cases amp <;> simp [List.cons_prefix_cons] at h'
    · exact (nameOk_braces h).1 (h'.subset (by simp))
  | .cond neg plus kind name body, h => by
    simp only [Node.Ok] at h
    simp only [Node.print, Node.snips]
    obtain ⟨h1, h2⟩ := nameOk_braces h.2.1
    rw [snip_kind neg plus (cond_names h.1) (by
      have := h.1
      simp only [List.mem_cons, List.not_mem_nil, or_false] at this
      rcases this with rfl | rfl | rfl | rfl <;> decide), snip_body (by simp [h1]), snip_all body h.2.2]
  | .cmp neg plus kind a b body, h => by
    simp only [Node.Ok] at h
    simp only [Node.print, Node.snips, Bool.or_eq_true]
    obtain ⟨h1, ha, hb, hbody, _⟩ := h
    rw [snip_kind neg plus (cmp_names h1) (by
      simp only [List.mem_cons, List.not_mem_nil, or_false] at h1
      rcases h1 with rfl | rfl <;> decide), snip_args, snip_all a ha, snip_all b hb, snip_all body hbody]
  | .els neg plus body, h => by
    simp only [Node.Ok] at h
    simp only [Node.print, Node.snips]
    rw [snip_kind neg plus (by decide) (by decide), snip_body (by decide), snip_all body h]
  | .coalesce plus body, h => by
    simp only [Node.Ok] at h
    simp only [Node.print, Node.snips]
    rw [snip_kind false plus (by decide) (by decide), snip_body (by decide), snip_all body h]
  | .code plus body, h => by
    simp only [Node.Ok] at h
    simp only [Node.print, Node.snips]
    rw [snip_kind false plus (by decide) (by decide), snip_body (by decide), snip_all body h]
  | .each plus coll key val body, h => by
    simp only [Node.Ok] at h
    simp only [Node.print, Node.snips]
    obtain ⟨h1, h2, h3, h4⟩ := h
    obtain ⟨e1, e2⟩ := each_braces h1 h2.1 h3.1
    rw [snip_kind false plus (by decide) (by decide), snip_body (not_mem_append (not_mem_append (by decide) e1) (by decide)), snip_all body h4]
  | .range plus v a b body, h => by
    simp only [Node.Ok] at h
    simp only [Node.print, Node.snips]
    obtain ⟨h1, h2, h3, h4, h5⟩ := h
    obtain ⟨e1, e2⟩ := range_braces h1.1 a b
    rw [snip_kind false plus (by decide) (by decide), snip_body (not_mem_append (not_mem_append (by decide) e1) (by decide)), snip_all body h5]
  | .param name, h => by
    simp only [Node.Ok] at h
    simp only [Node.print, Node.snips, Bool.false_eq_true, iff_false]
    have := snip_kind (kind := c!"param") (src := c!" " ++ name ++ c!" ") false false (by decide) (by decide)
    simp only [marks, Bool.false_eq_true, if_false, List.append_nil] at this
    rw [this]
    exact snip_plain (nameOk_braces h).1
  | .setParam name body, h => by
    simp only [Node.Ok] at h
    simp only [Node.print, Node.snips]
    have := snip_kind (kind := c!"param") (src := c!" " ++ name ++ c!" >> " ++ printAll body ++ c!" ") false false (by decide) (by decide)
    simp only [marks, Bool.false_eq_true, if_false, List.append_nil] at this
    rw [this, snip_body (by simp [(nameOk_braces h.2.1).1]), snip_all body h.2.2]
  | .trans neg body, h => by
    simp only [Node.Ok] at h
    simp only [Node.print, Node.snips]
    rw [snip_kind neg false (by decide) (by decide), snip_body (by decide), snip_all body h]
  | .incl path body, h => by
    simp only [Node.Ok] at h
    simp only [Node.print, Node.snips, Bool.false_eq_true, iff_false]
    have := snip_kind (kind := c!"include") (src := c!" " ++ path ++ c!" ") false false (by decide) (by decide)
    simp only [marks, Bool.false_eq_true, if_false, List.append_nil] at this
    rw [this]
    exact snip_plain (nameOk_braces h.1).1
  | .snippet kind name body, h => by
    simp only [Node.Ok] at h
    simp only [Node.print, Node.snips, iff_true]
    have h1 := h.1
    simp only [List.mem_cons, List.not_mem_nil, or_false] at h1
    rcases h1 with rfl | rfl
    · exact ⟨[], _, rfl⟩
    · exact ⟨[], _, rfl⟩
  | .leaf k, h => by
    simp only [Node.Ok] at h
    simp only [Node.print, Node.snips, Bool.false_eq_true, iff_false]
    cases k with
    | lang => decide
    | mark => decide
    | up => decide
    | join keys name sep =>
      obtain ⟨hn, _, _, h1, h2⟩ := h
      rw [join_source]
      have := snip_kind (kind := c!"join") (src := c!" " ++ (c!"/" ++ name ++ c!"/" ++ sep ++ (if keys then c!"/keys/" else c!"/")) ++ c!" ")
        false false (by decide) (by decide)
      exact fun h => snip_plain (join_braces hn h1 h2).1 (this.1 h)
    | load locale path v =>
      have := snip_kind (kind := if locale then c!"locale" else c!"data") (src := c!" " ++ path ++ c!" ") false false (load_names locale)
        (by cases locale <;> decide)
      exact fun h' => snip_plain (nameOk_braces h.1).1 (this.1 h')
  | .replace a b body, h => by
    simp only [Node.Ok] at h
    simp only [Node.print, Node.snips, Bool.or_eq_true]
    obtain ⟨ha, hb, hbody, _⟩ := h
    have := snip_kind (kind := c!"replace") (src := c!" /" ++ printAll a ++ c!"/" ++ printAll b ++ c!"/ >> " ++ printAll body ++ c!" ")
      false false (by decide) (by decide)
    simp only [marks, Bool.false_eq_true, if_false, List.append_nil] at this
    rw [this, snip_args, snip_all a ha, snip_all b hb, snip_all body hbody]
  | .allow neg name body, h => by
    simp only [Node.Ok] at h
    simp only [Node.print, Node.snips]
    rw [snip_kind neg false (by decide) (by decide), snip_body (by simp [(nameOk_braces h.1).1]), snip_all body h.2.2]
  | .eval neg plus test body, h => by
    simp only [Node.Ok] at h
    simp only [Node.print, Node.snips, Bool.or_eq_true]
    have e : c!" " ++ printAll test ++ c!" >> " ++ printAll body ++ c!" " = c!" " ++ (printAll test ++ (c!" >> " ++ printAll body ++ c!" ")) := by
      simp
    rw [snip_kind neg plus (by decide) (by decide), e, infix_skip (by decide), snip_before (by simp), snip_body (by decide), snip_all test h.1,
      snip_all body h.2.2]
  | .hash body, h => by
    simp only [Node.Ok] at h
    simp only [Node.print, Node.snips]
    have := snip_kind (kind := c!"hash") (src := c!" " ++ printAll body ++ c!" ") false false (by decide) (by decide)
    simp only [marks, Bool.false_eq_true, if_false, List.append_nil] at this
    rw [this, snip_body (by decide), snip_all body h.1]
theorem snip_all {S : Site} {al : Str} : ∀ (l : List Node), AllOk S al l → (c!"{:snip" <:+: printAll l ↔ snipsAll l = true)
  | [], _ => by simp only [printAll, snipsAll]; decide
  | x :: l, h => by
    simp only [AllOk] at h
    simp only [printAll, snipsAll, Bool.or_eq_true]
    rw [← snip_node x h.1, ← snip_all l h.2]
    cases x with
    | text t =>
      have ht := h.1
      simp only [Node.Ok] at ht
      exact snip_after ht.last (.inl ht.noOpen)
    | _ =>
      simp only [Node.print]
      exact snip_after (by rw [isBif_last]; decide) (.inr (isBif_last _ _ _))
end

theorem infix_trim_iff {p s : Str} (hp : ∀ c ∈ p, isWs c = false) (hn : p ≠ []) : p <:+: trim s ↔ p <:+: s := by
  refine ⟨fun h => h.trans (trim_infix s), fun h => ?_⟩
  obtain ⟨a, ha, hwa⟩ := trimStart_eq s
  obtain ⟨b, hb, hwb⟩ := trimEnd_eq (trimStart s)
  obtain ⟨c, r, rfl⟩ := List.exists_cons_of_ne_nil hn
  have h1 : c :: r <:+: trimStart s := by
    rw [ha] at h
    generalize trimStart s = u at h ⊢
    clear ha hb
    induction a with
    | nil => exact h
    | cons x a ih =>
      rw [List.cons_append, List.infix_cons_iff] at h
      rcases h with ⟨z, hz⟩ | h
      · simp only [List.cons_append, List.cons.injEq] at hz
        have e1 := hwa x (by simp)
        rw [← hz.1, hp c (by simp)] at e1
        cases e1
      · exact ih (fun y hy => hwa y (by simp [hy])) h
  show c :: r <:+: trimEnd (trimStart s)
  rw [hb] at h1
  generalize trimEnd (trimStart s) = u at h1 ⊢
  rw [List.infix_append_iff_ne_nil] at h1
  rcases h1 with h1 | h1 | ⟨l1, l2, n1, n2, e, _, h2⟩
  · exact h1
  · have := hwb c (h1.subset (by simp))
    rw [hp c (by simp)] at this
    cases this
  · obtain ⟨y, q, rfl⟩ := List.exists_cons_of_ne_nil n2
    have e1 := hwb y (h2.subset (by simp))
    rw [hp y (by rw [e]; simp)] at e1
    cases e1

theorem snip_renamed {S1 S2 : Site} {al1 al2 : Str} (ρ : Str → Str) {l : List Node} (h1 : AllOk S1 al1 l) (h2 : AllOk S2 al2 (renameAll ρ l)) :
    (c!"{:snip" <:+: trim (printAll l)) ↔ c!"{:snip" <:+: trim (printAll (renameAll ρ l)) := by
  rw [infix_trim_iff (by decide) (by decide), infix_trim_iff (by decide) (by decide), snip_all l h1, snip_all _ h2, snips_renameAll]

/-! ### The files and the snippets are in the template -/

theorem site_words {S1 S2 : Site} (hS : SameSite S1 S2) (name : Str) : wordsOf S1 name = wordsOf S2 name := by
  unfold wordsOf
  rw [hS.F, hS.declared]

theorem site_translated {S1 S2 : Site} (hS : SameSite S1 S2) (m : Mem) (t : Str) : translated S1 m t = translated S2 m t := by
  unfold translated
  rw [hS.F, hS.lang]

theorem site_leaf {S1 S2 : Site} (hS : SameSite S1 S2) (k : Leaf) (m : Mem) : k.shown S1 m = k.shown S2 m := by
  cases k <;> simp only [Leaf.shown, hS.F, hS.lang]

mutual
theorem site_node {S1 S2 : Site} (hS : SameSite S1 S2) : ∀ (x : Node) (al : Str), x.means S1 al = x.means S2 al
  | .text _, al => by funext m; simp only [Node.means, hS.F, hS.filterAll, hS.sanitize, hS.md5, site_words hS, site_translated hS, site_leaf hS]
  | .var _ _, al => by funext m; simp only [Node.means, hS.F, hS.filterAll, hS.sanitize, hS.md5, site_words hS, site_translated hS, site_leaf hS]
  | .cond _ _ _ _ body, al => by funext m; simp only [Node.means, hS.F, hS.filterAll, hS.sanitize, hS.md5, site_words hS, site_translated hS, site_leaf hS, site_all hS body]
  | .cmp _ _ _ a b body, al => by funext m; simp only [Node.means, hS.F, hS.filterAll, hS.sanitize, hS.md5, site_words hS, site_translated hS, site_leaf hS, site_all hS a, site_all hS b, site_all hS body]
  | .els _ _ body, al => by funext m; simp only [Node.means, hS.F, hS.filterAll, hS.sanitize, hS.md5, site_words hS, site_translated hS, site_leaf hS, site_all hS body]
  | .coalesce _ body, al => by funext m; simp only [Node.means, hS.F, hS.filterAll, hS.sanitize, hS.md5, site_words hS, site_translated hS, site_leaf hS, site_all hS body]
  | .code _ body, al => by funext m; simp only [Node.means, hS.F, hS.filterAll, hS.sanitize, hS.md5, site_words hS, site_translated hS, site_leaf hS, site_all hS body]
  | .each _ _ _ _ body, al => by funext m; simp only [Node.means, hS.F, hS.filterAll, hS.sanitize, hS.md5, site_words hS, site_translated hS, site_leaf hS, site_all hS body]
  | .range _ _ _ _ body, al => by funext m; simp only [Node.means, hS.F, hS.filterAll, hS.sanitize, hS.md5, site_words hS, site_translated hS, site_leaf hS, site_all hS body]
  | .param _, al => by funext m; simp only [Node.means, hS.F, hS.filterAll, hS.sanitize, hS.md5, site_words hS, site_translated hS, site_leaf hS]
  | .setParam _ body, al => by funext m; simp only [Node.means, hS.F, hS.filterAll, hS.sanitize, hS.md5, site_words hS, site_translated hS, site_leaf hS, site_all hS body]
  | .trans _ body, al => by funext m; simp only [Node.means, hS.F, hS.filterAll, hS.sanitize, hS.md5, site_words hS, site_translated hS, site_leaf hS, site_all hS body]
  | .incl _ body, al => by funext m; simp only [Node.means, hS.F, hS.filterAll, hS.sanitize, hS.md5, site_words hS, site_translated hS, site_leaf hS, site_all hS body]
  | .snippet _ _ body, al => by funext m; simp only [Node.means, hS.F, hS.filterAll, hS.sanitize, hS.md5, site_words hS, site_translated hS, site_leaf hS, site_all hS body]
  | .leaf k, al => by funext m; simp only [Node.means, hS.F, hS.filterAll, hS.sanitize, hS.md5, site_words hS, site_translated hS, site_leaf hS]
  | .replace a b body, al => by funext m; simp only [Node.means, hS.F, hS.filterAll, hS.sanitize, hS.md5, site_words hS, site_translated hS, site_leaf hS, site_all hS a, site_all hS b, site_all hS body]
  | .allow _ _ body, al => by funext m; simp only [Node.means, hS.F, hS.filterAll, hS.sanitize, hS.md5, site_words hS, site_translated hS, site_leaf hS, site_all hS body]
  | .eval _ _ test body, al => by funext m; simp only [Node.means, hS.F, hS.filterAll, hS.sanitize, hS.md5, site_words hS, site_translated hS, site_leaf hS, site_all hS test, site_all hS body]
  | .hash body, al => by funext m; simp only [Node.means, hS.F, hS.filterAll, hS.sanitize, hS.md5, site_words hS, site_translated hS, site_leaf hS, site_all hS body]
theorem site_all {S1 S2 : Site} (hS : SameSite S1 S2) : ∀ (l : List Node) (al : Str), meansAll S1 al l = meansAll S2 al l
  | [], al => by funext m; simp only [meansAll]
  | x :: l, al => by funext m; simp only [meansAll, site_node hS x, site_all hS l]
end

/-! ### The meaning of a renamed template -/

/-- Two memories with the same definitions, and the same entries `K` of the data, under the new names in the second. -/
structure Moved (ρ : Str → Str) (K : Str → Prop) (m1 m2 : Mem) : Prop where
  defs : m1.defs = m2.defs
  last : m1.last = m2.last
  lastC : m1.lastC = m2.lastC
  bifs : m1.bifs = m2.bifs
  data : ∀ k, K k → firstKey k = k → k ≠ [] → Obj.get? k m1.data = Obj.get? (ρ k) m2.data

/-- The same output, and the entries stay the same. -/
def Agree2 (ρ : Str → Str) (K : Str → Prop) (run1 run2 : Mem → Str × Mem) : Prop :=
  ∀ m1 m2, Moved ρ K m1 m2 → (run1 m1).1 = (run2 m2).1 ∧ Moved ρ K (run1 m1).2 (run2 m2).2

variable {ρ : Str → Str} {K : Str → Prop}

theorem agree2_block {plus : Bool} {run1 run2 : Mem → Str × Mem} (h : Agree2 ρ K run1 run2) :
    Agree2 ρ K (blockOf plus run1) (blockOf plus run2) := by
  intro m1 m2 hm
  obtain ⟨h1, h2⟩ := h m1 m2 hm
  refine ⟨congrArg trim h1, ?_, hm.last, hm.lastC, h2.bifs, h2.data⟩
  cases plus
  · exact hm.defs
  · exact h2.defs

theorem agree2_arg {a : List Node} {run1 run2 : Mem → Str × Mem} (h : Agree2 ρ K run1 run2) :
    Agree2 ρ K (argOf (printAll a) run1) (argOf (printAll (renameAll ρ a)) run2) := by
  intro m1 m2 hm
  unfold argOf
  rcases renamed_texts ρ a with e | ⟨e1, e2⟩
  · rw [e]
    split
    · exact agree2_block h m1 m2 hm
    · exact ⟨rfl, hm⟩
  · rw [if_pos e1, if_pos e2]
    exact agree2_block h m1 m2 hm

theorem agree2_bif {al : Str} {run1 run2 : Mem → Str × Mem} (h : Agree2 ρ K run1 run2) : Agree2 ρ K (bifOf al run1) (bifOf al run2) := by
  intro m1 m2 hm
  unfold bifOf
  have hl := hm.lastC
  by_cases hc : al = c!"coalesce" ∧ m1.lastC = true
  · rw [if_pos hc, if_pos (by rw [← hl]; exact hc)]
    exact ⟨rfl, hm⟩
  · rw [if_neg hc, if_neg (by rw [← hl]; exact hc)]
    obtain ⟨h1, h2⟩ := h { m1 with bifs := m1.bifs + 1 } { m2 with bifs := m2.bifs + 1 }
      ⟨hm.defs, hm.last, hm.lastC, congrArg (· + 1) hm.bifs, hm.data⟩
    dsimp only
    rw [h1]
    exact ⟨rfl, h2.defs, rfl, rfl, h2.bifs, h2.data⟩

/-- The variables of a round, renamed. -/
def movedVars (ρ : Str → Str) (vs : List (Str × Value)) : List (Str × Value) := vs.map (fun kv => (ρ kv.1, kv.2))

theorem moved_setAll (hρ : Renaming ρ) : ∀ (vs : List (Str × Value)) {K : Str → Prop} {d1 d2 : Obj},
    (∀ k, K k → firstKey k = k → k ≠ [] → Obj.get? k d1 = Obj.get? (ρ k) d2) →
    ∀ k, (K k ∨ k ∈ vs.map (·.1)) → firstKey k = k → k ≠ [] → Obj.get? k (setAll vs d1) = Obj.get? (ρ k) (setAll (movedVars ρ vs) d2)
  | [], K, d1, d2, h, k, hk, hf, hn => by
    simp only [List.map_nil, List.not_mem_nil, or_false] at hk
    exact h k hk hf hn
  | (j, v) :: vs, K, d1, d2, h, k, hk, hf, hn => by
    simp only [setAll, movedVars, List.map_cons]
    refine moved_setAll hρ vs (K := fun k => K k ∨ k = j) (fun i hi hif hin => ?_) k ?_ hf hn
    · by_cases hij : j = i
      · subst hij
        rw [Obj.get?_insert_self, Obj.get?_insert_self]
      · rw [Obj.get?_insert_ne _ _ hij, Obj.get?_insert_ne _ _ (fun h => hij (hρ.inj _ _ h))]
        rcases hi with hi | hi
        · exact h i hi hif hin
        · exact absurd hi.symm hij
    · simp only [List.map_cons, List.mem_cons] at hk
      rcases hk with hk | hk | hk
      · exact .inl (.inl hk)
      · exact .inl (.inr hk)
      · exact .inr hk

theorem agree2_loop (hρ : Renaming ρ) {vars : List Str} {plus : Bool} {run1 run2 : Mem → Str × Mem}
    (h : Agree2 ρ (fun k => K k ∨ k ∈ vars) run1 run2) :
    ∀ (l : List (List (Str × Value))), (∀ vs ∈ l, vs.map (·.1) = vars) → Agree2 ρ K (loopOf plus run1 l) (loopOf plus run2 (l.map (movedVars ρ)))
  | [], _ => fun m1 m2 hm => ⟨rfl, hm⟩
  | vs :: l, hl => fun m1 m2 hm => by
    simp only [loopOf, List.map_cons]
    obtain ⟨h1, h2⟩ := agree2_block (plus := plus) h { m1 with data := setAll vs m1.data } { m2 with data := setAll (movedVars ρ vs) m2.data }
      ⟨hm.defs, hm.last, hm.lastC, hm.bifs, fun k hk => moved_setAll hρ vs hm.data k (by rw [hl vs (by simp)]; exact hk)⟩
    obtain ⟨h3, h4⟩ := agree2_loop hρ (plus := plus) h l (fun vs hv => hl vs (by simp [hv])) _ _
      (⟨h2.defs, h2.last, h2.lastC, h2.bifs, fun k hk => h2.data k (.inl hk)⟩ : Moved ρ K _ _)
    exact ⟨by rw [h1, h3], h4⟩

theorem moved_value (hρ : Renaming ρ) {m1 m2 : Mem} {name : Str} (hm : Moved ρ K m1 m2) (hK : ∀ k ∈ reads name, K k)
    (hn : c!"local::" <+: name ∨ firstKey name ≠ []) : valueOf m1 name = valueOf m2 (nameAs ρ name) := by
  unfold valueOf
  by_cases hl : c!"local::" <+: name
  · have e : nameAs ρ name = name := by
      unfold nameAs
      rw [if_pos hl]
    rw [e, if_pos hl, if_pos hl, hm.defs]
  · rw [if_neg hl, if_neg (fun h => hl ((nameAs_local hρ hn).1 h))]
    have hf : firstKey name ≠ [] := hn.resolve_left hl
    obtain ⟨r, h1, h2, h3⟩ := nameAs_parts (ρ := ρ) hl
    obtain ⟨p1, p2⟩ := hρ.plain _ (firstKey_first name) hf
    rw [h3]
    conv => lhs; rw [h2]
    rw [resolve_key_rest _ h1 (firstKey_first _) hf, resolve_key_rest _ h1 p1 p2, hm.data _ (hK _ ?_) (firstKey_first _) hf]
    unfold reads
    rw [if_neg hl]
    simp

theorem moved_insert (hρ : Renaming ρ) {j : Str} {v1 v2 : Value} {d1 d2 : Obj}
    (h : ∀ k, K k → firstKey k = k → k ≠ [] → Obj.get? k d1 = Obj.get? (ρ k) d2) (hv : K j → firstKey j = j → j ≠ [] → v1 = v2) :
    ∀ k, K k → firstKey k = k → k ≠ [] → Obj.get? k (Obj.insert j v1 d1) = Obj.get? (ρ k) (Obj.insert (ρ j) v2 d2) := by
  intro k hk hf hn
  by_cases hj : j = k
  · subst hj
    rw [Obj.get?_insert_self, Obj.get?_insert_self, hv hk hf hn]
  · rw [Obj.get?_insert_ne _ _ hj, Obj.get?_insert_ne _ _ (fun h => hj (hρ.inj _ _ h))]
    exact h k hk hf hn

theorem moved_entry {m1 m2 : Mem} (hm : Moved ρ K m1 m2) {k : Str} (hk : K k) (hf : firstKey k = k) (hn : k ≠ []) :
    entry m1.data k = entry m2.data (ρ k) := by
  unfold entry
  rw [hm.data k hk hf hn]

/-- The value of a variable that is set. -/
theorem moved_own (hρ : Renaming ρ) {m1 m2 : Mem} (hm : Moved ρ K m1 m2) {k : Str} (hk : K k) (hf : firstKey k = k) (hn : k ≠ [])
    (hl : ¬ c!"local::" <+: k) : valueOf m1 k = valueOf m2 (ρ k) := by
  rw [moved_value hρ hm (name := k) (fun i hi => ?_) (.inr (by rw [hf]; exact hn)), nameAs_plain hf hl]
  unfold reads at hi
  rw [if_neg hl] at hi
  rw [List.mem_singleton.1 hi, hf]
  exact hk

mutual
theorem agree2_node (hρ : Renaming ρ) {S1 S2 : Site} (S : Site) : ∀ (x : Node) (K : Str → Prop) (al : Str), x.Ok S1 al → (x.renamed ρ).Ok S2 al →
    (∀ k ∈ x.free, K k) → (∀ name ∈ x.names, c!"local::" <+: name ∨ firstKey name ≠ []) →
    Agree2 ρ K (x.means S al) ((x.renamed ρ).means S al)
  | .text t, K, al, ok1, ok2, _, _ => fun m1 m2 hm => by simp only [Node.renamed, Node.means]; exact ⟨trivial, hm⟩
  | .var amp name, K, al, ok1, ok2, hK, hn => fun m1 m2 hm => by
    simp only [Node.free] at hK
    simp only [Node.names, List.mem_singleton, forall_eq] at hn
    simp only [Node.renamed, Node.means]
    refine agree2_bif (fun m1 m2 hm => ⟨?_, hm⟩) m1 m2 hm
    dsimp only
    rw [moved_value hρ hm hK hn]
    unfold printedAs
    simp only [nameAs_context hρ hn]
  | .cond neg plus kind name body, K, al, ok1, ok2, hK, hn => fun m1 m2 hm => by
    simp only [Node.Ok] at ok1
    simp only [Node.renamed, Node.Ok] at ok2
    simp only [Node.free, List.mem_append] at hK
    simp only [Node.names, List.mem_cons] at hn
    simp only [Node.renamed, Node.means]
    refine agree2_bif (fun m1 m2 hm => ?_) m1 m2 hm
    rw [moved_value hρ hm (fun k hk => hK k (.inl hk)) (hn _ (.inl rfl))]
    split
    · exact ⟨rfl, hm⟩
    · exact agree2_block (agree2_all hρ S body K kind ok1.2.2 ok2.2.2 (fun k hk => hK k (.inr hk)) (fun k hk => hn k (.inr hk))) m1 m2 hm
  | .cmp neg plus kind a b body, K, al, ok1, ok2, hK, hn => fun m1 m2 hm => by
    simp only [Node.Ok] at ok1
    simp only [Node.renamed, Node.Ok] at ok2
    simp only [Node.free, List.mem_append] at hK
    simp only [Node.names, List.mem_append] at hn
    simp only [Node.renamed, Node.means]
    refine agree2_bif (fun m1 m2 hm => ?_) m1 m2 hm
    obtain ⟨h1, h2⟩ := agree2_arg (a := a) (agree2_all hρ S a K kind ok1.2.1 ok2.2.1 (fun k hk => hK k (.inl hk)) (fun k hk => hn k (.inl hk))) m1 m2 hm
    obtain ⟨h3, h4⟩ := agree2_arg (a := b)
      (agree2_all hρ S b K kind ok1.2.2.1 ok2.2.2.1 (fun k hk => hK k (.inr (.inl hk))) (fun k hk => hn k (.inr (.inl hk)))) _ _ h2
    rw [h1, h3]
    split
    · exact ⟨rfl, h4⟩
    · exact agree2_block (agree2_all hρ S body K kind ok1.2.2.2.1 ok2.2.2.2.1 (fun k hk => hK k (.inr (.inr hk))) (fun k hk => hn k (.inr (.inr hk)))) _ _ h4
  | .els neg plus body, K, al, ok1, ok2, hK, hn => fun m1 m2 hm => by
    simp only [Node.Ok] at ok1
    simp only [Node.renamed, Node.Ok] at ok2
    simp only [Node.free] at hK
    simp only [Node.names] at hn
    simp only [Node.renamed, Node.means]
    refine agree2_bif (fun m1 m2 hm => ?_) m1 m2 hm
    rw [hm.last]
    split
    · exact agree2_block (agree2_all hρ S body K _ ok1 ok2 hK hn) m1 m2 hm
    · exact ⟨rfl, hm⟩
  | .coalesce plus body, K, al, ok1, ok2, hK, hn => fun m1 m2 hm => by
    simp only [Node.Ok] at ok1
    simp only [Node.renamed, Node.Ok] at ok2
    simp only [Node.free] at hK
    simp only [Node.names] at hn
    simp only [Node.renamed, Node.means]
    exact agree2_bif (fun m1 m2 hm => agree2_block (agree2_all hρ S body K _ ok1 ok2 hK hn) { m1 with lastC := false } { m2 with lastC := false }
      ⟨hm.defs, hm.last, rfl, hm.bifs, hm.data⟩) m1 m2 hm
  | .code plus body, K, al, ok1, ok2, hK, hn => fun m1 m2 hm => by
    simp only [Node.Ok] at ok1
    simp only [Node.renamed, Node.Ok] at ok2
    simp only [Node.free] at hK
    simp only [Node.names] at hn
    simp only [Node.renamed, Node.means]
    exact agree2_bif (agree2_block (agree2_all hρ S body K _ ok1 ok2 hK hn)) m1 m2 hm
  | .each plus coll key val body, K, al, ok1, ok2, hK, hn => fun m1 m2 hm => by
    simp only [Node.Ok] at ok1
    simp only [Node.renamed, Node.Ok] at ok2
    simp only [Node.free, List.mem_append, List.mem_filter, decide_eq_true_eq] at hK
    simp only [Node.names, List.mem_cons] at hn
    simp only [Node.renamed, Node.means]
    refine agree2_bif (fun m1 m2 hm => ?_) m1 m2 hm
    dsimp only
    rw [moved_value hρ hm (fun k hk => hK k (.inl hk)) (hn _ (.inl rfl))]
    obtain ⟨h1, h2⟩ := agree2_loop hρ (K := K) (vars := [key, val]) (plus := plus)
      (agree2_all hρ S body _ c!"each" ok1.2.2.2 ok2.2.2.2 (fun k hk => by
        by_cases h : k ≠ key ∧ k ≠ val
        · exact .inl (hK k (.inr ⟨hk, h⟩))
        · right
          simp only [List.mem_cons, List.not_mem_nil, or_false]
          by_cases h' : k = key
          · exact .inl h'
          · right
            by_cases h'' : k = val
            · exact h''
            · exact absurd ⟨h', h''⟩ h) (fun k hk => hn k (.inr hk)))
      ((elementsOf (valueOf m2 (nameAs ρ coll))).map (fun kv => [(key, .str kv.1), (val, kv.2)])) (by
        intro vs hvs
        obtain ⟨e, _, rfl⟩ := List.mem_map.1 hvs
        rfl) m1 m2 hm
    rw [List.map_map] at h1 h2
    change _ = (loopOf plus _ (List.map (fun kv : Str × Value => [(ρ key, Value.str kv.1), (ρ val, kv.2)]) _) m2).1 at h1
    change Moved ρ K _ (loopOf plus _ (List.map (fun kv : Str × Value => [(ρ key, Value.str kv.1), (ρ val, kv.2)]) _) m2).2 at h2
    refine ⟨h1, h2.defs, h2.last, h2.lastC, h2.bifs, ?_⟩
    exact moved_insert hρ (moved_insert hρ h2.data (fun hk hf hn => moved_entry hm hk hf hn)) (fun hk hf hn => moved_entry hm hk hf hn)
  | .range plus v a b body, K, al, ok1, ok2, hK, hn => fun m1 m2 hm => by
    simp only [Node.Ok] at ok1
    simp only [Node.renamed, Node.Ok] at ok2
    simp only [Node.free, List.mem_filter, decide_eq_true_eq] at hK
    simp only [Node.names] at hn
    simp only [Node.renamed, Node.means]
    refine agree2_bif (fun m1 m2 hm => ?_) m1 m2 hm
    dsimp only
    obtain ⟨h1, h2⟩ := agree2_loop hρ (K := K) (vars := [v]) (plus := plus)
      (agree2_all hρ S body _ c!"for" ok1.2.2.2.2 ok2.2.2.2.2 (fun k hk => by
        by_cases h : k = v
        · exact .inr (by simp [h])
        · exact .inl (hK k ⟨hk, h⟩)) hn)
      ((span a b).map (fun i => [(v, .str (showInt i))])) (by
        intro vs hvs
        obtain ⟨e, _, rfl⟩ := List.mem_map.1 hvs
        rfl) m1 m2 hm
    rw [List.map_map] at h1 h2
    change _ = (loopOf plus _ (List.map (fun i => [(ρ v, Value.str (showInt i))]) _) m2).1 at h1
    change Moved ρ K _ (loopOf plus _ (List.map (fun i => [(ρ v, Value.str (showInt i))]) _) m2).2 at h2
    refine ⟨h1, h2.defs, h2.last, h2.lastC, h2.bifs, moved_insert hρ h2.data (fun hk hf hn => ?_)⟩
    rw [moved_own hρ hm hk hf hn ok1.1.2]
  | .param name, K, al, ok1, ok2, _, _ => fun m1 m2 hm => by
    simp only [Node.renamed, Node.means]
    refine agree2_bif (fun m1 m2 hm => ⟨?_, hm⟩) m1 m2 hm
    dsimp only
    rw [hm.defs]
  | .setParam name body, K, al, ok1, ok2, hK, hn => fun m1 m2 hm => by
    simp only [Node.Ok] at ok1
    simp only [Node.renamed, Node.Ok] at ok2
    simp only [Node.free] at hK
    simp only [Node.names] at hn
    simp only [Node.renamed, Node.means]
    refine agree2_bif (fun m1 m2 hm => ?_) m1 m2 hm
    obtain ⟨h1, h2⟩ := agree2_block (plus := false) (agree2_all hρ S body K c!"param" ok1.2.2 ok2.2.2 hK hn) m1 m2 hm
    dsimp only
    refine ⟨rfl, ?_, h2.last, h2.lastC, h2.bifs, h2.data⟩
    unfold paramsOf
    dsimp only
    rw [h1, h2.defs]
  | .trans neg body, K, al, ok1, ok2, hK, hn => fun m1 m2 hm => by
    simp only [Node.Ok] at ok1
    simp only [Node.renamed, Node.Ok] at ok2
    simp only [Node.free] at hK
    simp only [Node.names] at hn
    simp only [Node.renamed, Node.means]
    refine agree2_bif (fun m1 m2 hm => ?_) m1 m2 hm
    obtain ⟨h1, h2⟩ := agree2_block (plus := false) (agree2_all hρ S body K c!"trans" ok1 ok2 hK hn) m1 m2 hm
    dsimp only
    refine ⟨?_, h2⟩
    unfold translated
    rw [h1, hm.defs]
  | .incl path body, K, al, ok1, ok2, hK, hn => fun m1 m2 hm => by
    simp only [Node.Ok] at ok1
    simp only [Node.renamed, Node.Ok] at ok2
    simp only [Node.free] at hK
    simp only [Node.names] at hn
    simp only [Node.renamed, Node.means]
    exact agree2_bif (agree2_block (agree2_all hρ S body K c!"include" ok1.2.2.2 ok2.2.2.2 hK hn)) m1 m2 hm
  | .snippet kind name body, K, al, ok1, ok2, hK, hn => fun m1 m2 hm => by
    simp only [Node.Ok] at ok1
    simp only [Node.renamed, Node.Ok] at ok2
    simp only [Node.free] at hK
    simp only [Node.names] at hn
    simp only [Node.renamed, Node.means]
    rw [show (decide (c!"{:snip" <:+: trim (printAll body))) = decide (c!"{:snip" <:+: trim (printAll (renameAll ρ body))) from
      decide_eq_decide.2 (snip_renamed ρ ok1.2.2.2 ok2.2.2.2)]
    exact agree2_bif (agree2_block (agree2_all hρ S body K c!"snippet" ok1.2.2.2 ok2.2.2.2 hK hn)) m1 m2 hm
  | .leaf k, K, al, ok1, ok2, hK, hn => fun m1 m2 hm => by
    simp only [Node.renamed, Node.means]
    refine agree2_bif (fun m1 m2 hm => ?_) m1 m2 hm
    cases k with
    | lang => exact ⟨rfl, hm⟩
    | mark => exact ⟨rfl, hm⟩
    | up => exact ⟨rfl, hm⟩
    | join keys name sep =>
      simp only [Node.free] at hK
      simp only [Node.names, List.mem_singleton, forall_eq] at hn
      simp only [Leaf.shown, Leaf.effect]
      rw [moved_value hρ hm hK hn]
      exact ⟨rfl, hm⟩
    | load locale path v =>
      refine ⟨rfl, ?_, hm.last, hm.lastC, hm.bifs, hm.data⟩
      simp only [Leaf.effect]
      rw [hm.defs]
  | .replace a b body, K, al, ok1, ok2, hK, hn => fun m1 m2 hm => by
    simp only [Node.Ok] at ok1
    simp only [Node.renamed, Node.Ok] at ok2
    simp only [Node.free, List.mem_append] at hK
    simp only [Node.names, List.mem_append] at hn
    simp only [Node.renamed, Node.means]
    refine agree2_bif (fun m1 m2 hm => ?_) m1 m2 hm
    obtain ⟨h1, h2⟩ := agree2_arg (a := a)
      (agree2_all hρ S a K c!"replace" ok1.1 ok2.1 (fun k hk => hK k (.inl hk)) (fun k hk => hn k (.inl hk))) m1 m2 hm
    obtain ⟨h3, h4⟩ := agree2_arg (a := b)
      (agree2_all hρ S b K c!"replace" ok1.2.1 ok2.2.1 (fun k hk => hK k (.inr (.inl hk))) (fun k hk => hn k (.inr (.inl hk)))) _ _ h2
    obtain ⟨h5, h6⟩ := agree2_block (plus := false)
      (agree2_all hρ S body K c!"replace" ok1.2.2.1 ok2.2.2.1 (fun k hk => hK k (.inr (.inr hk))) (fun k hk => hn k (.inr (.inr hk)))) _ _ h4
    dsimp only
    rw [h1, h3, h5]
    exact ⟨rfl, h6⟩
  | .allow neg name body, K, al, ok1, ok2, hK, hn => fun m1 m2 hm => by
    simp only [Node.Ok] at ok1
    simp only [Node.renamed, Node.Ok] at ok2
    simp only [Node.free] at hK
    simp only [Node.names] at hn
    simp only [Node.renamed, Node.means]
    refine agree2_bif (fun m1 m2 hm => ?_) m1 m2 hm
    obtain ⟨h1, h2⟩ := agree2_block (plus := false) (agree2_all hρ S body K c!"allow" ok1.2.2 ok2.2.2 hK hn) m1 m2 hm
    dsimp only
    rw [h1]
    exact ⟨rfl, h2⟩
  | .eval neg plus test body, K, al, ok1, ok2, hK, hn => fun m1 m2 hm => by
    simp only [Node.Ok] at ok1
    simp only [Node.renamed, Node.Ok] at ok2
    simp only [Node.free, List.mem_append, List.mem_filter, decide_eq_true_eq] at hK
    simp only [Node.names, List.mem_append] at hn
    simp only [Node.renamed, Node.means]
    refine agree2_bif (fun m1 m2 hm => ?_) m1 m2 hm
    obtain ⟨h1, h2⟩ := agree2_block (plus := plus)
      (agree2_all hρ S test K c!"eval" ok1.1 ok2.1 (fun k hk => hK k (.inl hk)) (fun k hk => hn k (.inl hk))) m1 m2 hm
    generalize blockOf plus (meansAll S c!"eval" test) m1 = r1 at h1 h2 ⊢
    generalize blockOf plus (meansAll S c!"eval" (renameAll ρ test)) m2 = r2 at h1 h2 ⊢
    rw [h1]
    split
    · obtain ⟨h3, h4⟩ := agree2_block (plus := plus)
        (agree2_all hρ S body (fun k => K k ∨ k ∈ [c!"__eval__"]) c!"eval" ok1.2.2 ok2.2.2 (fun k hk => by
          by_cases h : k = c!"__eval__"
          · exact .inr (by simp [h])
          · exact .inl (hK k (.inr ⟨hk, h⟩))) (fun k hk => hn k (.inr hk)))
        { r1.2 with data := Obj.insert c!"__eval__" (.str r2.1) r1.2.data }
        { r2.2 with data := Obj.insert c!"__eval__" (.str r2.1) r2.2.data }
        ⟨h2.defs, h2.last, h2.lastC, h2.bifs, fun k hk => by
          have := moved_setAll hρ [(c!"__eval__", .str r2.1)] h2.data k hk
          simp only [movedVars, List.map_cons, List.map_nil, setAll, hρ.eval] at this
          exact this⟩
      have shown : Moved ρ K
          { (blockOf plus (meansAll S c!"eval" body) { r1.2 with data := Obj.insert c!"__eval__" (.str r2.1) r1.2.data }).2 with
            data := Obj.insert c!"__eval__" (.str (shownAs S.F (valueOf r1.2 c!"__eval__")))
              (blockOf plus (meansAll S c!"eval" body) { r1.2 with data := Obj.insert c!"__eval__" (.str r2.1) r1.2.data }).2.data }
          { (blockOf plus (meansAll S c!"eval" (renameAll ρ body)) { r2.2 with data := Obj.insert c!"__eval__" (.str r2.1) r2.2.data }).2 with
            data := Obj.insert c!"__eval__" (.str (shownAs S.F (valueOf r2.2 c!"__eval__")))
              (blockOf plus (meansAll S c!"eval" (renameAll ρ body)) { r2.2 with data := Obj.insert c!"__eval__" (.str r2.1) r2.2.data }).2.data } := by
        refine ⟨h4.defs, h4.last, h4.lastC, h4.bifs, ?_⟩
        have := moved_insert hρ (j := c!"__eval__") (v1 := .str (shownAs S.F (valueOf r1.2 c!"__eval__")))
          (v2 := .str (shownAs S.F (valueOf r2.2 c!"__eval__"))) (fun k (hk : K k) => h4.data k (.inl hk)) (fun hk hf hn => by
            rw [moved_own hρ h2 hk hf hn (by decide), hρ.eval])
        rw [hρ.eval] at this
        exact this
      rcases renamed_texts ρ body with e | ⟨e1, e2⟩
      · rw [e]
        split
        · exact ⟨h3, shown⟩
        · exact ⟨rfl, h2⟩
      · rw [if_pos e1, if_pos e2]
        exact ⟨h3, shown⟩
    · exact ⟨rfl, h2⟩
  | .hash body, K, al, ok1, ok2, hK, hn => fun m1 m2 hm => by
    simp only [Node.Ok] at ok1
    simp only [Node.renamed, Node.Ok] at ok2
    simp only [Node.free] at hK
    simp only [Node.names] at hn
    simp only [Node.renamed, Node.means]
    refine agree2_bif (fun m1 m2 hm => ?_) m1 m2 hm
    obtain ⟨h1, h2⟩ := agree2_block (plus := false) (agree2_all hρ S body K c!"hash" ok1.1 ok2.1 hK hn) m1 m2 hm
    dsimp only
    rw [h1]
    exact ⟨rfl, h2⟩
theorem agree2_all (hρ : Renaming ρ) {S1 S2 : Site} (S : Site) : ∀ (l : List Node) (K : Str → Prop) (al : Str), AllOk S1 al l →
    AllOk S2 al (renameAll ρ l) → (∀ k ∈ freeAll l, K k) → (∀ name ∈ namesAll l, c!"local::" <+: name ∨ firstKey name ≠ []) →
    Agree2 ρ K (meansAll S al l) (meansAll S al (renameAll ρ l))
  | [], K, al, ok1, ok2, _, _ => fun m1 m2 hm => by simp only [renameAll, meansAll]; exact ⟨trivial, hm⟩
  | x :: l, K, al, ok1, ok2, hK, hn => fun m1 m2 hm => by
    simp only [AllOk] at ok1
    simp only [renameAll, AllOk] at ok2
    simp only [freeAll, List.mem_append] at hK
    simp only [namesAll, List.mem_append] at hn
    simp only [renameAll, meansAll]
    obtain ⟨h1, h2⟩ := agree2_node hρ S x K al ok1.1 ok2.1 (fun k hk => hK k (.inl hk)) (fun k hk => hn k (.inl hk)) m1 m2 hm
    obtain ⟨h3, h4⟩ := agree2_all hρ S l K al ok1.2 ok2.2 (fun k hk => hK k (.inr hk)) (fun k hk => hn k (.inr hk)) _ _ h2
    exact ⟨by rw [h1, h3], h4⟩
end

theorem start_moved (hρ : Renaming ρ) {d1 d2 : Obj} {k : Str} (h : Obj.get? k d1 = Obj.get? (ρ k) d2) :
    Obj.get? k (startData d1) = Obj.get? (ρ k) (startData d2) := by
  unfold startData
  by_cases hk : c!"CONTEXT" = k
  · subst hk
    rw [hρ.context] at h ⊢
    rw [Obj.get?_insert_self, Obj.get?_insert_self]
    unfold entry
    rw [h]
  · rw [Obj.get?_insert_ne _ _ hk, Obj.get?_insert_ne _ _ (fun h => hk (hρ.inj _ _ (by rw [hρ.context]; exact h))), h]

/-- **C111 (names).** Rename the variables of a template - in it, in the files it includes and in the snippets it uses - and the entries
of the data they name in the same way: the render gives the same output, the same status and evaluates the same number of BIFs.
Entries that the template does not read, and those only its loops set, may be anything in both. -/
theorem C111_names (env1 env2 : Env) (n1 n2 : Nat) (w1 w2 : World) (t1 t2 : Tpl) (S1 S2 : Site) (l : List Node) (ρ : Str → Str)
    (sh1 sh2 : Shared) (s1 s2 d1 d2 defs : Obj) (hρ : Renaming ρ) (hS : SameSite S1 S2)
    (hnew1 : Shared.new env1 w1 t1.schema = some sh1) (hS1 : SiteOf env1 sh1 S1)
    (hnew2 : Shared.new env2 w2 t2.schema = some sh2) (hS2 : SiteOf env2 sh2 S2)
    (hok1 : AllOk S1 [] l) (hok2 : AllOk S2 [] (renameAll ρ l)) (hraw1 : t1.raw = printAll l) (hraw2 : t2.raw = printAll (renameAll ρ l))
    (hb : c!"{:" <:+: printAll l)
    (hs1 : t1.schema = .obj s1) (hd1 : Obj.get? c!"data" s1 = some (.obj d1)) (hinh1 : Obj.get? c!"inherit" s1 = some (.obj defs))
    (hs2 : t2.schema = .obj s2) (hd2 : Obj.get? c!"data" s2 = some (.obj d2)) (hinh2 : Obj.get? c!"inherit" s2 = some (.obj defs))
    (hdefs1 : Defs S1 defs) (hdefs2 : Defs S2 defs)
    (hmax1 : (meansAll S1 [] l (startMem d1 defs)).2.bifs ≤ sh1.max) (hmax2 : sh1.max ≤ sh2.max)
    (hcache : ¬ c!"{:!cache;" <:+: trim (meansAll S1 [] l (startMem d1 defs)).1)
    (hnames : ∀ name ∈ namesAll l, c!"local::" <+: name ∨ firstKey name ≠ [])
    (hsame : ∀ k ∈ freeAll l, Obj.get? k d1 = Obj.get? (ρ k) d2) :
    ∃ t1' t2', t1.render env1 n1 w1 = .ok t1' ∧ t2.render env2 n2 w2 = .ok t2' ∧ t1'.out = t2'.out ∧
      t1'.statusCode = t2'.statusCode ∧ t1'.statusText = t2'.statusText ∧ t1'.statusParam = t2'.statusParam ∧
      t1'.hasError = t2'.hasError ∧ t1'.shared.count = t2'.shared.count := by
  obtain ⟨h1, h2⟩ := agree2_all hρ S1 l (fun k => k ∈ freeAll l) [] hok1 hok2 (fun _ h => h) hnames (startMem d1 defs) (startMem d2 defs)
    ⟨rfl, rfl, rfl, rfl, fun k hk _ _ => start_moved hρ (hsame k hk)⟩
  have hsite := site_all hS (renameAll ρ l) []
  rw [hsite] at h1 h2
  have h3 := h2.bifs
  obtain ⟨r1, t1', rfl, hr1, ht1, _⟩ := C77_render env1 n1 w1 t1 S1 l sh1 s1 d1 defs hnew1 hS1 hok1 hraw1 hb hs1 hd1 hinh1 hdefs1 hmax1 hcache
  obtain ⟨r2, t2', rfl, hr2, ht2, _⟩ := C77_render env2 n2 w2 t2 S2 (renameAll ρ l) sh2 s2 d2 defs hnew2 hS2 hok2 hraw2 (by
      rcases renamed_texts ρ l with e | ⟨_, e⟩
      · rw [e]; exact hb
      · exact e) hs2 hd2 hinh2 hdefs2 (by rw [← h3]; omega) (by rw [← h1]; exact hcache)
  refine ⟨t1', t2', hr1, hr2, ?_, ?_, ?_, ?_, ?_, ?_⟩
  · rw [ht1.out, ht2.out, h1]
  · rw [ht1.code, ht2.code]
  · rw [ht1.text, ht2.text]
  · rw [ht1.param, ht2.param]
  · rw [ht1.noError.1, ht2.noError.1]
  · rw [ht1.ran, ht2.ran, h3]

/-- A name of a variable of a loop: no separators, and none of the names with a meaning. -/
structure Spec.LoopName (k : Str) : Prop where
  some : k ≠ []
  plain : firstKey k = k
  context : k ≠ c!"CONTEXT"
  eval : k ≠ c!"__eval__"
  loc : ¬ c!"local::" <+: k

theorem exchanged_renaming {a b : Str} (ha : LoopName a) (hb : LoopName b) : Renaming (exchanged a b) where
  inj := by
    intro x y h
    unfold exchanged at h
    split at h <;> split at h <;> (try split at h) <;> (try split at h) <;> simp_all
  plain := by
    intro k hk hn
    unfold exchanged
    split
    · exact ⟨hb.plain, hb.some⟩
    · split
      · exact ⟨ha.plain, ha.some⟩
      · exact ⟨hk, hn⟩
  context := by
    unfold exchanged
    rw [if_neg (Ne.symm ha.context), if_neg (Ne.symm hb.context)]
  eval := by
    unfold exchanged
    rw [if_neg (Ne.symm ha.eval), if_neg (Ne.symm hb.eval)]
  loc := by
    intro k
    unfold exchanged
    split
    · next h => subst h; exact iff_of_false hb.loc ha.loc
    · split
      · next h => subst h; exact iff_of_false ha.loc hb.loc
      · rfl

/-- **C111 (loop variables).** The variable `a` of loops of a template, which is not otherwise read, can be called `b` instead, if `b` is
not otherwise read either: with the same data the render gives the same output, the same status and evaluates the same number of
BIFs, whatever the data have under `a` and `b`. -/
theorem C111_loops (env : Env) (n : Nat) (w1 w2 : World) (t1 t2 : Tpl) (S1 S2 : Site) (l : List Node) (a b : Str)
    (sh1 sh2 : Shared) (s d defs : Obj) (ha : LoopName a) (hb' : LoopName b) (hS : SameSite S1 S2)
    (hnew1 : Shared.new env w1 t1.schema = some sh1) (hS1 : SiteOf env sh1 S1)
    (hnew2 : Shared.new env w2 t2.schema = some sh2) (hS2 : SiteOf env sh2 S2)
    (hok1 : AllOk S1 [] l) (hok2 : AllOk S2 [] (renameAll (exchanged a b) l)) (hraw1 : t1.raw = printAll l)
    (hraw2 : t2.raw = printAll (renameAll (exchanged a b) l)) (hb : c!"{:" <:+: printAll l)
    (hs1 : t1.schema = .obj s) (hs2 : t2.schema = .obj s) (hd : Obj.get? c!"data" s = some (.obj d))
    (hinh : Obj.get? c!"inherit" s = some (.obj defs)) (hdefs1 : Defs S1 defs) (hdefs2 : Defs S2 defs)
    (hmax1 : (meansAll S1 [] l (startMem d defs)).2.bifs ≤ sh1.max) (hmax2 : sh1.max ≤ sh2.max)
    (hcache : ¬ c!"{:!cache;" <:+: trim (meansAll S1 [] l (startMem d defs)).1)
    (hnames : ∀ name ∈ namesAll l, c!"local::" <+: name ∨ firstKey name ≠ [])
    (hfa : a ∉ freeAll l) (hfb : b ∉ freeAll l) :
    ∃ t1' t2', t1.render env n w1 = .ok t1' ∧ t2.render env n w2 = .ok t2' ∧ t1'.out = t2'.out ∧
      t1'.statusCode = t2'.statusCode ∧ t1'.statusText = t2'.statusText ∧ t1'.statusParam = t2'.statusParam ∧
      t1'.hasError = t2'.hasError ∧ t1'.shared.count = t2'.shared.count :=
  C111_names env env n n w1 w2 t1 t2 S1 S2 l _ sh1 sh2 s s d d defs (exchanged_renaming ha hb') hS hnew1 hS1 hnew2 hS2 hok1 hok2 hraw1 hraw2 hb
    hs1 hd hinh hs2 hd hinh hdefs1 hdefs2 hmax1 hmax2 hcache hnames (fun k hk => by
      unfold exchanged
      rw [if_neg (fun h => hfa (by rw [← h]; exact hk)), if_neg (fun h => hfb (by rw [← h]; exact hk))])

/-! ### Examples -/

/-- A page with two loops, one in the other. -/
def Sample.loops : List Node :=
  [.text c!"<ul>", .each false c!"l" c!"k" c!"v" [.text c!" <li>", .var true c!"v", .range false c!"i" 1 3 [.var false c!"i", .var false c!"k"],
    .text c!"</li> "], .cond false false c!"defined" c!"x" [.var true c!"x"], .text c!"</ul>"]

theorem Sample.loops_ok : AllOk Sample.pageSite [] Sample.loops := by
  simp only [Sample.loops, AllOk, Node.Ok, and_true]
  exact ⟨textOk_of (by decide), ⟨nameOk_of (by decide), ⟨nameOk_of (by decide), by decide⟩, ⟨nameOk_of (by decide), by decide⟩,
    textOk_of (by decide), nameOk_of (by decide), ⟨⟨nameOk_of (by decide), by decide⟩, by decide, by decide, by decide, nameOk_of (by decide), nameOk_of (by decide)⟩,
    textOk_of (by decide)⟩, ⟨by decide, nameOk_of (by decide), nameOk_of (by decide)⟩, textOk_of (by decide)⟩

theorem Sample.loops_renamed : renameAll (exchanged c!"v" c!"item") Sample.loops =
    [.text c!"<ul>", .each false c!"l" c!"k" c!"item" [.text c!" <li>", .var true c!"item", .range false c!"i" 1 3 [.var false c!"i", .var false c!"k"],
      .text c!"</li> "], .cond false false c!"defined" c!"x" [.var true c!"x"], .text c!"</ul>"] := by
  simp only [Sample.loops, renameAll, Node.renamed]
  rfl

theorem Sample.loops_ok' : AllOk Sample.pageSite [] (renameAll (exchanged c!"v" c!"item") Sample.loops) := by
  rw [Sample.loops_renamed]
  simp only [AllOk, Node.Ok, and_true]
  exact ⟨textOk_of (by decide), ⟨nameOk_of (by decide), ⟨nameOk_of (by decide), by decide⟩, ⟨nameOk_of (by decide), by decide⟩,
    textOk_of (by decide), nameOk_of (by decide), ⟨⟨nameOk_of (by decide), by decide⟩, by decide, by decide, by decide, nameOk_of (by decide), nameOk_of (by decide)⟩,
    textOk_of (by decide)⟩, ⟨by decide, nameOk_of (by decide), nameOk_of (by decide)⟩, textOk_of (by decide)⟩

theorem Sample.loopName {k : Str} (h : k ≠ [] ∧ firstKey k = k ∧ k ≠ c!"CONTEXT" ∧ k ≠ c!"__eval__" ∧ ¬ c!"local::" <+: k) : LoopName k :=
  ⟨h.1, h.2.1, h.2.2.1, h.2.2.2.1, h.2.2.2.2⟩

set_option maxRecDepth 10000 in
/-- The premises of C111 are met: the loop variable `v` is called `item`. -/
example : ∃ t1' t2', (Sample.tpl (Sample.schema 1000 Sample.pageData Sample.pageDefs) (printAll Sample.loops)).render Sample.env 10
      Sample.pageWorld = .ok t1' ∧
      (Sample.tpl (Sample.schema 1000 Sample.pageData Sample.pageDefs) (printAll (renameAll (exchanged c!"v" c!"item") Sample.loops))).render Sample.env 10
      Sample.pageWorld = .ok t2' ∧ t1'.out = t2'.out ∧
      t1'.statusCode = t2'.statusCode ∧ t1'.statusText = t2'.statusText ∧ t1'.statusParam = t2'.statusParam ∧
      t1'.hasError = t2'.hasError ∧ t1'.shared.count = t2'.shared.count :=
  C111_loops Sample.env 10 Sample.pageWorld Sample.pageWorld _ _ Sample.pageSite Sample.pageSite Sample.loops c!"v" c!"item" _ _ _ Sample.pageData
    Sample.pageDefs (Sample.loopName (by decide)) (Sample.loopName (by decide)) ⟨rfl, rfl, rfl, rfl, rfl, rfl⟩
    rfl ⟨rfl, rfl, rfl, rfl, rfl, rfl, Sample.page_file⟩ rfl ⟨rfl, rfl, rfl, rfl, rfl, rfl, Sample.page_file⟩ Sample.loops_ok Sample.loops_ok' rfl rfl
    (by decide +kernel) rfl rfl rfl rfl ⟨.inr ⟨_, rfl⟩, rfl, rfl⟩ ⟨.inr ⟨_, rfl⟩, rfl, rfl⟩ (by decide +kernel) (Nat.le_refl _) (by decide +kernel)
    (by decide +kernel) (by decide) (by decide)

/-- It prints something. -/
example : (meansAll Sample.pageSite [] Sample.loops (startMem Sample.pageData Sample.pageDefs)).1 ≠ c!"<ul></ul>" := by decide +kernel

/-- The data of the example under other names: `l` is called `list`, and `x` is called `y`. -/
def Sample.other : Str → Str := fun k => exchanged c!"l" c!"list" (exchanged c!"x" c!"y" k)

theorem Sample.other_renaming : Renaming Sample.other := by
  have h1 := exchanged_renaming (Sample.loopName (k := c!"l") (by decide)) (Sample.loopName (k := c!"list") (by decide))
  have h2 := exchanged_renaming (Sample.loopName (k := c!"x") (by decide)) (Sample.loopName (k := c!"y") (by decide))
  refine ⟨fun a b h => h2.inj _ _ (h1.inj _ _ h), fun k h h' => ?_, by decide, by decide, fun k => ?_⟩
  · obtain ⟨p1, p2⟩ := h2.plain k h h'
    exact h1.plain _ p1 p2
  · exact (h1.loc _).trans (h2.loc _)

theorem Sample.loops_other : renameAll Sample.other Sample.loops =
    [.text c!"<ul>", .each false c!"list" c!"k" c!"v" [.text c!" <li>", .var true c!"v", .range false c!"i" 1 3 [.var false c!"i", .var false c!"k"],
      .text c!"</li> "], .cond false false c!"defined" c!"y" [.var true c!"y"], .text c!"</ul>"] := by
  simp only [Sample.loops, renameAll, Node.renamed]
  rfl

theorem Sample.loops_other_ok : AllOk Sample.pageSite [] (renameAll Sample.other Sample.loops) := by
  rw [Sample.loops_other]
  simp only [AllOk, Node.Ok, and_true]
  exact ⟨textOk_of (by decide), ⟨nameOk_of (by decide), ⟨nameOk_of (by decide), by decide⟩, ⟨nameOk_of (by decide), by decide⟩,
    textOk_of (by decide), nameOk_of (by decide), ⟨⟨nameOk_of (by decide), by decide⟩, by decide, by decide, by decide, nameOk_of (by decide), nameOk_of (by decide)⟩,
    textOk_of (by decide)⟩, ⟨by decide, nameOk_of (by decide), nameOk_of (by decide)⟩, textOk_of (by decide)⟩

/-- The data with `l` under `list` and `x` under `y`, and something else under the old names. -/
def Sample.otherData : Obj :=
  [(c!"x", .num (.int 1)), (c!"y", .str c!"X<"), (c!"list", .arr [.str c!"a", .obj [(c!"b", .bool true)], .num (.int 3)])]

set_option maxRecDepth 10000 in
/-- The premises of C111_names are met: the template and its data with other names. -/
example : ∃ t1' t2', (Sample.tpl (Sample.schema 1000 Sample.pageData Sample.pageDefs) (printAll Sample.loops)).render Sample.env 10
      Sample.pageWorld = .ok t1' ∧
      (Sample.tpl (Sample.schema 1000 Sample.otherData Sample.pageDefs) (printAll (renameAll Sample.other Sample.loops))).render Sample.env 10
      Sample.pageWorld = .ok t2' ∧ t1'.out = t2'.out ∧
      t1'.statusCode = t2'.statusCode ∧ t1'.statusText = t2'.statusText ∧ t1'.statusParam = t2'.statusParam ∧
      t1'.hasError = t2'.hasError ∧ t1'.shared.count = t2'.shared.count :=
  C111_names Sample.env Sample.env 10 10 Sample.pageWorld Sample.pageWorld _ _ Sample.pageSite Sample.pageSite Sample.loops Sample.other
    _ _ _ _ Sample.pageData Sample.otherData Sample.pageDefs Sample.other_renaming ⟨rfl, rfl, rfl, rfl, rfl, rfl⟩
    rfl ⟨rfl, rfl, rfl, rfl, rfl, rfl, Sample.page_file⟩ rfl ⟨rfl, rfl, rfl, rfl, rfl, rfl, Sample.page_file⟩ Sample.loops_ok Sample.loops_other_ok rfl rfl
    (by decide +kernel) rfl rfl rfl rfl rfl rfl ⟨.inr ⟨_, rfl⟩, rfl, rfl⟩ ⟨.inr ⟨_, rfl⟩, rfl, rfl⟩ (by decide +kernel) (Nat.le_refl _) (by decide +kernel)
    (by decide +kernel) (fun k hk => by
      have h : k ∈ freeAll Sample.loops := hk
      have e : freeAll Sample.loops = [c!"l", c!"x", c!"x"] := by decide
      rw [e] at h
      simp only [List.mem_cons, List.not_mem_nil, or_false] at h
      rcases h with rfl | rfl | rfl <;> rfl)

end Nts
