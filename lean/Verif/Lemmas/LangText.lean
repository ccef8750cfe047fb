import Verif.Lemmas.Good
import Verif.Lemmas.Eval
import Verif.Props.Simple
/-
How the templates of Spec/Lang.lean are written: blocks, parameters and code are where they should be.
-/
set_option autoImplicit false
namespace Nts
open Spec

theorem bal_noBraces {a k : Str} (h1 : '{' ∉ a) (h2 : '}' ∉ a) (hk : k.head? ≠ some '}') : Bal k a := by
  induction a with
  | nil => exact .nil _
  | cons c a ih =>
    simp only [List.mem_cons, not_or] at h1 h2
    refine .chr c ?_ ?_ (ih h1.2 h2.2)
    · rw [List.cons_append, pair_prefix]; rintro ⟨rfl, _⟩; exact h1.1 rfl
    · rw [List.cons_append, pair_prefix]
      rintro ⟨rfl, hx⟩
      cases a with
      | nil => exact hk hx
      | cons d a => simp at hx; exact h2.2 (by simp [hx])

theorem nameOk_braces {t : Str} (h : NameOk t) : '{' ∉ t ∧ '}' ∉ t :=
  ⟨fun hx => (h.chars _ hx).1 rfl, fun hx => (h.chars _ hx).2.1 rfl⟩

theorem noBraces_marks (neg plus : Bool) : '{' ∉ marks neg plus ∧ '}' ∉ marks neg plus := by cases neg <;> cases plus <;> decide

/-- A BIF with modifiers and name without braces. -/
theorem isBif_text {mods name src : Str} (h1 : '{' ∉ mods ++ name ++ c!";") (h2 : '}' ∉ mods ++ name ++ c!";")
    (h3 : ¬ c!"*" <+: mods ++ name ++ c!";") (hs : Bal c!":}" src) (hh : src.head? ≠ some '}') : IsBif (bifText mods name src) := by
  have e : bifText mods name src = c!"{:" ++ (mods ++ name ++ c!";" ++ src) ++ c!":}" := by simp [bifText]
  refine ⟨_, e, bal_append (bal_noBraces h1 h2 ?_) hs, ?_⟩
  · cases src with
    | nil => decide
    | cons c s => exact hh
  · intro hx
    apply h3
    cases hm : mods ++ name ++ c!";" with
    | nil => simp at hm
    | cons c r =>
      rw [hm] at hx
      rw [List.cons_append, List.cons_prefix_cons] at hx
      rw [List.cons_prefix_cons]
      exact ⟨hx.1, List.nil_prefix⟩

theorem good_isBif {b k : Str} (h : IsBif b) : Good k b := by
  obtain ⟨x, rfl, h1, h2⟩ := h
  have := Good.nest h1 h2 (.nil k)
  simpa using this

/-- A source: something without braces, a template, a blank. -/
theorem bal_src {a t : Str} (h1 : '{' ∉ a) (h2 : '}' ∉ a) (hc : Cont t) (ht : Good c!" :}" t) : Bal c!":}" (a ++ t ++ c!" ") := by
  refine bal_append (bal_append (bal_noBraces h1 h2 ?_) (good_bal ht)) (bal_noBraces (by decide) (by decide) (by decide))
  cases t with
  | nil => decide
  | cons c t => exact hc.2.1

theorem cont_nil : Cont [] := ⟨by simp, by simp, by simp⟩

theorem cont_bif (mods name src k : Str) : Cont (bifText mods name src ++ k) := by
  refine ⟨?_, ?_, ?_⟩ <;> simp [bifText]

theorem cont_node {S : Site} {al : Str} {x : Node} (h : x.Ok S al) (k : Str) (hk : Cont k) : Cont (x.print ++ k) := by
  cases x with
  | text t =>
    simp only [Node.Ok] at h
    simp only [Node.print]
    exact cont_append h.first hk
  | _ => simp only [Node.print]; exact cont_bif _ _ _ _

theorem cont_all {S : Site} {al : Str} : ∀ {l : List Node}, AllOk S al l → ∀ {k : Str}, Cont k → Cont (printAll l ++ k)
  | [], _, k, hk => by simpa [printAll] using hk
  | x :: l, h, k, hk => by
    simp only [AllOk] at h
    simp only [printAll, List.append_assoc]
    exact cont_node h.1 _ (cont_all h.2 hk)

theorem cont_all' {S : Site} {al : Str} {l : List Node} (h : AllOk S al l) : Cont (printAll l) := by
  have := cont_all h (k := []) cont_nil
  simpa using this

theorem cont_blank (k : Str) : Cont (' ' :: k) := ⟨by simp, by simp, by simp⟩

/-- The names of the BIFs of the language. -/
def langNames : List Str := [c!"array", c!"bool", c!"defined", c!"filled", c!"contains", c!"same", c!"else", c!"coalesce", c!"code",
  c!"each", c!"for", c!"param", c!"trans", c!"include", c!"snippet", c!"snip", c!"lang", c!"replace", c!"allow", c!"eval",
  c!"hash", c!"join", c!"data", c!"locale"]

theorem kind_text {kind : Str} (h : kind ∈ langNames) (neg plus : Bool) :
    '{' ∉ marks neg plus ++ kind ++ c!";" ∧ '}' ∉ marks neg plus ++ kind ++ c!";" ∧ ¬ c!"*" <+: marks neg plus ++ kind ++ c!";" := by
  simp only [langNames, List.mem_cons, List.not_mem_nil, or_false] at h
  rcases h with rfl | rfl | rfl | rfl | rfl | rfl | rfl | rfl | rfl | rfl | rfl | rfl | rfl | rfl | rfl | rfl | rfl | rfl | rfl | rfl | rfl | rfl | rfl | rfl <;>
    cases neg <;> cases plus <;> decide

theorem marks_none : marks false false = [] := rfl

theorem showInt_braces (i : Int) : '{' ∉ showInt i ∧ '}' ∉ showInt i := by
  have h := showInt_chars i
  exact ⟨fun hx => absurd (h _ hx) (by decide), fun hx => absurd (h _ hx) (by decide)⟩

theorem not_mem_append {c : Char} {a b : Str} (h1 : c ∉ a) (h2 : c ∉ b) : c ∉ a ++ b := by
  intro h; rcases List.mem_append.1 h with h | h
  · exact h1 h
  · exact h2 h

/-- A BIF with a name of the language, something without braces and a template. -/
theorem isBif_body {kind a t : Str} (hk : kind ∈ langNames) (neg plus : Bool) (h1 : '{' ∉ a) (h2 : '}' ∉ a) (hc : Cont t)
    (ht : Good c!" :}" t) : IsBif (bifText (marks neg plus) kind (' ' :: a ++ t ++ c!" ")) := by
  obtain ⟨k1, k2, k3⟩ := kind_text hk neg plus
  exact isBif_text k1 k2 k3 (bal_src (by simpa using h1) (by simpa using h2) hc ht) (by simp)

/-- A BIF with a name of the language and something without braces. -/
theorem isBif_plain {kind a : Str} (hk : kind ∈ langNames) (h1 : '{' ∉ a) (h2 : '}' ∉ a) :
    IsBif (bifText [] kind (c!" " ++ a ++ c!" ")) := by
  have := isBif_body hk false false h1 h2 cont_nil (.nil _)
  simpa [marks] using this

theorem each_braces {a k v : Str} (ha : NameOk a) (hk : NameOk k) (hv : NameOk v) :
    '{' ∉ a ++ c!" " ++ k ++ c!" " ++ v ∧ '}' ∉ a ++ c!" " ++ k ++ c!" " ++ v := by
  obtain ⟨a1, a2⟩ := nameOk_braces ha
  obtain ⟨b1, b2⟩ := nameOk_braces hk
  obtain ⟨c1, c2⟩ := nameOk_braces hv
  simp [a1, a2, b1, b2, c1, c2]

theorem range_braces {v : Str} (hv : NameOk v) (a b : Int) :
    '{' ∉ v ++ c!" " ++ showInt a ++ c!".." ++ showInt b ∧ '}' ∉ v ++ c!" " ++ showInt a ++ c!".." ++ showInt b := by
  obtain ⟨c1, c2⟩ := nameOk_braces hv
  obtain ⟨a1, a2⟩ := showInt_braces a
  obtain ⟨b1, b2⟩ := showInt_braces b
  simp [a1, a2, b1, b2, c1, c2]

theorem cond_names {k : Str} (h : k ∈ [c!"array", c!"bool", c!"defined", c!"filled"]) : k ∈ langNames := by
  simp only [List.mem_cons, List.not_mem_nil, or_false] at h
  rcases h with rfl | rfl | rfl | rfl <;> decide

theorem cmp_names {k : Str} (h : k ∈ [c!"contains", c!"same"]) : k ∈ langNames := by
  simp only [List.mem_cons, List.not_mem_nil, or_false] at h
  rcases h with rfl | rfl <;> decide

theorem snip_names {k : Str} (h : k ∈ [c!"snippet", c!"snip"]) : k ∈ langNames := by
  simp only [List.mem_cons, List.not_mem_nil, or_false] at h
  rcases h with rfl | rfl <;> decide

theorem cont_slash (k : Str) : Cont ('/' :: k) := ⟨by simp, by simp, by simp⟩

/-- A source with two arguments and a template. -/
theorem bal_args {a b t : Str} (ca : Cont a) (ha : Good ('/' :: (b ++ (c!"/ >> " ++ t ++ c!" ") ++ c!":}")) a) (cb : Cont b)
    (hb : Good ('/' :: (c!" >> " ++ t ++ c!" " ++ c!":}")) b) (ct : Cont t) (ht : Good c!" :}" t) :
    Bal c!":}" (c!" /" ++ a ++ c!"/" ++ b ++ c!"/ >> " ++ t ++ c!" ") := by
  have hd : ∀ {s : Str} (k : Str), Cont s → (s ++ '/' :: k).head? ≠ some '}' := by
    intro s k hs
    cases s with
    | nil => simp
    | cons c s => exact hs.2.1
  have e1 : Bal c!":}" (c!"/ >> " ++ t ++ c!" ") := bal_src (by decide) (by decide) ct ht
  have e2 : Bal c!":}" (b ++ (c!"/ >> " ++ t ++ c!" ")) := bal_append (by
    have := good_bal hb
    simpa using this) e1
  have e3 : Bal c!":}" (c!"/" ++ (b ++ (c!"/ >> " ++ t ++ c!" "))) :=
    bal_append (bal_noBraces (by decide) (by decide) (by
      have := hd (c!" >> " ++ t ++ c!" " ++ c!":}") cb
      simpa using this)) e2
  have e4 : Bal c!":}" (a ++ (c!"/" ++ (b ++ (c!"/ >> " ++ t ++ c!" ")))) := bal_append (by
    have := good_bal ha
    simpa using this) e3
  have e5 : Bal c!":}" (c!" /" ++ (a ++ (c!"/" ++ (b ++ (c!"/ >> " ++ t ++ c!" "))))) :=
    bal_append (bal_noBraces (by decide) (by decide) (by
      have := hd (b ++ (c!"/ >> " ++ t ++ c!" ") ++ c!":}") ca
      simpa using this)) e4
  simpa using e5

theorem load_names (locale : Bool) : (if locale then c!"locale" else c!"data") ∈ langNames := by cases locale <;> decide

/-- What is written in a join. -/
theorem join_braces {keys : Bool} {name sep : Str} (hn : NameOk name) (h1 : '{' ∉ sep) (h2 : '}' ∉ sep) :
    '{' ∉ c!"/" ++ name ++ c!"/" ++ sep ++ (if keys then c!"/keys/" else c!"/") ∧
      '}' ∉ c!"/" ++ name ++ c!"/" ++ sep ++ (if keys then c!"/keys/" else c!"/") := by
  obtain ⟨n1, n2⟩ := nameOk_braces hn
  cases keys <;> simp [h1, h2, n1, n2]

theorem join_source (keys : Bool) (name sep : Str) : (Leaf.join keys name sep).source =
    c!" " ++ (c!"/" ++ name ++ c!"/" ++ sep ++ (if keys then c!"/keys/" else c!"/")) ++ c!" " := by
  cases keys <;> simp [Leaf.source]

theorem isBif_leaf {S : Site} {k : Leaf} (h : k.Ok S) : IsBif (bifText k.mods k.name k.source) := by
  cases k with
  | lang => exact isBif_text (by decide) (by decide) (by decide) (.nil _) (by decide)
  | mark => exact isBif_text (by decide) (by decide) (by decide) (.nil _) (by decide)
  | up => exact isBif_text (by decide) (by decide) (by decide) (.nil _) (by decide)
  | join keys name sep =>
    obtain ⟨hn, _, _, h1, h2⟩ := h
    rw [join_source]
    exact isBif_plain (kind := c!"join") (by decide) (join_braces hn h1 h2).1 (join_braces hn h1 h2).2
  | load locale path v =>
    exact isBif_plain (load_names locale) (nameOk_braces h.1).1 (nameOk_braces h.1).2

mutual
theorem shape_node {S : Site} {al : Str} : ∀ (x : Node), x.Ok S al → (∃ t, x = .text t) ∨ IsBif x.print
  | .text t, h => by
    exact .inl ⟨t, rfl⟩
  | .var amp name, h => by
    simp only [Node.Ok] at h
    simp only [Node.print]
    obtain ⟨h1, h2⟩ := nameOk_braces h
    refine .inr (isBif_text (by cases amp <;> decide) (by cases amp <;> decide) (by cases amp <;> decide) (bal_noBraces h1 h2 (by decide)) ?_)
    cases name with
    | nil => simp
    | cons c r =>
      simp only [List.head?_cons, ne_eq, Option.some.injEq]
      intro hc
      exact h2 (by simp [hc])
  | .cond neg plus kind name body, h => by
    simp only [Node.Ok] at h
    simp only [Node.print]
    obtain ⟨h1, h2⟩ := nameOk_braces h.2.1
    have := isBif_body (cond_names h.1) neg plus (a := name ++ c!" >> ") (by simp [h1]) (by simp [h2]) (cont_all' h.2.2) (good_all body h.2.2 _ (cont_blank _))
    exact .inr (by simpa using this)
  | .cmp neg plus kind a b body, h => by
    simp only [Node.Ok] at h
    simp only [Node.print]
    obtain ⟨h1, ha, hb, hbody, _⟩ := h
    obtain ⟨k1, k2, k3⟩ := kind_text (cmp_names h1) neg plus
    refine .inr (isBif_text k1 k2 k3 ?_ (by simp))
    exact bal_args (cont_all' ha) (good_all a ha _ (cont_slash _)) (cont_all' hb) (good_all b hb _ (cont_slash _)) (cont_all' hbody)
      (good_all body hbody _ (cont_blank _))
  | .els neg plus body, h => by
    simp only [Node.Ok] at h
    simp only [Node.print]
    exact .inr (isBif_body (a := []) (by decide) neg plus (by decide) (by decide) (cont_all' h) (good_all body h _ (cont_blank _)))
  | .coalesce plus body, h => by
    simp only [Node.Ok] at h
    simp only [Node.print]
    exact .inr (isBif_body (a := []) (by decide) false plus (by decide) (by decide) (cont_all' h) (good_all body h _ (cont_blank _)))
  | .code plus body, h => by
    simp only [Node.Ok] at h
    simp only [Node.print]
    exact .inr (isBif_body (a := []) (by decide) false plus (by decide) (by decide) (cont_all' h) (good_all body h _ (cont_blank _)))
  | .each plus coll key val body, h => by
    simp only [Node.Ok] at h
    simp only [Node.print]
    obtain ⟨h1, h2, h3, h4⟩ := h
    obtain ⟨e1, e2⟩ := each_braces h1 h2.1 h3.1
    have := isBif_body (kind := c!"each") (by decide) false plus (a := (coll ++ c!" " ++ key ++ c!" " ++ val) ++ c!" >> ")
      (not_mem_append e1 (by decide)) (not_mem_append e2 (by decide)) (cont_all' h4) (good_all body h4 _ (cont_blank _))
    exact .inr (by simpa using this)
  | .range plus v a b body, h => by
    simp only [Node.Ok] at h
    simp only [Node.print]
    obtain ⟨h1, h2, h3, h4, h5⟩ := h
    obtain ⟨e1, e2⟩ := range_braces h1.1 a b
    have := isBif_body (kind := c!"for") (by decide) false plus (a := (v ++ c!" " ++ showInt a ++ c!".." ++ showInt b) ++ c!" >> ")
      (not_mem_append e1 (by decide)) (not_mem_append e2 (by decide)) (cont_all' h5) (good_all body h5 _ (cont_blank _))
    exact .inr (by simpa using this)
  | .param name, h => by
    simp only [Node.Ok] at h
    simp only [Node.print]
    exact .inr (isBif_plain (by decide) (nameOk_braces h).1 (nameOk_braces h).2)
  | .setParam name body, h => by
    simp only [Node.Ok] at h
    simp only [Node.print]
    obtain ⟨h1, h2⟩ := nameOk_braces h.2.1
    have := isBif_body (kind := c!"param") (by decide) false false (a := name ++ c!" >> ") (by simp [h1]) (by simp [h2]) (cont_all' h.2.2)
      (good_all body h.2.2 _ (cont_blank _))
    exact .inr (by simpa [marks] using this)
  | .trans neg body, h => by
    simp only [Node.Ok] at h
    simp only [Node.print]
    exact .inr (isBif_body (a := []) (by decide) neg false (by decide) (by decide) (cont_all' h) (good_all body h _ (cont_blank _)))
  | .incl path body, h => by
    simp only [Node.Ok] at h
    simp only [Node.print]
    exact .inr (isBif_plain (by decide) (nameOk_braces h.1).1 (nameOk_braces h.1).2)
  | .snippet kind name body, h => by
    simp only [Node.Ok] at h
    simp only [Node.print]
    exact .inr (isBif_plain (snip_names h.1) (nameOk_braces h.2.1).1 (nameOk_braces h.2.1).2)
  | .leaf k, h => by
    simp only [Node.Ok] at h
    simp only [Node.print]
    exact .inr (isBif_leaf h)
  | .replace a b body, h => by
    simp only [Node.Ok] at h
    simp only [Node.print]
    obtain ⟨ha, hb, hbody, _⟩ := h
    obtain ⟨k1, k2, k3⟩ := kind_text (kind := c!"replace") (by decide) false false
    refine .inr (isBif_text k1 k2 k3 ?_ (by simp))
    exact bal_args (cont_all' ha) (good_all a ha _ (cont_slash _)) (cont_all' hb) (good_all b hb _ (cont_slash _)) (cont_all' hbody)
      (good_all body hbody _ (cont_blank _))
  | .allow neg name body, h => by
    simp only [Node.Ok] at h
    simp only [Node.print]
    obtain ⟨h1, h2⟩ := nameOk_braces h.1
    have := isBif_body (kind := c!"allow") (by decide) neg false (a := name ++ c!" >> ") (by simp [h1]) (by simp [h2]) (cont_all' h.2.2)
      (good_all body h.2.2 _ (cont_blank _))
    exact .inr (by simpa using this)
  | .eval neg plus test body, h => by
    simp only [Node.Ok] at h
    simp only [Node.print]
    obtain ⟨k1, k2, k3⟩ := kind_text (kind := c!"eval") (by decide) neg plus
    refine .inr (isBif_text k1 k2 k3 ?_ (by simp))
    have e1 : Bal c!":}" (c!" >> " ++ printAll body ++ c!" ") :=
      bal_src (by decide) (by decide) (cont_all' h.2.2) (good_all body h.2.2 _ (cont_blank _))
    have e2 : Bal c!":}" (printAll test ++ (c!" >> " ++ printAll body ++ c!" ")) :=
      bal_append (good_bal (good_all test h.1 _ (cont_blank _))) e1
    have e3 : Bal c!":}" (c!" " ++ (printAll test ++ (c!" >> " ++ printAll body ++ c!" "))) :=
      bal_append (bal_noBraces (by decide) (by decide) (by
        have := cont_all h.1 (cont_blank ((c!">> " ++ printAll body ++ c!" ") ++ c!":}"))
        simpa using this.2.1)) e2
    simpa using e3
  | .hash body, h => by
    simp only [Node.Ok] at h
    simp only [Node.print]
    have := isBif_body (kind := c!"hash") (a := []) (by decide) false false (by decide) (by decide) (cont_all' h.1)
      (good_all body h.1 _ (cont_blank _))
    exact .inr (by simpa [marks] using this)
theorem good_all {S : Site} {al : Str} : ∀ (l : List Node), AllOk S al l → ∀ k, Cont k → Good k (printAll l)
  | [], _, k, _ => by simp only [printAll]; exact .nil k
  | x :: l, h, k, hk => by
    simp only [AllOk] at h
    simp only [printAll]
    refine good_append ?_ (good_all l h.2 k hk)
    rcases shape_node x h.1 with ⟨t, rfl⟩ | hb
    · have ht := h.1
      simp only [Node.Ok] at ht
      simp only [Node.print]
      exact good_text ht.noOpen ht.noClose ht.noSep (cont_all h.2 hk)
    · exact good_isBif hb
end

/-! Parameters and code. -/

theorem trimEnd_last {x : Str} {c : Char} (hc : isWs c = false) : trimEnd (x ++ [c]) = x ++ [c] := by
  unfold trimEnd
  rw [List.reverse_append, List.reverse_singleton, List.singleton_append, List.dropWhile_cons_of_neg (by simp [hc]),
    ← List.singleton_append, List.reverse_append, List.reverse_reverse, List.reverse_singleton]

theorem trimEnd_through {x u : Str} {c : Char} (hc : isWs c = false) : trimEnd (x ++ c :: u) = x ++ c :: trimEnd u := by
  obtain ⟨w, h1, h2⟩ := trimEnd_eq u
  have e : x ++ c :: u = (x ++ c :: trimEnd u) ++ w := by
    rw [List.append_assoc, List.cons_append, ← h1]
  rw [e, trimEnd_blank h2]
  cases hr : (trimEnd u).reverse with
  | nil =>
    have : trimEnd u = [] := by simpa using hr
    rw [this]
    exact trimEnd_last hc
  | cons d r =>
    have h3 : trimEnd u = r.reverse ++ [d] := by
      have := congrArg List.reverse hr
      simpa using this
    have hd : isWs d = false := by
      have h4 : u.reverse.dropWhile isWs = d :: r := by
        have := hr
        unfold trimEnd at this
        simpa using this
      cases hx : isWs d with
      | false => rfl
      | true =>
        have := List.head_dropWhile_not isWs (l := u.reverse) (by rw [h4]; simp)
        simp [h4, hx] at this
    rw [h3, ← List.cons_append, ← List.append_assoc]
    exact trimEnd_last hd

theorem trim_trimEnd (s : Str) : trim (trimEnd s) = trim s := by
  obtain ⟨w, h1, h2⟩ := trimEnd_eq s
  have := trim_blankEnd (s := trimEnd s) h2
  rw [← h1] at this
  exact this.symm

/-- The parts of ` P >> B `. -/
theorem parts_both {P B : Str} {c : Char} {r : Str} (hP : P = c :: r) (hc : isWs c = false) (ht : trim (P ++ c!" ") = P)
    (hs : ∀ k, NoSep (c!">>" ++ k) (P ++ c!" ")) : Parts (c!" " ++ P ++ c!" >> " ++ B ++ c!" ") (some P) (trim B) := by
  have hsrc : c!" " ++ P ++ c!" >> " ++ B ++ c!" " = c!" " ++ (P ++ c!" >" ++ '>' :: (c!" " ++ B ++ c!" ")) := by simp
  have h1 : trim (c!" " ++ P ++ c!" >> " ++ B ++ c!" ") = P ++ c!" " ++ c!">>" ++ trimEnd (c!" " ++ B ++ c!" ") := by
    rw [hsrc]
    unfold trim
    rw [trimStart_blank (by intro x hx; simp at hx; subst hx; decide)]
    have : trimStart (P ++ c!" >" ++ '>' :: (c!" " ++ B ++ c!" ")) = P ++ c!" >" ++ '>' :: (c!" " ++ B ++ c!" ") := by
      subst hP
      unfold trimStart
      rw [List.cons_append, List.cons_append, List.dropWhile_cons_of_neg (by simp [hc])]
    rw [this, trimEnd_through (by decide)]
    simp
  have h2 := Parts.both (hs (trimEnd (c!" " ++ B ++ c!" "))) h1
  have h3 : trim (c!" " ++ B ++ c!" ") = trim B := by
    rw [List.append_assoc, trim_outer (by intro x hx; simp at hx; subst hx; decide)
      (by intro x hx; simp at hx; subst hx; decide)]
  rw [ht, trim_trimEnd, h3] at h2
  exact h2

/-- The parts of `P >> B `, with white space before. -/
theorem parts_from {w P B : Str} {c : Char} {r : Str} (hw : Blank w) (hP : P = c :: r) (hc : isWs c = false)
    (hs : ∀ k, NoSep (c!">>" ++ k) (P ++ c!" ")) : Parts (w ++ P ++ c!" >> " ++ B ++ c!" ") (some (trim P)) (trim B) := by
  have hsrc : w ++ P ++ c!" >> " ++ B ++ c!" " = w ++ (P ++ c!" >" ++ '>' :: (c!" " ++ B ++ c!" ")) := by simp
  have h1 : trim (w ++ P ++ c!" >> " ++ B ++ c!" ") = P ++ c!" " ++ c!">>" ++ trimEnd (c!" " ++ B ++ c!" ") := by
    rw [hsrc]
    unfold trim
    rw [trimStart_blank hw]
    have : trimStart (P ++ c!" >" ++ '>' :: (c!" " ++ B ++ c!" ")) = P ++ c!" >" ++ '>' :: (c!" " ++ B ++ c!" ") := by
      subst hP
      unfold trimStart
      rw [List.cons_append, List.cons_append, List.dropWhile_cons_of_neg (by simp [hc])]
    rw [this, trimEnd_through (by decide)]
    simp
  have h2 := Parts.both (hs (trimEnd (c!" " ++ B ++ c!" "))) h1
  have h3 : trim (c!" " ++ B ++ c!" ") = trim B := by
    rw [List.append_assoc, trim_outer (by intro x hx; simp at hx; subst hx; decide)
      (by intro x hx; simp at hx; subst hx; decide)]
  rw [trim_blankEnd (by intro x hx; simp at hx; subst hx; decide), trim_trimEnd, h3] at h2
  exact h2

/-- The parts of a source that is only a template. -/
theorem parts_code {S : Site} {al : Str} {l : List Node} (h : AllOk S al l) : Parts (c!" " ++ printAll l ++ c!" ") none (trim (printAll l)) := by
  have hb : ∀ x ∈ (c!" " : Str), isWs x = true := by intro x hx; simp at hx; subst hx; decide
  have e : trim (c!" " ++ printAll l ++ c!" ") = trim (printAll l) := by
    rw [List.append_assoc, trim_outer hb hb]
  have := Parts.code (src := c!" " ++ printAll l ++ c!" ") (by
    rw [e]; exact good_noSep (good_trim (good_all l h [] cont_nil)))
  rwa [e] at this

theorem blank_space : Blank c!" " := by intro x hx; simp at hx; subst hx; decide

theorem nameOk_trim {t : Str} (h : NameOk t) (u v : Str) (hu : Blank u) (hv : Blank v) : trim (u ++ (t ++ v)) = t := by
  rw [trim_outer hu hv]
  have h1 : trimStart t = t := by
    cases t with
    | nil => rfl
    | cons c r =>
      unfold trimStart
      rw [List.dropWhile_cons_of_neg (by simp [(h.chars c (by simp)).2.2])]
  unfold trim
  rw [h1]
  cases hr : t.reverse with
  | nil =>
    have : t = [] := by simpa using hr
    rw [this]; rfl
  | cons d r =>
    have h3 : t = r.reverse ++ [d] := by
      have := congrArg List.reverse hr
      simpa using this
    rw [h3]
    exact trimEnd_last (h.chars d (by rw [h3]; simp)).2.2

/-! No flags, no comments. -/

/-- Removing `s` from the front does not remove an occurrence of `{:` with `q` after it. -/
def Skips (q s : Str) : Prop := ∀ k, '{' :: ':' :: q <:+: s ++ k → '{' :: ':' :: q <:+: k

theorem skips_append {q a b : Str} (ha : Skips q a) (hb : Skips q b) : Skips q (a ++ b) := by
  intro k h
  rw [List.append_assoc] at h
  exact hb k (ha _ h)

theorem skips_noBrace {q a : Str} (h : '{' ∉ a) : Skips q a := by
  induction a with
  | nil => intro k hk; exact hk
  | cons c a ih =>
    simp only [List.mem_cons, not_or] at h
    intro k hk
    rw [List.cons_append, List.infix_cons_iff] at hk
    rcases hk with hk | hk
    · rw [List.cons_prefix_cons] at hk
      exact absurd hk.1 h.1
    · exact ih h.2 k hk

theorem skips_text {q t : Str} (h1 : ¬ c!"{:" <:+: t) (h2 : t.getLast? ≠ some '{') : Skips q t := by
  induction t with
  | nil => intro k hk; exact hk
  | cons c t ih =>
    rw [pair_cons, not_or] at h1
    intro k hk
    rw [List.cons_append, List.infix_cons_iff] at hk
    rcases hk with hk | hk
    · exfalso
      cases t with
      | nil =>
        rw [List.cons_prefix_cons] at hk
        rw [← hk.1] at h2
        exact h2 rfl
      | cons d t =>
        rw [List.cons_append, List.cons_prefix_cons, List.cons_prefix_cons] at hk
        exact h1.1 ⟨hk.1.symm, by simp [← hk.2.1]⟩
    · refine ih h1.2 ?_ k hk
      cases t with
      | nil => simp
      | cons d t => rwa [List.getLast?_cons_cons] at h2

theorem skips_bif {q mods name src : Str} (h1 : Skips q (c!"{:" ++ (mods ++ name ++ c!";"))) (h2 : Skips q src) :
    Skips q (bifText mods name src) := by
  have e : bifText mods name src = (c!"{:" ++ (mods ++ name ++ c!";")) ++ (src ++ c!":}") := by simp [bifText]
  rw [e]
  exact skips_append h1 (skips_append h2 (skips_noBrace (by decide)))

theorem skips_head {q : Str} (hq : q = c!"flg;" ∨ q = c!"*") {neg plus : Bool} {name : Str} (h : name ∈ langNames) :
    Skips q (c!"{:" ++ (marks neg plus ++ name ++ c!";")) := by
  intro k hk
  simp only [langNames, List.mem_cons, List.not_mem_nil, or_false] at h
  rcases hq with rfl | rfl <;> cases neg <;> cases plus <;>
    rcases h with rfl | rfl | rfl | rfl | rfl | rfl | rfl | rfl | rfl | rfl | rfl | rfl | rfl | rfl | rfl | rfl | rfl | rfl | rfl | rfl | rfl | rfl | rfl | rfl <;>
    simpa [marks, List.infix_cons_iff, List.cons_prefix_cons] using hk

theorem skips_body {q : Str} (hq : q = c!"flg;" ∨ q = c!"*") {neg plus : Bool} {name a t : Str} (h : name ∈ langNames) (ha : '{' ∉ a)
    (ht : Skips q t) : Skips q (bifText (marks neg plus) name (a ++ t ++ c!" ")) :=
  skips_bif (skips_head hq h) (skips_append (skips_append (skips_noBrace ha) ht) (skips_noBrace (by decide)))

theorem skips_plain {q : Str} (hq : q = c!"flg;" ∨ q = c!"*") {name a : Str} (h : name ∈ langNames) (ha : '{' ∉ a) :
    Skips q (bifText [] name a) :=
  skips_bif (by simpa [marks] using skips_head hq (neg := false) (plus := false) h) (skips_noBrace ha)

theorem skips_leaf {S : Site} {q : Str} (hq : q = c!"flg;" ∨ q = c!"*") {k : Leaf} (h : k.Ok S) : Skips q (bifText k.mods k.name k.source) := by
  cases k with
  | lang => exact skips_plain hq (name := c!"lang") (by decide) (by decide)
  | mark =>
    refine skips_bif ?_ (skips_noBrace (by decide))
    intro k hk
    rcases hq with rfl | rfl <;> simpa [Leaf.name, Leaf.mods, List.infix_cons_iff, List.cons_prefix_cons] using hk
  | up =>
    refine skips_bif ?_ (skips_noBrace (by decide))
    intro k hk
    rcases hq with rfl | rfl <;> simpa [Leaf.name, Leaf.mods, List.infix_cons_iff, List.cons_prefix_cons] using hk
  | join keys name sep =>
    obtain ⟨hn, _, _, h1, h2⟩ := h
    rw [join_source]
    exact skips_plain hq (name := c!"join") (by decide) (not_mem_append (not_mem_append (by decide) (join_braces hn h1 h2).1) (by decide))
  | load locale path v =>
    exact skips_plain hq (load_names locale) (not_mem_append (not_mem_append (by decide) (nameOk_braces h.1).1) (by decide))

mutual
theorem skips_node {S : Site} {al : Str} {q : Str} (hq : q = c!"flg;" ∨ q = c!"*") : ∀ (x : Node), x.Ok S al → Skips q x.print
  | .text t, h => by
    simp only [Node.Ok] at h
    simp only [Node.print]
    exact skips_text h.noOpen h.last
  | .var amp name, h => by
    simp only [Node.Ok] at h
    simp only [Node.print]
    refine skips_bif ?_ (skips_noBrace (nameOk_braces h).1)
    intro k hk
    rcases hq with rfl | rfl <;> cases amp <;> simpa [List.infix_cons_iff, List.cons_prefix_cons] using hk
  | .cond neg plus kind name body, h => by
    simp only [Node.Ok] at h
    simp only [Node.print]
    exact skips_body hq (cond_names h.1) (not_mem_append (not_mem_append (by decide) (nameOk_braces h.2.1).1) (by decide)) (skips_all hq body h.2.2)
  | .cmp neg plus kind a b body, h => by
    simp only [Node.Ok] at h
    simp only [Node.print]
    obtain ⟨h1, ha, hb, hbody, _⟩ := h
    exact skips_bif (skips_head hq (cmp_names h1)) (skips_append (skips_append (skips_append (skips_append (skips_append (skips_append
      (skips_noBrace (by decide)) (skips_all hq a ha)) (skips_noBrace (by decide))) (skips_all hq b hb)) (skips_noBrace (by decide)))
      (skips_all hq body hbody)) (skips_noBrace (by decide)))
  | .els neg plus body, h => by
    simp only [Node.Ok] at h
    simp only [Node.print]
    exact skips_body hq (by decide) (by decide) (skips_all hq body h)
  | .coalesce plus body, h => by
    simp only [Node.Ok] at h
    simp only [Node.print]
    exact skips_body hq (by decide) (by decide) (skips_all hq body h)
  | .code plus body, h => by
    simp only [Node.Ok] at h
    simp only [Node.print]
    exact skips_body hq (by decide) (by decide) (skips_all hq body h)
  | .each plus coll key val body, h => by
    simp only [Node.Ok] at h
    simp only [Node.print]
    obtain ⟨h1, h2, h3, h4⟩ := h
    exact skips_body hq (by decide) (not_mem_append (not_mem_append (by decide) (each_braces h1 h2.1 h3.1).1) (by decide)) (skips_all hq body h4)
  | .range plus v a b body, h => by
    simp only [Node.Ok] at h
    simp only [Node.print]
    obtain ⟨h1, h2, h3, h4, h5⟩ := h
    exact skips_body hq (by decide) (not_mem_append (not_mem_append (by decide) (range_braces h1.1 a b).1) (by decide)) (skips_all hq body h5)
  | .param name, h => by
    simp only [Node.Ok] at h
    simp only [Node.print]
    exact skips_plain hq (by decide) (not_mem_append (not_mem_append (by decide) (nameOk_braces h).1) (by decide))
  | .setParam name body, h => by
    simp only [Node.Ok] at h
    simp only [Node.print]
    exact skips_body hq (neg := false) (plus := false) (name := c!"param") (by decide)
      (not_mem_append (not_mem_append (by decide) (nameOk_braces h.2.1).1) (by decide)) (skips_all hq body h.2.2)
  | .trans neg body, h => by
    simp only [Node.Ok] at h
    simp only [Node.print]
    exact skips_body hq (by decide) (by decide) (skips_all hq body h)
  | .incl path body, h => by
    simp only [Node.Ok] at h
    simp only [Node.print]
    exact skips_plain hq (by decide) (not_mem_append (not_mem_append (by decide) (nameOk_braces h.1).1) (by decide))
  | .snippet kind name body, h => by
    simp only [Node.Ok] at h
    simp only [Node.print]
    exact skips_plain hq (snip_names h.1) (not_mem_append (not_mem_append (by decide) (nameOk_braces h.2.1).1) (by decide))
  | .leaf k, h => by
    simp only [Node.Ok] at h
    simp only [Node.print]
    exact skips_leaf hq h
  | .replace a b body, h => by
    simp only [Node.Ok] at h
    simp only [Node.print]
    obtain ⟨ha, hb, hbody, _⟩ := h
    exact skips_bif (by simpa [marks] using skips_head hq (neg := false) (plus := false) (name := c!"replace") (by decide))
      (skips_append (skips_append (skips_append (skips_append (skips_append (skips_append
      (skips_noBrace (by decide)) (skips_all hq a ha)) (skips_noBrace (by decide))) (skips_all hq b hb)) (skips_noBrace (by decide)))
      (skips_all hq body hbody)) (skips_noBrace (by decide)))
  | .allow neg name body, h => by
    simp only [Node.Ok] at h
    simp only [Node.print]
    exact skips_body hq (by decide) (not_mem_append (not_mem_append (by decide) (nameOk_braces h.1).1) (by decide)) (skips_all hq body h.2.2)
  | .eval neg plus test body, h => by
    simp only [Node.Ok] at h
    simp only [Node.print]
    exact skips_bif (skips_head hq (by decide)) (skips_append (skips_append (skips_append (skips_append
      (skips_noBrace (by decide)) (skips_all hq test h.1)) (skips_noBrace (by decide))) (skips_all hq body h.2.2)) (skips_noBrace (by decide)))
  | .hash body, h => by
    simp only [Node.Ok] at h
    simp only [Node.print]
    exact skips_body hq (neg := false) (plus := false) (name := c!"hash") (a := c!" ") (by decide) (by decide) (skips_all hq body h.1)
theorem skips_all {S : Site} {al : Str} {q : Str} (hq : q = c!"flg;" ∨ q = c!"*") : ∀ (l : List Node), AllOk S al l → Skips q (printAll l)
  | [], _ => by simp only [printAll]; intro k hk; exact hk
  | x :: l, h => by
    simp only [AllOk] at h
    simp only [printAll]
    exact skips_append (skips_node hq x h.1) (skips_all hq l h.2)
end

/-- A printed template has no comments. -/
theorem all_noComment {S : Site} {al : Str} {l : List Node} (h : AllOk S al l) : ¬ c!"{:*" <:+: printAll l := by
  intro hx
  have := skips_all (.inr rfl) l h [] (by simpa using hx)
  exact absurd this.length_le (by decide)

end Nts
