import Verif.Spec.Text
import Verif.Spec.Sample
import Verif.Lemmas.Str
import Verif.Lemmas.RunBif
import Verif.Props.Comments
/-
C49 replacement, C47 marks, C40 status codes.
-/
set_option autoImplicit false
namespace Nts
open Spec

/-! ### C49 -/

theorem replGo_first (f t : Str) (hf : f ≠ []) (r : Str) : ∀ (a : Str),
    (∀ a' b', a ++ f ++ r = a' ++ f ++ b' → a.length ≤ a'.length) →
    replGo f t 0 (a ++ f ++ r) = a ++ t ++ replGo f t 0 r := by
  intro a
  induction a with
  | nil => intro _; simpa using replGo_match f t r hf
  | cons c a ih =>
    intro h
    simp only [List.cons_append] at h ⊢
    rw [replGo_nomatch]
    · rw [ih]
      intro a' b' he
      have := h (c :: a') b' (by rw [he]; rfl)
      simpa using this
    · rintro ⟨x, hx⟩
      have := h [] x (by simpa using hx.symm)
      simp at this

theorem replaced_replaceAll (f t : Str) (hf : f ≠ []) : ∀ (n : Nat) (s : Str), s.length ≤ n →
    Replaced f t s (replaceAll f t s) := by
  intro n
  induction n with
  | zero =>
    intro s hs
    have : s = [] := List.length_eq_zero_iff.1 (by omega)
    subst this
    have hni : ¬ f <:+: ([] : Str) := by simpa using hf
    rw [replaceAll_of_not_infix hf hni]
    exact .done hni
  | succ n ih =>
    intro s hs
    cases h : splitOnce f s with
    | none =>
      have := (splitOnce_eq_none hf).1 h
      rw [replaceAll_of_not_infix hf this]
      exact .done this
    | some x =>
      obtain ⟨a, r⟩ := x
      obtain ⟨rfl, h2⟩ := (splitOnce_eq_some hf).1 h
      have hr := ih r (by
        simp only [List.length_append] at hs
        have := List.length_pos_iff.2 hf
        omega)
      unfold replaceAll at hr ⊢
      rw [if_neg hf] at hr ⊢
      rw [replGo_first f t hf r a h2]
      exact .step h2 hr

/-- **C49.** Replacing a non-empty pattern replaces the leftmost occurrences one after the other and keeps the text around
them, for all texts. -/
theorem C49_replace (f t s : Str) (hf : f ≠ []) : Replaced f t s (replaceAll f t s) :=
  replaced_replaceAll f t hf s.length s (Nat.le_refl _)

/-- **C49 (nothing to replace).** -/
theorem C49_unchanged (f t s : Str) (hf : f ≠ []) (h : ¬ f <:+: s) : replaceAll f t s = s :=
  replaceAll_of_not_infix hf h

/-- **C49 (the BIF).** `{:replace; /from/to/ >> text :}` prints the text with the replacements made. (`params` and `rest`
are what stands before and after the separator, `from` and `to` the parts of `params` between its delimiters.) -/
theorem C49_bif (R : Rec) (s : St) (params rest : Str) (d : Char) (x f t : Str) (more : List Str)
    (hm : s.b.modFilter = false ∧ s.b.modNegate = false ∧ s.b.modScope = false)
    (hsep : NoSep (c!">>" ++ rest) params) (hsrc : s.b.src = params ++ c!">>" ++ rest)
    (hp : trim params = d :: x) (hargs : splitChar d (d :: x) = [] :: f :: t :: more)
    (hplain : ∀ a ∈ splitChar d (d :: x), ¬ c!"{:" <:+: a)
    (hflg : ¬ c!"{:flg;" <:+: trim params) (hcode : ¬ c!"{:" <:+: trim rest) (hf : f ≠ []) :
    ∃ s', run R bifReplace s = .ok () s' ∧ Replaced f t (trim rest) s'.b.out := by
  obtain ⟨h1, h2, h3⟩ := hm
  have hpos := C18_first params rest hsep
  rw [← hsrc] at hpos
  have e1 : s.b.src.take params.length = params := by rw [hsrc, List.append_assoc, List.take_left]
  have e2 : s.b.src.drop (params.length + 2) = rest := by
    have : params.length + 2 = (params ++ c!">>").length := by simp
    rw [hsrc, this, List.drop_left]
  have hloop : ∀ (l : List Str) (s : St), (∀ a ∈ l, ¬ c!"{:" <:+: a) → run R (argLoop l) s = .ok l s := by
    intro l
    induction l with
    | nil => intro s _; rfl
    | cons a l ih =>
      intro s hl
      have ha : contains bifOpen a = false := (contains_false_iff (by decide)).2 (hl a (by simp))
      simp only [argLoop, run_bind, ha, Bool.false_eq_true, if_false, run_pure', andThen_ok]
      rw [ih s (fun b hb => hl b (List.mem_cons_of_mem _ hb))]
      rfl
  have hsp : splitSrc s.b = { s.b with params := trim params, code := trim rest } := by
    unfold splitSrc
    rw [hpos]
    simp only [e1, e2]
  have hfl : contains c!"{:flg;" (trim params) = false := (contains_false_iff (by decide)).2 hflg
  have hco : contains bifOpen (trim rest) = false := (contains_false_iff (by decide)).2 hcode
  refine ⟨{ s with b := { s.b with params := trim params, code := trim rest, out := replaceAll f t (trim rest) } }, ?_,
    C49_replace f t _ hf⟩
  rw [hp] at hfl hsp ⊢
  simp only [bifReplace, run_bind, run_denyMods, h1, h2, h3, Bool.or_self, Bool.false_eq_true, if_false, andThen_ok,
    run_extractParamsCode, Bool.false_and, hsp, run_denyFlgParams, hfl, extractArgs, run_getSt]
  rw [hloop _ _ hplain, hargs]
  simp [argReq, run_parseCode, hco]

/-- The premises are met. -/
example : NoSep (c!">>" ++ c!" a-b-c ") c!"/-/+/ " ∧ trim c!"/-/+/ " = '/' :: c!"-/+/" ∧
    splitChar '/' ('/' :: c!"-/+/") = [] :: c!"-" :: c!"+" :: [[]] ∧
    Replaced c!"-" c!"+" c!"a-b-c" c!"a+b+c" := by
  refine ⟨?_, by decide, by decide, C49_replace c!"-" c!"+" c!"a-b-c" (by decide)⟩
  repeat first | exact NoSep.nil _ | refine .chr _ (by decide) (by decide) (by decide) ?_

/-! ### C47 -/

theorem dropBackspace_nil (k : Nat) : dropBackspace k [] = [] := by cases k <;> rfl

theorem dropMark_succ (m : Str) (k : Nat) (c : Char) (s : Str) : dropMark m (k + 1) (c :: s) = dropMark m k s := by
  rw [dropMark]

theorem dropMark_zero (m : Str) (c : Char) (s : Str) : dropMark m 0 (c :: s) =
    match afterWs m (c :: s) with
    | some rest => dropMark m ((c :: s).length - rest.length - 1) s
    | none => c :: dropMark m 0 s := by
  rw [dropMark]
  cases afterWs m (c :: s) <;> rfl

theorem dropBackspace_succ (k : Nat) (c : Char) (s : Str) : dropBackspace (k + 1) (c :: s) = dropBackspace k s :=
  dropMark_succ _ _ _ _

theorem dropBackspace_zero (c : Char) (s : Str) : dropBackspace 0 (c :: s) =
    match afterWs backspace (c :: s) with
    | some rest => dropBackspace ((c :: s).length - rest.length - 1) s
    | none => c :: dropBackspace 0 s := dropMark_zero _ _ _

theorem dropBackspace_skip (k : Nat) : ∀ s, dropBackspace k s = dropBackspace 0 (s.drop k) := by
  induction k with
  | zero => intro s; simp
  | succ k ih =>
    intro s
    cases s with
    | nil => rw [dropBackspace_nil, List.drop_nil, dropBackspace_nil]
    | cons c s => rw [dropBackspace_succ, ih, List.drop_succ_cons]

theorem dropWhile_blank {w r : Str} (h : Blank w) (hr : r.dropWhile isWs = r) : (w ++ r).dropWhile isWs = r := by
  induction w with
  | nil => simpa using hr
  | cons c w ih =>
    have hc : isWs c = true := h c (by simp)
    simp only [List.cons_append, List.dropWhile_cons, hc, if_true]
    exact ih (fun x hx => h x (List.mem_cons_of_mem _ hx))

theorem backspace_dropWhile (r : Str) : (backspace ++ r).dropWhile isWs = backspace ++ r := by
  have : isWs '&' = false := by decide
  simp [List.dropWhile_cons, this]

theorem dropBackspace_cut {w r : Str} (h : Blank w) : dropBackspace 0 (w ++ backspace ++ r) = dropBackspace 0 r := by
  have hd : (w ++ backspace ++ r).dropWhile isWs = backspace ++ r := by
    rw [List.append_assoc]; exact dropWhile_blank h (backspace_dropWhile r)
  have hl : (w ++ backspace ++ r).length = w.length + 6 + r.length := by
    simp only [List.length_append, List.length_cons, List.length_nil]
  have hdrop : (w ++ backspace ++ r).drop (w.length + 6) = r := by
    have : w.length + 6 = (w ++ backspace).length := by simp
    rw [this, List.drop_left]
  cases hs : w ++ backspace ++ r with
  | nil => rw [hs] at hl; simp only [List.length_nil] at hl; omega
  | cons c s =>
    rw [hs] at hd hl hdrop
    rw [dropBackspace_zero, afterWs, hd, stripPrefix?_append]
    show dropBackspace _ s = _
    rw [dropBackspace_skip]
    have : (c :: s).length - r.length - 1 = w.length + 5 := by omega
    rw [this]
    have h2 : (c :: s).drop (w.length + 6) = s.drop (w.length + 5) := rfl
    rw [← h2, hdrop]

theorem dropBackspace_keep {c : Char} {s : Str} (h : ¬ ∃ w r, Blank w ∧ c :: s = w ++ backspace ++ r) :
    dropBackspace 0 (c :: s) = c :: dropBackspace 0 s := by
  rw [dropBackspace_zero]
  cases hs : afterWs backspace (c :: s) with
  | none => rfl
  | some rest =>
    exfalso
    unfold afterWs at hs
    apply h
    refine ⟨(c :: s).takeWhile isWs, rest, takeWhile_all _ _, ?_⟩
    rw [List.append_assoc, ← stripPrefix?_eq_some.1 hs, List.takeWhile_append_dropWhile]

theorem markRemoved_drop : ∀ (n : Nat) (s : Str), s.length ≤ n → MarkRemoved backspace s (dropBackspace 0 s) := by
  intro n
  induction n with
  | zero =>
    intro s hs
    have : s = [] := List.length_eq_zero_iff.1 (by omega)
    subst this
    exact .nil
  | succ n ih =>
    intro s hs
    cases s with
    | nil => exact .nil
    | cons c s =>
      by_cases h : ∃ w r, Blank w ∧ c :: s = w ++ backspace ++ r
      · obtain ⟨w, r, hw, he⟩ := h
        rw [he, dropBackspace_cut hw]
        refine .cut hw (ih r ?_)
        have := congrArg List.length he
        simp only [List.length_append, List.length_cons, List.length_nil] at this hs
        omega
      · rw [dropBackspace_keep h]
        exact .keep c h (ih s (by simpa using hs))

/-- **C47 (what is removed).** The final replacements delete the upline marks `&#9224` with exactly the white space right
before each of them, and then the unprintable marks `&#0;`; everything else stays. -/
theorem C47_replacements (out : Str) :
    ∃ m, MarkRemoved c!"&#9224" out m ∧ Replaced c!"&#0;" [] m (replacements out) :=
  ⟨_, markRemoved_drop out.length out (Nat.le_refl _), C49_replace _ _ _ (by decide)⟩

theorem dropBackspace_id {s : Str} (h : ¬ c!"&#9224" <:+: s) : dropBackspace 0 s = s := by
  induction s with
  | nil => rfl
  | cons c s ih =>
    rw [dropBackspace_keep, ih (fun h' => h (List.infix_cons h'))]
    rintro ⟨w, r, _, he⟩
    exact h ⟨w, r, he.symm⟩

/-- **C47 (text without marks).** Any text without marks is unchanged. -/
theorem C47_unchanged (out : Str) (h1 : ¬ c!"&#9224" <:+: out) (h2 : ¬ c!"&#0;" <:+: out) : replacements out = out := by
  unfold replacements
  rw [dropBackspace_id h1, C49_unchanged _ _ _ (by decide) h2]

theorem blank_head {c : Char} {w : Str} (h : Blank (c :: w)) : c ≠ '&' := by
  rintro rfl
  have := h '&' (by simp)
  exact absurd this (by decide)

theorem markOnly_cut {s : Str} (h : MarkOnly backspace unprintable s) : ∀ (w r : Str), Blank w →
    s = w ++ backspace ++ r → MarkOnly backspace unprintable r := by
  induction h with
  | nil => intro w r _ he; simp at he
  | chr c hc hs ih =>
    intro w r hw he
    cases w with
    | nil =>
      simp only [List.nil_append, List.cons_append, List.cons.injEq] at he
      exact absurd he.1 hc
    | cons x w =>
      simp only [List.cons_append, List.cons.injEq] at he
      exact ih w r (fun y hy => hw y (List.mem_cons_of_mem _ hy)) he.2
  | mark1 hs ih =>
    intro w r hw he
    cases w with
    | nil =>
      simp only [List.nil_append] at he
      rw [← List.append_cancel_left he]; exact hs
    | cons x w =>
      simp only [List.cons_append, List.cons.injEq] at he
      exact absurd he.1.symm (blank_head hw)
  | mark2 hs ih =>
    intro w r hw he
    cases w with
    | nil => simp at he
    | cons x w =>
      simp only [List.cons_append, List.cons.injEq] at he
      exact absurd he.1.symm (blank_head hw)

/-- Only unprintable marks. -/
theorem markOnly_drop : ∀ (n : Nat) (s : Str), s.length ≤ n → MarkOnly backspace unprintable s →
    MarkOnly unprintable unprintable (dropBackspace 0 s) := by
  intro n
  induction n with
  | zero =>
    intro s hs _
    have : s = [] := List.length_eq_zero_iff.1 (by omega)
    subst this
    exact .nil
  | succ n ih =>
    intro s hs h
    by_cases hx : ∃ w r, Blank w ∧ s = w ++ backspace ++ r
    · obtain ⟨w, r, hw, he⟩ := hx
      have hr := markOnly_cut h w r hw he
      rw [he, dropBackspace_cut hw]
      refine ih r ?_ hr
      have := congrArg List.length he
      simp only [List.length_append, List.length_cons, List.length_nil] at this
      omega
    · cases h with
      | nil => exact .nil
      | @chr s c hc h' =>
        rw [dropBackspace_keep hx]
        exact .chr c hc (ih s (by simpa using hs) h')
      | @mark1 s h' => exact absurd ⟨[], s, by intro x hx; simp at hx, rfl⟩ hx
      | @mark2 s h' =>
        have hk : ∀ c x, c :: x <:+ unprintable → dropBackspace 0 (c :: (x ++ s)) = c :: dropBackspace 0 (x ++ s) := by
          intro c x hc
          apply dropBackspace_keep
          rintro ⟨w, r, hw, he⟩
          cases w with
          | nil =>
            simp only [List.nil_append, List.cons_append, List.cons.injEq] at he
            obtain ⟨hc', he⟩ := he
            subst hc'
            have hu : c!"&#0;" = '&' :: x := by
              have h4 := List.IsSuffix.length_le hc
              obtain ⟨y, hy⟩ := hc
              cases y with
              | nil => exact hy.symm
              | cons z y =>
                simp only [List.cons_append, List.cons.injEq] at hy
                obtain ⟨_, hy⟩ := hy
                have : '&' ∈ c!"#0;" := by rw [← hy]; simp
                exact absurd this (by decide)
            simp only [List.cons.injEq, true_and] at hu
            rw [← hu] at he
            simp at he
          | cons z w =>
            simp only [List.cons_append, List.cons.injEq] at he
            have hz := hw z (by simp)
            rw [← he.1] at hz
            have : c ∈ unprintable := hc.subset (by simp)
            simp only [List.mem_cons, List.not_mem_nil, or_false] at this
            rcases this with rfl | rfl | rfl | rfl <;> exact absurd hz (by decide)
        have hlen : s.length ≤ n := by
          simp only [List.length_append, List.length_cons, List.length_nil] at hs; omega
        have key : dropBackspace 0 (unprintable ++ s) = unprintable ++ dropBackspace 0 s := by
          show dropBackspace 0 ('&' :: (c!"#0;" ++ s)) = _
          rw [hk '&' c!"#0;" (by decide)]
          show '&' :: dropBackspace 0 ('#' :: (c!"0;" ++ s)) = _
          rw [hk '#' c!"0;" (by decide)]
          show '&' :: '#' :: dropBackspace 0 ('0' :: (c!";" ++ s)) = _
          rw [hk '0' c!";" (by decide)]
          show '&' :: '#' :: '0' :: dropBackspace 0 (';' :: ([] ++ s)) = _
          rw [hk ';' [] (by decide)]
          rfl
        rw [key]
        exact .mark1 (ih s hlen h')

theorem markOnly_replace {s : Str} (h : MarkOnly unprintable unprintable s) : '&' ∉ replGo unprintable [] 0 s := by
  induction h with
  | nil => simp [replGo]
  | chr c hc hs ih =>
    rw [replGo_nomatch]
    · simp only [List.mem_cons, not_or]
      exact ⟨Ne.symm hc, ih⟩
    · rintro ⟨x, hx⟩
      simp only [List.cons_append, List.cons.injEq] at hx
      exact hc hx.1.symm
  | mark1 hs ih => rw [replGo_match _ _ _ (by decide)]; simpa using ih
  | mark2 hs ih => rw [replGo_match _ _ _ (by decide)]; simpa using ih

/-- **C47 (no marks left), partial.** "The final output contains no mark" is false in general (`C47_refuted`): taking a mark
out can put the two sides together to a new one. It holds when the only `&` of the text are those of the marks. -/
theorem C47_no_marks_partial (out : Str) (h : MarkOnly c!"&#9224" c!"&#0;" out) :
    ¬ c!"&#9224" <:+: replacements out ∧ ¬ c!"&#0;" <:+: replacements out := by
  have h1 := markOnly_replace (markOnly_drop out.length out (Nat.le_refl _) h)
  have h2 : '&' ∉ replacements out := by
    unfold replacements replaceAll
    rw [if_neg (by decide)]
    exact h1
  constructor
  · rintro ⟨a, b, he⟩; apply h2; rw [← he]; simp
  · rintro ⟨a, b, he⟩; apply h2; rw [← he]; simp

/-- The premise is met. -/
example : MarkOnly c!"&#9224" c!"&#0;" c!"a  &#9224b&#0;" :=
  .chr _ (by decide) (.chr _ (by decide) (.chr _ (by decide) (.mark1 (.chr _ (by decide) (.mark2 .nil)))))

example : replacements c!"a  &#9224b&#0;" = c!"ab" := by decide

set_option maxRecDepth 10000 in
/-- **C47 (refuted).** Rendering `{:;:}&#&#0;0;` gives the unprintable mark, and rendering `{:;:}&#92&#0;24` the upline
mark. -/
theorem C47_refuted :
    Sample.outOf (Sample.go [] c!"{:;:}&#&#0;0;") = some (c!"&#0;", c!"200") ∧
    Sample.outOf (Sample.go [] c!"{:;:}&#92&#0;24") = some (c!"&#9224", c!"200") := by
  constructor <;> decide +kernel

/-! ### C40 -/

theorem digit_toNat {i : Nat} (h : i < 10) : (digitChar i).toNat = 48 + i := by
  have : ∀ j : Fin 10, (digitChar j.1).toNat = 48 + j.1 := by decide
  exact this ⟨i, h⟩

theorem digit_eq {i j : Nat} (hi : i < 10) (hj : j < 10) : digitChar i = digitChar j ↔ i = j := by
  constructor
  · intro h
    have := congrArg Char.toNat h
    rw [digit_toNat hi, digit_toNat hj] at this
    omega
  · rintro rfl; rfl

theorem strLe_code3 {a b c i j k : Nat} (ha : a < 10) (hb : b < 10) (hc : c < 10) (hi : i < 10) (hj : j < 10)
    (hk : k < 10) : strLe (code3 a b c) (code3 i j k) = true ↔ 100 * a + 10 * b + c ≤ 100 * i + 10 * j + k := by
  simp only [strLe, code3, digit_toNat, ha, hb, hc, hi, hj, hk, digit_eq]
  repeat' split
  all_goals simp
  all_goals omega

/-- **C40 (three-digit codes).** For every state after evaluation with status code `i j k`: the final output is code and
text exactly when the number is 400-599; code, text and parameter exactly for 301, 302, 303, 307, 308; and otherwise the
content (or the JavaScript page of a js redirect). -/
theorem C40_three_digits (sh : Shared) (out : Str) (i j k : Nat) (hi : i < 10) (hj : j < 10) (hk : k < 10)
    (hcode : sh.statusCode = code3 i j k) :
    finalOut sh out =
      if 400 ≤ 100 * i + 10 * j + k ∧ 100 * i + 10 * j + k ≤ 599 then sh.statusCode ++ c!" " ++ sh.statusText
      else if 100 * i + 10 * j + k ∈ [301, 302, 303, 307, 308] then
        sh.statusCode ++ c!" " ++ sh.statusText ++ c!"\n" ++ sh.statusParam
      else if sh.redirectJs ≠ [] then sh.redirectJs
      else out := by
  have e400 : (c!"400" : Str) = code3 4 0 0 := by decide
  have e599 : (c!"599" : Str) = code3 5 9 9 := by decide
  have h1 : strLe c!"400" sh.statusCode = true ↔ 400 ≤ 100 * i + 10 * j + k := by
    rw [hcode, e400, strLe_code3 (by omega) (by omega) (by omega) hi hj hk]
  have h2 : strLe sh.statusCode c!"599" = true ↔ 100 * i + 10 * j + k ≤ 599 := by
    rw [hcode, e599, strLe_code3 hi hj hk (by omega) (by omega) (by omega)]
  have heq : ∀ a b c, a < 10 → b < 10 → c < 10 →
      (sh.statusCode = code3 a b c ↔ 100 * i + 10 * j + k = 100 * a + 10 * b + c) := by
    intro a b c ha hb hc
    rw [hcode]
    simp only [code3, List.cons.injEq, and_true, digit_eq, ha, hb, hc, hi, hj, hk]
    omega
  have h3 : (sh.statusCode = c!"301" || sh.statusCode = c!"302" || sh.statusCode = c!"303" || sh.statusCode = c!"307"
      || sh.statusCode = c!"308") = true ↔ 100 * i + 10 * j + k ∈ [301, 302, 303, 307, 308] := by
    have x1 := heq 3 0 1 (by omega) (by omega) (by omega)
    have x2 := heq 3 0 2 (by omega) (by omega) (by omega)
    have x3 := heq 3 0 3 (by omega) (by omega) (by omega)
    have x4 := heq 3 0 7 (by omega) (by omega) (by omega)
    have x5 := heq 3 0 8 (by omega) (by omega) (by omega)
    have y1 : (c!"301" : Str) = code3 3 0 1 := by decide
    have y2 : (c!"302" : Str) = code3 3 0 2 := by decide
    have y3 : (c!"303" : Str) = code3 3 0 3 := by decide
    have y4 : (c!"307" : Str) = code3 3 0 7 := by decide
    have y5 : (c!"308" : Str) = code3 3 0 8 := by decide
    simp only [Bool.or_eq_true, decide_eq_true_eq, y1, y2, y3, y4, y5, x1, x2, x3, x4, x5, List.mem_cons,
      List.not_mem_nil, or_false]
    omega
  unfold finalOut
  by_cases c1 : 400 ≤ 100 * i + 10 * j + k ∧ 100 * i + 10 * j + k ≤ 599
  · rw [if_pos c1, if_pos]
    rw [h1.2 c1.1, h2.2 c1.2]; rfl
  · rw [if_neg c1, if_neg]
    · by_cases c2 : 100 * i + 10 * j + k ∈ [301, 302, 303, 307, 308]
      · rw [if_pos c2, if_pos (h3.2 c2)]
      · rw [if_neg c2, if_neg (fun h => c2 (h3.1 h))]
        cases hr : sh.redirectJs <;> simp
    · rw [Bool.and_eq_true, h1, h2]; exact c1

/-- **C40 (longer codes, exactly).** For a code that is three digits `i j k` followed by something (in particular every number
above 999): the content is replaced by code and text exactly when the number of the first three digits is 400-598;
otherwise it is kept (or replaced by the JavaScript page of a js redirect). -/
theorem C40_longer (sh : Shared) (out : Str) (i j k : Nat) (hi : i < 10) (hj : j < 10) (hk : k < 10) (c : Char) (r : Str)
    (hcode : sh.statusCode = code3 i j k ++ c :: r) :
    finalOut sh out =
      if 400 ≤ 100 * i + 10 * j + k ∧ 100 * i + 10 * j + k ≤ 598 then sh.statusCode ++ c!" " ++ sh.statusText
      else if sh.redirectJs ≠ [] then sh.redirectJs
      else out := by
  have h1 : strLe c!"400" sh.statusCode = true ↔ 400 ≤ 100 * i + 10 * j + k := by
    have e400 : (c!"400" : Str) = [digitChar 4, digitChar 0, digitChar 0] := by decide
    rw [hcode, e400]
    simp only [code3, List.cons_append, List.nil_append, strLe, digit_toNat, hi, hj, hk, digit_eq, show (4 : Nat) < 10 by omega,
      show (0 : Nat) < 10 by omega]
    repeat' split
    all_goals simp
    all_goals omega
  have h2 : strLe sh.statusCode c!"599" = true ↔ 100 * i + 10 * j + k ≤ 598 := by
    have e599 : (c!"599" : Str) = [digitChar 5, digitChar 9, digitChar 9] := by decide
    rw [hcode, e599]
    simp only [code3, List.cons_append, List.nil_append, strLe, digit_toNat, hi, hj, hk, digit_eq, show (5 : Nat) < 10 by omega,
      show (9 : Nat) < 10 by omega]
    repeat' split
    all_goals simp
    all_goals omega
  have hne : ∀ x y z : Char, sh.statusCode ≠ [x, y, z] := by
    intro x y z h
    rw [hcode] at h
    simp [code3] at h
  unfold finalOut
  by_cases c1 : 400 ≤ 100 * i + 10 * j + k ∧ 100 * i + 10 * j + k ≤ 598
  · rw [if_pos c1, if_pos]
    rw [h1.2 c1.1, h2.2 c1.2]; rfl
  · rw [if_neg c1, if_neg]
    · rw [if_neg (by simp only [Bool.or_eq_true, decide_eq_true_eq]; rintro ((((h | h) | h) | h) | h) <;> exact hne _ _ _ h)]
      cases sh.redirectJs <;> simp
    · intro h
      rw [Bool.and_eq_true] at h
      exact c1 ⟨h1.1 h.1, h2.1 h.2⟩

/-- **C40 (any other code), partial.** A code of any other shape keeps the content when its first character is neither `4`
nor `5` (and there is no js redirect). "Custom codes above 999 keep the content" is false in general (`C40_custom_refuted`). -/
theorem C40_custom_partial (sh : Shared) (out : Str) (c : Char) (r : Str) (hcode : sh.statusCode = c :: r)
    (h4 : c ≠ '4') (h5 : c ≠ '5') (hlen : r.length ≠ 2) (hjs : sh.redirectJs = []) : finalOut sh out = out := by
  have hle : (strLe c!"400" sh.statusCode && strLe sh.statusCode c!"599") = false := by
    rw [hcode]
    by_cases hc : c.toNat < 52
    · have h1 : strLe c!"400" (c :: r) = false := by
        have e : ¬ ('4' : Char).toNat < c.toNat := by
          have : ('4' : Char).toNat = 52 := by decide
          omega
        simp only [strLe, e, if_false, Ne.symm h4]
      rw [h1]; rfl
    · have h52 : c.toNat ≠ 52 := fun e => h4 (Char.toNat_inj.1 e)
      have h53 : c.toNat ≠ 53 := fun e => h5 (Char.toNat_inj.1 e)
      have h2 : strLe (c :: r) c!"599" = false := by
        have e : ¬ c.toNat < ('5' : Char).toNat := by
          have : ('5' : Char).toNat = 53 := by decide
          omega
        simp only [strLe, e, if_false, h5]
      rw [h2]; simp
  have hne : ∀ x : Str, x.length = 3 → sh.statusCode ≠ x := by
    intro x hx he
    rw [hcode] at he
    have := congrArg List.length he
    simp only [List.length_cons] at this
    omega
  unfold finalOut
  rw [hle, hjs]
  simp [hne c!"301" rfl, hne c!"302" rfl, hne c!"303" rfl, hne c!"307" rfl, hne c!"308" rfl]

/-- The premises are met by the code `1234`. -/
example : finalOut { Sample.shared0 with statusCode := c!"1234" } c!"page" = c!"page" :=
  C40_custom_partial _ _ '1' c!"234" rfl (by decide) (by decide) (by decide) rfl

set_option maxRecDepth 10000 in
/-- **C40 (refuted for custom codes).** The page `content {:exit; 40404 :}` is replaced by `40404 `, though the code is above
999; with the code `1000` it is kept. -/
theorem C40_custom_refuted :
    Sample.outOf (Sample.go [] c!"content {:exit; 40404 :}") = some (c!"40404 ", c!"40404") ∧
    Sample.outOf (Sample.go [] c!"content {:exit; 1000 :}") = some (c!"content", c!"1000") := by
  constructor <;> decide +kernel

end Nts
