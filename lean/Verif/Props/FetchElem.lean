import Verif.Props.Simple
import Verif.Props.Text
/-
C74: the element that fetch prints. C49: exactly what replace prints.
-/
set_option autoImplicit false
namespace Nts
open Spec

theorem prefix_sep {f a b : Str} {d : Char} (hd : d ∉ f) (h : f <+: a ++ d :: b) : f <+: a := by
  rcases List.prefix_or_prefix_of_prefix h (List.prefix_append a (d :: b)) with h1 | ⟨u, hu⟩
  · exact h1
  · rw [← hu] at h
    rw [List.prefix_append_right_inj] at h
    cases u with
    | nil => rw [← hu, List.append_nil]; exact List.prefix_rfl
    | cons c u =>
      obtain ⟨v, hv⟩ := h
      simp only [List.cons_append, List.cons.injEq] at hv
      exact absurd (by rw [← hu, hv.1]; simp) hd

theorem replGo_sep {f : Str} (t : Str) {d : Char} (hd : d ∉ f) (hf : f ≠ []) (b : Str) : ∀ (n : Nat) (a : Str), a.length ≤ n →
    replGo f t 0 (a ++ d :: b) = replGo f t 0 a ++ d :: replGo f t 0 b := by
  intro n
  induction n with
  | zero =>
    intro a ha
    cases a with
    | nil =>
      rw [List.nil_append, replGo_nomatch]
      · simp [replGo]
      · intro h
        exact hf (List.prefix_nil.1 (prefix_sep (a := []) hd h))
    | cons c a => simp at ha
  | succ n ih =>
    intro a ha
    cases a with
    | nil => exact ih [] (Nat.zero_le _)
    | cons c a =>
      by_cases h : f <+: c :: a
      · obtain ⟨u, hu⟩ := h
        rw [← hu, List.append_assoc, replGo_match _ _ _ hf, replGo_match _ _ _ hf, ih u]
        · simp
        · have := congrArg List.length hu
          simp at this ha
          have : 0 < f.length := List.length_pos_iff.2 hf
          omega
      · rw [List.cons_append, replGo_nomatch _ _ _ _ h, replGo_nomatch, ih a (by simpa using ha)]
        · simp
        · intro h'
          exact h (prefix_sep (a := c :: a) hd h')

/-- Pieces of text, each followed by a character. -/
def glue : List (Str × Char) → Str
  | [] => []
  | (s, d) :: l => s ++ d :: glue l

/-- `Fill f t l l'`: in the pieces `l`, those equal to `f` become `t`, the others do not contain `f`. -/
inductive Fill (f t : Str) : List (Str × Char) → List (Str × Char) → Prop
  | nil : Fill f t [] []
  | put {d : Char} {l l' : List (Str × Char)} : d ∉ f → Fill f t l l' → Fill f t ((f, d) :: l) ((t, d) :: l')
  | keep {s : Str} {d : Char} {l l' : List (Str × Char)} : d ∉ f → ¬ f <:+: s → Fill f t l l' → Fill f t ((s, d) :: l) ((s, d) :: l')

theorem Fill.glue {f t : Str} (hf : f ≠ []) {l l' : List (Str × Char)} (h : Fill f t l l') : replaceAll f t (glue l) = glue l' := by
  induction h with
  | nil => unfold replaceAll Nts.glue; rw [if_neg hf]; rfl
  | put hd _ ih =>
    simp only [replaceAll, if_neg hf, Nts.glue] at ih ⊢
    rw [replGo_sep t hd hf _ _ _ (Nat.le_refl _), ih]
    have := replGo_match f t [] hf
    rw [List.append_nil] at this
    rw [this]
    simp [replGo]
  | keep hd hs _ ih =>
    have hk := replaceAll_of_not_infix (t := t) hf hs
    simp only [replaceAll, if_neg hf, Nts.glue] at ih hk ⊢
    rw [replGo_sep t hd hf _ _ _ (Nat.le_refl _), ih, hk]

/-- The names in braces that stand for the arguments. -/
def Spec.slots : List Str := [c!"{id}", c!"{name}", c!"{wrap}", c!"{class}", c!"{body}", c!"{endpoint}"]

/-- A text in which none of them occurs. -/
def Spec.NoSlot (x : Str) : Prop := ∀ p ∈ slots, ¬ p <:+: x

/-- The element of the documentation. -/
def Spec.fetchElement (event url wrap cls id name body : Str) : Str :=
  if event = c!"form" then
    c!"\n<form id=\"" ++ id ++ c!"\" name=\"" ++ name ++ c!"\" class=\"neutral-fetch-form " ++ cls ++ c!"\" method=\"POST\" action=\"" ++
      url ++ c!"\" data-wrap=\"" ++ wrap ++ c!"\">\n    " ++ body ++ c!"\n</form>\n"
  else
    c!"\n<div id=\"" ++ id ++ c!"\" class=\"neutral-fetch-" ++
      (if event = c!"none" ∨ event = c!"visible" ∨ event = c!"click" then event else c!"auto") ++ c!" " ++ cls ++ c!"\" data-url=\"" ++
      url ++ c!"\" data-wrap=\"" ++ wrap ++ c!"\">\n    " ++ body ++ c!"\n</div>\n"

/-- The pieces of the form. -/
def formPieces (id name cls url wrap body : Str) : List (Str × Char) :=
  [(c!"\n<form id=", '"'), (id, '"'), (c!" name=", '"'), (name, '"'), (c!" class=", '"'), (c!"neutral-fetch-form", ' '), (cls, '"'),
   (c!" method=", '"'), (c!"POST", '"'), (c!" action=", '"'), (url, '"'), (c!" data-wrap=", '"'), (wrap, '"'), (c!">", '\n'),
   (c!"   ", ' '), (body, '\n'), (c!"</form>", '\n')]

/-- The pieces of the other elements. -/
def divPieces (kind id cls url wrap body : Str) : List (Str × Char) :=
  [(c!"\n<div id=", '"'), (id, '"'), (c!" class=", '"'), (c!"neutral-fetch-" ++ kind, ' '), (cls, '"'),
   (c!" data-url=", '"'), (url, '"'), (c!" data-wrap=", '"'), (wrap, '"'), (c!">", '\n'),
   (c!"   ", ' '), (body, '\n'), (c!"</div>", '\n')]

/-- The substitutions of the arguments. -/
def fillSlots (d url wrap cls id name body : Str) : Str :=
  replaceAll c!"{endpoint}" url
    (replaceAll c!"{body}" body
      (replaceAll c!"{class}" cls
        (replaceAll c!"{wrap}" wrap
          (replaceAll c!"{name}" name
            (replaceAll c!"{id}" id d)))))

/-- Filling one slot. -/
local macro "fill" : tactic => `(tactic|
  repeat first
    | exact Fill.nil
    | refine Fill.put (by decide) ?_
    | refine Fill.keep (by decide) ((contains_false_iff (by decide)).1 (by decide)) ?_
    | refine Fill.keep (by decide) (by apply_assumption; decide) ?_)

theorem fill_form {url wrap cls id name body : Str} (hw : NoSlot wrap) (hc : NoSlot cls) (hi : NoSlot id) (hn : NoSlot name)
    (hb : NoSlot body) : fillSlots divFetchForm url wrap cls id name body = fetchElement c!"form" url wrap cls id name body := by
  have e : divFetchForm = glue (formPieces c!"{id}" c!"{name}" c!"{class}" c!"{endpoint}" c!"{wrap}" c!"{body}") := by decide
  unfold fillSlots
  rw [e, Fill.glue (l' := formPieces id c!"{name}" c!"{class}" c!"{endpoint}" c!"{wrap}" c!"{body}") (by decide) (by fill),
    Fill.glue (l' := formPieces id name c!"{class}" c!"{endpoint}" c!"{wrap}" c!"{body}") (by decide) (by fill),
    Fill.glue (l' := formPieces id name c!"{class}" c!"{endpoint}" wrap c!"{body}") (by decide) (by fill),
    Fill.glue (l' := formPieces id name cls c!"{endpoint}" wrap c!"{body}") (by decide) (by fill),
    Fill.glue (l' := formPieces id name cls c!"{endpoint}" wrap body) (by decide) (by fill),
    Fill.glue (l' := formPieces id name cls url wrap body) (by decide) (by fill)]
  unfold fetchElement formPieces glue
  simp [glue]

theorem fill_div {kind url wrap cls id name body : Str} (hk : kind ∈ [c!"none", c!"visible", c!"click", c!"auto"])
    (hw : NoSlot wrap) (hc : NoSlot cls) (hi : NoSlot id) (hb : NoSlot body) :
    fillSlots (divFetch kind) url wrap cls id name body = glue (divPieces kind id cls url wrap body) := by
  have e : divFetch kind = glue (divPieces kind c!"{id}" c!"{class}" c!"{endpoint}" c!"{wrap}" c!"{body}") := by
    unfold divFetch divPieces
    simp [glue]
  have hkd : ∀ p ∈ slots, ¬ p <:+: c!"neutral-fetch-" ++ kind := by
    intro p hp
    have hne : p ≠ [] := by rintro rfl; revert hp; decide
    rw [← contains_false_iff hne]
    simp only [List.mem_cons, List.not_mem_nil, or_false, slots] at hk hp
    rcases hk with rfl | rfl | rfl | rfl <;> rcases hp with rfl | rfl | rfl | rfl | rfl | rfl <;> decide
  unfold fillSlots
  rw [e, Fill.glue (l' := divPieces kind id c!"{class}" c!"{endpoint}" c!"{wrap}" c!"{body}") (by decide) (by fill),
    Fill.glue (l' := divPieces kind id c!"{class}" c!"{endpoint}" c!"{wrap}" c!"{body}") (by decide) (by fill),
    Fill.glue (l' := divPieces kind id c!"{class}" c!"{endpoint}" wrap c!"{body}") (by decide) (by fill),
    Fill.glue (l' := divPieces kind id cls c!"{endpoint}" wrap c!"{body}") (by decide) (by fill),
    Fill.glue (l' := divPieces kind id cls c!"{endpoint}" wrap body) (by decide) (by fill),
    Fill.glue (l' := divPieces kind id cls url wrap body) (by decide) (by fill)]

theorem fill_fetch {event url wrap cls id name body : Str} (hw : NoSlot wrap) (hc : NoSlot cls) (hi : NoSlot id) (hn : NoSlot name)
    (hb : NoSlot body) : fillSlots (fetchDiv event) url wrap cls id name body = fetchElement event url wrap cls id name body := by
  unfold fetchDiv
  by_cases h1 : event = c!"form"
  · subst h1
    rw [if_pos rfl, fill_form hw hc hi hn hb]
  · rw [if_neg h1]
    unfold fetchElement
    rw [if_neg h1]
    by_cases h2 : event = c!"none"
    · subst h2
      rw [if_pos rfl, fill_div (by decide) hw hc hi hb]
      simp [glue, divPieces]
    · rw [if_neg h2]
      by_cases h3 : event = c!"visible"
      · subst h3
        rw [if_pos rfl, fill_div (by decide) hw hc hi hb]
        simp [glue, divPieces]
      · rw [if_neg h3]
        by_cases h4 : event = c!"click"
        · subst h4
          rw [if_pos rfl, fill_div (by decide) hw hc hi hb]
          simp [glue, divPieces]
        · rw [if_neg h4, fill_div (by decide) hw hc hi hb]
          simp [glue, divPieces, h2, h3, h4]

theorem named_fetch : Named c!"fetch" := by
  refine ⟨by decide, ?_⟩
  intro c r hc
  injection hc with h1 h2
  subst h1
  decide

/-- The symbolic execution of `fetch`. -/
theorem fetch_run (env : Env) (R : Rec) (sh sh1 sh2 sh3 : Shared) (inh inh1 inh2 inh3 : Inherit)
    (mods src only c r url pre body : Str) (d : Char) (p : Option Str) (l : List Str)
    (hm : Mods mods) (hf : '&' ∉ mods) (hneg : '!' ∉ mods) (hsc : '+' ∉ mods) (hmax : sh.count < sh.max)
    (hsel : Selected inh mods c!"fetch" only) (hparts : Parts src p c)
    (hp : evalParams R (counted sh) (entered sh inh) c!"fetch" (p.getD []) only = .ok (d :: r) sh1 inh1)
    (hflags : flagsOf sh1 (p.getD []) = [])
    (hargs : ArgsGive R c!"fetch" only (splitChar d (d :: r)) sh1 inh1 (pre :: url :: l) sh2 inh2)
    (hbody : nested R false sh2 inh2 c!"fetch" c only = .ok body sh3 inh3) :
    runBif env R sh inh (bifText mods c!"fetch" src) only =
      let out := fillSlots (fetchDiv (l[0]?.getD [])) url (l[1]?.getD []) (l[2]?.getD []) (l[3]?.getD []) (l[4]?.getD []) body
      if sh3.disableJs = false ∧ sh3.alreadyJs = false then
        finish (decide ('^' ∈ mods)) (out ++ c!"{:!cache;{:moveto;</body>>" ++ env.neutralJs ++ c!":}:}") { sh3 with alreadyJs := true } inh3
      else finish (decide ('^' ∈ mods)) out sh3 inh3 := by
  rw [runBif_text env R sh inh mods c!"fetch" src only hm named_fetch hmax hsel]
  have hbody' : bifBody env c!"fetch" = bifFetch env := rfl
  rw [hbody']
  unfold bifFetch
  simp only [run_bind, run_denyMods]
  rw [if_neg (by simp [start, hf, hsc, hneg])]
  simp only [andThen_ok]
  rw [run_extract R hparts _ rfl rfl rfl rfl]
  change bifResult env (Res.andThen (match evalParams R (counted sh) (entered sh inh) c!"fetch" (p.getD []) only with
    | .ok x sh' inh' => _
    | .panic p => _
    | .oof => _) _) = _
  rw [hp]
  simp only [andThen_ok, run_denyFlags]
  rw [if_pos (by rw [List.isEmpty_iff]; exact hflags)]
  simp only [andThen_ok]
  rw [run_extractArgs R hargs _ rfl rfl rfl rfl rfl rfl rfl]
  simp only [andThen_ok, run_argReq, List.getElem?_cons_succ, List.getElem?_cons_zero]
  rw [run_parseCode_nested R _ _ rfl rfl]
  change bifResult env (Res.andThen (match nested R false sh2 inh2 c!"fetch" c only with
    | .ok x sh' inh' => _
    | .panic p => _
    | .oof => _) _) = _
  rw [hbody]
  simp only [andThen_ok, run_getSt, run_ite, run_bind, argOpt, List.getElem?_cons_succ]
  by_cases hjs : sh3.disableJs = false ∧ sh3.alreadyJs = false
  · rw [if_pos hjs, if_pos (by simp [hjs])]
    rfl
  · rw [if_neg hjs, if_neg (by
      simp only [Bool.and_eq_true, Bool.not_eq_true']
      exact hjs)]
    rfl

/-- **C74 (element, partial).** `{:fetch; |url|event|wrap|class|id|name| >> code :}` prints the element of the documentation, with the
evaluated arguments and code in their places; missing arguments are empty, and an event that is not `form`, `none`, `visible` or
`click` is `auto`. When the script is due, it follows (to be moved to the end of the page). Missing: arguments and codes that
contain the name of an argument in braces, for which this is false (`C74_refuted`). -/
theorem C74_element_partial (env : Env) (R : Rec) (sh sh1 sh2 sh3 : Shared) (inh inh1 inh2 inh3 : Inherit)
    (mods src only c r url pre body : Str) (d : Char) (p : Option Str) (l : List Str)
    (hm : Mods mods) (hf : '&' ∉ mods) (hneg : '!' ∉ mods) (hsc : '+' ∉ mods) (hmax : sh.count < sh.max)
    (hsel : Selected inh mods c!"fetch" only) (hparts : Parts src p c)
    (hp : evalParams R (counted sh) (entered sh inh) c!"fetch" (p.getD []) only = .ok (d :: r) sh1 inh1)
    (hflags : flagsOf sh1 (p.getD []) = [])
    (hargs : ArgsGive R c!"fetch" only (splitChar d (d :: r)) sh1 inh1 (pre :: url :: l) sh2 inh2)
    (hbody : nested R false sh2 inh2 c!"fetch" c only = .ok body sh3 inh3)
    (hslot : NoSlot body) (hslots : ∀ x ∈ l, NoSlot x) :
    (sh3.disableJs = true ∨ sh3.alreadyJs = true → runBif env R sh inh (bifText mods c!"fetch" src) only =
      finish (decide ('^' ∈ mods))
        (fetchElement (l[0]?.getD []) url (l[1]?.getD []) (l[2]?.getD []) (l[3]?.getD []) (l[4]?.getD []) body) sh3 inh3) ∧
    (sh3.disableJs = false → sh3.alreadyJs = false → runBif env R sh inh (bifText mods c!"fetch" src) only =
      finish (decide ('^' ∈ mods))
        (fetchElement (l[0]?.getD []) url (l[1]?.getD []) (l[2]?.getD []) (l[3]?.getD []) (l[4]?.getD []) body ++
          c!"{:!cache;{:moveto;</body>>" ++ env.neutralJs ++ c!":}:}") { sh3 with alreadyJs := true } inh3) := by
  have hget : ∀ i : Nat, NoSlot (l[i]?.getD []) := by
    intro i
    cases h : l[i]? with
    | none =>
      intro q hq
      rw [Option.getD_none, List.infix_nil]
      rintro rfl
      revert hq; decide
    | some x => exact hslots x (List.mem_of_getElem? h)
  rw [fetch_run env R sh sh1 sh2 sh3 inh inh1 inh2 inh3 mods src only c r url pre body d p l hm hf hneg hsc hmax hsel hparts hp hflags
    hargs hbody]
  dsimp only
  rw [fill_fetch (hget 1) (hget 2) (hget 3) (hget 4) hslot]
  constructor
  · intro h
    rw [if_neg]
    rintro ⟨h1, h2⟩
    rcases h with h | h <;> simp_all
  · intro h1 h2
    rw [if_pos ⟨h1, h2⟩]

/-- **C74 (no address).** Without an address `fetch` is an error and prints nothing. -/
theorem C74_no_address (env : Env) (R : Rec) (sh sh1 sh2 : Shared) (inh inh1 inh2 : Inherit)
    (mods src only c r : Str) (d : Char) (p : Option Str) (l : List Str)
    (hm : Mods mods) (hf : '&' ∉ mods) (hneg : '!' ∉ mods) (hsc : '+' ∉ mods) (hmax : sh.count < sh.max)
    (hsel : Selected inh mods c!"fetch" only) (hparts : Parts src p c)
    (hp : evalParams R (counted sh) (entered sh inh) c!"fetch" (p.getD []) only = .ok (d :: r) sh1 inh1)
    (hflags : flagsOf sh1 (p.getD []) = [])
    (hargs : ArgsGive R c!"fetch" only (splitChar d (d :: r)) sh1 inh1 l sh2 inh2) (hl : l.length < 2) :
    runBif env R sh inh (bifText mods c!"fetch" src) only =
      failed env mods c!"fetch" (bifText mods c!"fetch" src) c!"arguments not found" sh2 inh2 := by
  rw [runBif_text env R sh inh mods c!"fetch" src only hm named_fetch hmax hsel]
  have hbody' : bifBody env c!"fetch" = bifFetch env := rfl
  rw [hbody']
  unfold bifFetch
  simp only [run_bind, run_denyMods]
  rw [if_neg (by simp [start, hf, hsc, hneg])]
  simp only [andThen_ok]
  rw [run_extract R hparts _ rfl rfl rfl rfl]
  change bifResult env (Res.andThen (match evalParams R (counted sh) (entered sh inh) c!"fetch" (p.getD []) only with
    | .ok x sh' inh' => _
    | .panic p => _
    | .oof => _) _) = _
  rw [hp]
  simp only [andThen_ok, run_denyFlags]
  rw [if_pos (by rw [List.isEmpty_iff]; exact hflags)]
  simp only [andThen_ok]
  rw [run_extractArgs R hargs _ rfl rfl rfl rfl rfl rfl rfl]
  simp only [andThen_ok, run_argReq]
  rw [List.getElem?_eq_none (by omega)]
  exact bifResult_failed env mods c!"fetch" _ _ _ _ _ rfl rfl rfl rfl rfl rfl

theorem named_replace : Named c!"replace" := by
  refine ⟨by decide, ?_⟩
  intro c r hc
  injection hc with h1 h2
  subst h1
  decide

/-- The symbolic execution of `replace`. -/
theorem replace_run (env : Env) (R : Rec) (sh sh1 sh2 : Shared) (inh inh1 inh2 : Inherit)
    (mods src only c r pre f t x : Str) (d : Char) (l : List Str)
    (hm : Mods mods) (hf : '&' ∉ mods) (hneg : '!' ∉ mods) (hsc : '+' ∉ mods) (hmax : sh.count < sh.max)
    (hsel : Selected inh mods c!"replace" only) (hparts : Parts src (some (d :: r)) c) (hflg : ¬ c!"{:flg;" <:+: d :: r)
    (hargs : ArgsGive R c!"replace" only (splitChar d (d :: r)) (counted sh) (entered sh inh) (pre :: f :: t :: l) sh1 inh1)
    (hx : nested R false sh1 inh1 c!"replace" c only = .ok x sh2 inh2) :
    runBif env R sh inh (bifText mods c!"replace" src) only = finish (decide ('^' ∈ mods)) (replaceAll f t x) sh2 inh2 := by
  rw [runBif_text env R sh inh mods c!"replace" src only hm named_replace hmax hsel]
  have hbody : bifBody env c!"replace" = bifReplace := rfl
  rw [hbody]
  unfold bifReplace
  simp only [run_bind, run_denyMods]
  rw [if_neg (by simp [start, hsc, hf, hneg])]
  simp only [andThen_ok]
  rw [run_extract_plain R false hparts _ rfl (by simp)]
  simp only [andThen_ok, run_denyFlgParams]
  rw [if_neg (by
    rw [contains_iff (by decide)]
    exact hflg)]
  simp only [andThen_ok]
  rw [run_extractArgs R hargs _ rfl rfl rfl rfl rfl rfl rfl]
  simp only [andThen_ok, run_argReq, List.getElem?_cons_succ, List.getElem?_cons_zero]
  rw [run_parseCode_nested R _ _ rfl rfl]
  change bifResult env (Res.andThen (match nested R false sh1 inh1 c!"replace" c only with
    | .ok x sh' inh' => _
    | .panic p => _
    | .oof => _) _) = _
  rw [hx]
  simp only [andThen_ok, run_getSt, run_setOut]
  rfl

/-- **C49 (exact).** `{:replace; /from/to/ >> text :}`, arguments and text literal or computed: the output is the text in which the
occurrences of `from`, from left to right, are replaced by `to`. -/
theorem C49_exact (env : Env) (R : Rec) (sh sh1 sh2 : Shared) (inh inh1 inh2 : Inherit)
    (mods src only c r pre f t x : Str) (d : Char) (l : List Str)
    (hm : Mods mods) (hf : '&' ∉ mods) (hneg : '!' ∉ mods) (hsc : '+' ∉ mods) (hmax : sh.count < sh.max)
    (hsel : Selected inh mods c!"replace" only) (hparts : Parts src (some (d :: r)) c) (hflg : ¬ c!"{:flg;" <:+: d :: r)
    (hargs : ArgsGive R c!"replace" only (splitChar d (d :: r)) (counted sh) (entered sh inh) (pre :: f :: t :: l) sh1 inh1)
    (hx : nested R false sh1 inh1 c!"replace" c only = .ok x sh2 inh2) (hne : f ≠ []) :
    ∃ y, Replaced f t x y ∧ runBif env R sh inh (bifText mods c!"replace" src) only = finish (decide ('^' ∈ mods)) y sh2 inh2 := by
  exact ⟨replaceAll f t x, C49_replace f t x hne,
    replace_run env R sh sh1 sh2 inh inh1 inh2 mods src only c r pre f t x d l hm hf hneg hsc hmax hsel hparts hflg hargs hx⟩

set_option maxRecDepth 10000 in
/-- The premises are met. -/
example : Sample.outOf (Sample.go [(c!"x", .str c!"X")]
      c!"{:fetch; |/{:;x:}|click|w|k|i| >> <{:;x:}> :}{:replace; /{:;x:}/Y/ >> a{:;x:}b :}") =
    some (c!"<div id=\"i\" class=\"neutral-fetch-click k\" data-url=\"/X\" data-wrap=\"w\">\n    <X>\n</div>\naYb", c!"200") := by
  decide +kernel

set_option maxRecDepth 10000 in
/-- **C74 is false of codes with braces**: the name of an argument in the code is replaced. -/
theorem C74_refuted : Sample.outOf (Sample.go [] c!"{:fetch; |/u| >> {endpoint} :}") =
    some (c!"<div id=\"\" class=\"neutral-fetch-auto \" data-url=\"/u\" data-wrap=\"\">\n    /u\n</div>", c!"200") := by
  decide +kernel

end Nts
