import Verif.Spec.Missing
import Verif.Props.Args
import Verif.Props.Join
import Verif.Props.Loop
import Verif.Props.Cache
/-
C123: arguments that are missing or wrong.
-/
set_option autoImplicit false
namespace Nts
open Spec

theorem run_args_written (R : Rec) {name only : Str} {d : Char} {l l' : List Str} {sh sh' : Shared} {inh inh' : Inherit}
    (h : ∀ a ∈ l, d ∉ a) (ha : ArgsGive R name only l sh inh l' sh' inh') (s : St)
    (hp : s.b.params = written d l) (hs : s.sh = sh) (hi : s.inh = inh) (hal : s.b.alias = name) (ho : s.only = only)
    (hf : s.b.filePath = []) (hd : s.b.dir = []) :
    run R extractArgs s = .ok ([] :: l') { s with sh := sh', inh := inh' } := by
  rw [run_args, hp, argsOf_written d l h]
  exact run_argLoop R (.cons (nested_plain (by simp)) ha) s hs hi hal ho hf hd


/-- The error of a missing argument. -/
theorem run_missing (env : Env) (R : Rec) (mods name raw msg : Str) (sh : Shared) (inh : Inherit) (s : St) (h1 : s.sh = sh) (h2 : s.inh = inh)
    (h3 : s.b.alias = name) (h4 : s.raw = raw) (h5 : s.b.out = []) (h6 : s.b.modUpline = decide ('^' ∈ mods)) :
    bifResult env (.err (errOf s msg) s) = failed env mods name raw msg sh inh := by
  exact bifResult_failed env mods name raw msg sh inh s h1 h2 h3 h4 h5 h6

theorem short {α : Type} {l : List α} {e : α} (h : l.length < 2) : (∃ a, (e :: l)[1]? = some a ∧ (e :: l)[2]? = none) ∨ (e :: l)[1]? = none := by
  cases l with
  | nil => exact .inr rfl
  | cons a l =>
    cases l with
    | nil => exact .inl ⟨a, rfl, rfl⟩
    | cons b l => simp at h; omega

theorem missing_cmp (env : Env) (R : Rec) (sh sh1 : Shared) (inh inh1 : Inherit) (mods name src only c : Str) (p : Option Str)
    (d : Char) (l l' : List Str) (hname : name ∈ cmpNames) (hm : Mods mods) (hf : '&' ∉ mods) (hmax : sh.count < sh.max)
    (hsel : Selected inh mods name only) (hparts : Parts src p c) (hp : p.getD [] = written d l)
    (hd : ∀ t ∈ l, d ∉ t) (hflg : ¬ c!"{:flg;" <:+: written d l)
    (hargs : ArgsGive R name only l (counted sh) (entered sh inh) l' sh1 inh1) (hl : l'.length < 2) :
    runBif env R sh inh (bifText mods name src) only = failed env mods name (bifText mods name src) c!"arguments not found" sh1 inh1 := by
  rw [runBif_text env R sh inh mods name src only hm (named_cmp hname) hmax hsel, cmpBody env hname]
  unfold cmpBif
  simp only [run_bind, run_denyMods]
  rw [if_neg (by simp [start, hf]), andThen_ok, run_extract_plain R false hparts _ rfl (by simp)]
  simp only [andThen_ok, run_denyFlgParams, hp]
  rw [if_neg (by simpa using (contains_false_iff (by simp)).2 hflg), andThen_ok]
  rw [run_args_written R hd hargs { start sh inh mods name src only with
        b := { (start sh inh mods name src only).b with params := written d l, code := c } }
      rfl rfl rfl rfl rfl rfl rfl]
  simp only [andThen_ok, run_argReq]
  rcases short (e := ([] : Str)) hl with ⟨a, h1, h2⟩ | h1
  · rw [h1, h2]
    exact bifResult_failed env mods name _ _ _ _ _ rfl rfl rfl rfl rfl rfl
  · rw [h1]
    exact bifResult_failed env mods name _ _ _ _ _ rfl rfl rfl rfl rfl rfl

theorem missing_replace (env : Env) (R : Rec) (sh sh1 : Shared) (inh inh1 : Inherit) (mods src only c : Str) (p : Option Str)
    (d : Char) (l l' : List Str) (hm : Mods mods) (hf : '&' ∉ mods) (hneg : '!' ∉ mods) (hsc : '+' ∉ mods) (hmax : sh.count < sh.max)
    (hsel : Selected inh mods c!"replace" only) (hparts : Parts src p c) (hp : p.getD [] = written d l)
    (hd : ∀ t ∈ l, d ∉ t) (hflg : ¬ c!"{:flg;" <:+: written d l)
    (hargs : ArgsGive R c!"replace" only l (counted sh) (entered sh inh) l' sh1 inh1) (hl : l'.length < 2) :
    runBif env R sh inh (bifText mods c!"replace" src) only =
      failed env mods c!"replace" (bifText mods c!"replace" src) c!"arguments not found" sh1 inh1 := by
  rw [runBif_text env R sh inh mods c!"replace" src only hm (named_args (.inl (by decide))) hmax hsel]
  have hbody : bifBody env c!"replace" = bifReplace := rfl
  rw [hbody]
  unfold bifReplace
  simp only [run_bind, run_denyMods]
  rw [if_neg (by simp [start, hf, hneg, hsc]), andThen_ok, run_extract_plain R false hparts _ rfl (by simp)]
  simp only [andThen_ok, run_denyFlgParams, hp]
  rw [if_neg (by simpa using (contains_false_iff (by simp)).2 hflg), andThen_ok]
  rw [run_args_written R hd hargs { start sh inh mods c!"replace" src only with
        b := { (start sh inh mods c!"replace" src only).b with params := written d l, code := c } }
      rfl rfl rfl rfl rfl rfl rfl]
  simp only [andThen_ok, run_argReq]
  rcases short (e := ([] : Str)) hl with ⟨a, h1, h2⟩ | h1
  · rw [h1, h2]
    exact bifResult_failed env mods _ _ _ _ _ _ rfl rfl rfl rfl rfl rfl
  · rw [h1]
    exact bifResult_failed env mods _ _ _ _ _ _ rfl rfl rfl rfl rfl rfl

theorem missing_sum (env : Env) (R : Rec) (sh sh1 : Shared) (inh inh1 : Inherit) (mods src only msg : Str)
    (d : Char) (l l' : List Str) (hm : Mods mods) (hf : '&' ∉ mods) (hneg : '!' ∉ mods) (hsc : '+' ∉ mods) (hmax : sh.count < sh.max)
    (hsel : Selected inh mods c!"sum" only) (hsrc : trim src = written d l)
    (hd : ∀ t ∈ l, d ∉ t) (hflg : ¬ c!"{:flg;" <:+: written d l)
    (hargs : ArgsGive R c!"sum" only l (counted sh) (entered sh inh) l' sh1 inh1) (hw : WrongArgs env c!"sum" l' msg) :
    runBif env R sh inh (bifText mods c!"sum" src) only = failed env mods c!"sum" (bifText mods c!"sum" src) msg sh1 inh1 := by
  rw [runBif_text env R sh inh mods c!"sum" src only hm named_sum hmax hsel]
  have hbody : bifBody env c!"sum" = bifSum env := rfl
  rw [hbody]
  unfold bifSum
  simp only [run_bind, run_denyMods]
  rw [if_neg (by simp [start, hsc, hf, hneg])]
  simp only [andThen_ok, run_modB, run_denyFlgParams]
  rw [if_neg (by
    rw [show (start sh inh mods c!"sum" src only).b.src = written d l from hsrc, contains_iff (by decide)]
    exact hflg)]
  simp only [andThen_ok]
  rw [run_args_written R hd hargs _ hsrc rfl rfl rfl rfl rfl rfl]
  simp only [andThen_ok, run_argReq]
  cases hw with
  | fewer _ hl =>
    rcases short (e := ([] : Str)) hl with ⟨a, h1, h2⟩ | h1
    · rw [h1, h2]
      exact bifResult_failed env mods _ _ _ _ _ _ rfl rfl rfl rfl rfl rfl
    · rw [h1]
      exact bifResult_failed env mods _ _ _ _ _ _ rfl rfl rfl rfl rfl rfl
  | first h =>
    simp only [List.getElem?_cons_succ, List.getElem?_cons_zero, andThen_ok, h]
    exact bifResult_failed env mods _ _ _ _ _ _ rfl rfl rfl rfl rfl rfl
  | second h1 h2 =>
    simp only [List.getElem?_cons_succ, List.getElem?_cons_zero, andThen_ok, h1, h2]
    exact bifResult_failed env mods _ _ _ _ _ _ rfl rfl rfl rfl rfl rfl

theorem missing_join (env : Env) (R : Rec) (sh sh1 : Shared) (inh inh1 : Inherit) (mods src only msg : Str)
    (d : Char) (l l' : List Str) (hm : Mods mods) (hf : '&' ∉ mods) (hneg : '!' ∉ mods) (hsc : '+' ∉ mods) (hmax : sh.count < sh.max)
    (hsel : Selected inh mods c!"join" only) (hsrc : trim src = written d l) (hd : ∀ t ∈ l, d ∉ t)
    (hargs : ArgsGive R c!"join" only l (counted sh) (entered sh inh) l' sh1 inh1) (hw : WrongArgs env c!"join" l' msg) :
    runBif env R sh inh (bifText mods c!"join" src) only = failed env mods c!"join" (bifText mods c!"join" src) msg sh1 inh1 := by
  rw [runBif_text env R sh inh mods c!"join" src only hm named_join hmax hsel]
  have hbody : bifBody env c!"join" = bifJoin env := rfl
  rw [hbody]
  unfold bifJoin
  simp only [run_bind, run_denyMods]
  rw [if_neg (by simp [start, hsc, hf, hneg])]
  simp only [andThen_ok, run_modB]
  rw [run_args_written R hd hargs _ hsrc rfl rfl rfl rfl rfl rfl]
  simp only [andThen_ok, run_argReq]
  cases hw with
  | fewer h => exact absurd h (by decide)
  | noArray => exact bifResult_failed env mods _ _ _ _ _ _ rfl rfl rfl rfl rfl rfl
  | noSeparator => exact bifResult_failed env mods _ _ _ _ _ _ rfl rfl rfl rfl rfl rfl

/-- **C123** (`same`, `contains`, `replace`, `sum`, `join`). When the arguments are missing, or are not numbers where numbers are needed, the
BIF reports just that, prints nothing, and has done nothing but evaluate the arguments it was given. -/
theorem C123_arguments (env : Env) (R : Rec) (sh sh1 : Shared) (inh inh1 : Inherit) (mods name src only c msg : Str) (p : Option Str)
    (d : Char) (l l' : List Str) (hm : Mods mods) (hf : '&' ∉ mods)
    (hmods : name ∉ cmpNames → '!' ∉ mods ∧ '+' ∉ mods) (hmax : sh.count < sh.max) (hsel : Selected inh mods name only)
    (hsrc : if name ∈ argOnly then trim src = written d l else Parts src p c ∧ p.getD [] = written d l)
    (hd : ∀ t ∈ l, d ∉ t) (hflg : ¬ c!"{:flg;" <:+: written d l)
    (hargs : ArgsGive R name only l (counted sh) (entered sh inh) l' sh1 inh1) (hw : WrongArgs env name l' msg) :
    runBif env R sh inh (bifText mods name src) only = failed env mods name (bifText mods name src) msg sh1 inh1 := by
  by_cases hc : name ∈ cmpNames
  · have hl : l'.length < 2 ∧ msg = c!"arguments not found" := by
      cases hw with
      | fewer _ hl => exact ⟨hl, rfl⟩
      | _ => exact absurd hc (by decide)
    have hno : ∀ n ∈ cmpNames, n ∉ argOnly := by decide
    rw [if_neg (hno name hc)] at hsrc
    obtain ⟨hl, rfl⟩ := hl
    exact missing_cmp env R sh sh1 inh inh1 mods name src only c p d l l' hc hm hf hmax hsel hsrc.1 hsrc.2 hd hflg hargs hl
  · obtain ⟨hneg, hsc⟩ := hmods hc
    have key : (name = c!"replace" ∧ l'.length < 2 ∧ msg = c!"arguments not found") ∨ name = c!"sum" ∨ name = c!"join" := by
      cases hw with
      | fewer hn hl =>
        simp only [List.mem_cons, List.not_mem_nil, or_false] at hn
        rcases hn with rfl | rfl | rfl | rfl
        · exact absurd (by decide) hc
        · exact absurd (by decide) hc
        · exact .inl ⟨rfl, hl, rfl⟩
        · exact .inr (.inl rfl)
      | first _ => exact .inr (.inl rfl)
      | second _ _ => exact .inr (.inl rfl)
      | noArray => exact .inr (.inr rfl)
      | noSeparator => exact .inr (.inr rfl)
    rcases key with ⟨rfl, hl, rfl⟩ | rfl | rfl
    · rw [if_neg (by decide)] at hsrc
      exact missing_replace env R sh sh1 inh inh1 mods src only c p d l l' hm hf hneg hsc hmax hsel hsrc.1 hsrc.2 hd hflg hargs hl
    · rw [if_pos (by decide)] at hsrc
      exact missing_sum env R sh sh1 inh inh1 mods src only msg d l l' hm hf hneg hsc hmax hsel hsrc hd hflg hargs hw
    · rw [if_pos (by decide)] at hsrc
      exact missing_join env R sh sh1 inh inh1 mods src only msg d l l' hm hf hneg hsc hmax hsel hsrc hd hargs hw

/-- **C123** (`each`, `for`). The same for the words of the parameters; the body is not evaluated. -/
theorem C123_words (env : Env) (R : Rec) (sh sh1 : Shared) (inh inh1 : Inherit) (mods name src only c x msg : Str) (p : Option Str)
    (l : List Str) (hm : Mods mods) (hf : '&' ∉ mods) (hneg : '!' ∉ mods) (hmax : sh.count < sh.max) (hsel : Selected inh mods name only)
    (hparts : Parts src p c) (hx : evalParams R (counted sh) (entered sh inh) name (p.getD []) only = .ok x sh1 inh1)
    (hflags : flagsOf sh1 (p.getD []) = [])
    (hwords : Words (if name = c!"for" then replaceAll c!".." c!" " x else x) l) (hw : WrongWords name l msg) :
    runBif env R sh inh (bifText mods name src) only = failed env mods name (bifText mods name src) msg sh1 inh1 := by
  have hname : name = c!"each" ∨ name = c!"for" := by cases hw <;> first | exact .inl rfl | exact .inr rfl
  rcases hname with rfl | rfl
  · rw [if_neg (by decide)] at hwords
    rw [runBif_text env R sh inh mods c!"each" src only hm named_each hmax hsel]
    have hbody : bifBody env c!"each" = bifEach := rfl
    rw [hbody]
    unfold bifEach
    simp only [run_bind, run_denyMods]
    rw [if_neg (by simp [start, hf, hneg])]
    simp only [andThen_ok]
    rw [run_extract R hparts _ rfl rfl rfl rfl]
    change bifResult env (Res.andThen (match evalParams R (counted sh) (entered sh inh) c!"each" (p.getD []) only with
      | .ok x sh' inh' => _
      | .panic p => _
      | .oof => _) _) = _
    rw [hx]
    simp only [andThen_ok, run_denyFlags]
    rw [if_pos (by rw [hflags]; rfl)]
    simp only [andThen_ok, run_getSt]
    rw [splitWhitespace_words hwords]
    cases hw with
    | eachNone => exact bifResult_failed env mods _ _ _ _ _ _ rfl rfl rfl rfl rfl rfl
    | eachKey => exact bifResult_failed env mods _ _ _ _ _ _ rfl rfl rfl rfl rfl rfl
    | eachValue => exact bifResult_failed env mods _ _ _ _ _ _ rfl rfl rfl rfl rfl rfl
    | eachLocal h =>
      dsimp only
      rw [run_ite, if_pos (by
        rw [Bool.or_eq_true, startsWith_iff, startsWith_iff]
        exact h)]
      exact bifResult_failed env mods _ _ _ _ _ _ rfl rfl rfl rfl rfl rfl
  · rw [if_pos rfl] at hwords
    rw [runBif_text env R sh inh mods c!"for" src only hm named_for hmax hsel]
    have hbody : bifBody env c!"for" = bifFor env := rfl
    rw [hbody]
    unfold bifFor
    simp only [run_bind, run_denyMods]
    rw [if_neg (by simp [start, hf, hneg])]
    simp only [andThen_ok]
    rw [run_extract R hparts _ rfl rfl rfl rfl]
    change bifResult env (Res.andThen (match evalParams R (counted sh) (entered sh inh) c!"for" (p.getD []) only with
      | .ok x sh' inh' => _
      | .panic p => _
      | .oof => _) _) = _
    rw [hx]
    simp only [andThen_ok, run_denyFlags]
    rw [if_pos (by rw [hflags]; rfl)]
    simp only [andThen_ok, run_getSt, run_modB]
    rw [splitWhitespace_words hwords]
    cases hw with
    | forNone => exact bifResult_failed env mods _ _ _ _ _ _ rfl rfl rfl rfl rfl rfl
    | forRange => exact bifResult_failed env mods _ _ _ _ _ _ rfl rfl rfl rfl rfl rfl
    | forFrom h =>
      dsimp only
      rw [h]
      exact bifResult_failed env mods _ _ _ _ _ _ rfl rfl rfl rfl rfl rfl
    | forTo h =>
      dsimp only
      rw [h]
      exact bifResult_failed env mods _ _ _ _ _ _ rfl rfl rfl rfl rfl rfl
    | forNumber h1 h2 =>
      dsimp only
      rw [h1]
      dsimp only
      rw [h2]
      exact bifResult_failed env mods _ _ _ _ _ _ rfl rfl rfl rfl rfl rfl

/-- **C123** (`rand`). -/
theorem C123_range (env : Env) (R : Rec) (sh sh1 : Shared) (inh inh1 : Inherit) (mods src only t msg : Str) (l : List Str)
    (hm : Mods mods) (hf : '&' ∉ mods) (hneg : '!' ∉ mods) (hsc : '+' ∉ mods) (hmax : sh.count < sh.max)
    (hsel : Selected inh mods c!"rand" only)
    (ht : nested R false (counted sh) (entered sh inh) c!"rand" (trim src) only = .ok t sh1 inh1) (hne : t ≠ [])
    (hwords : Words (replaceAll c!".." c!" " t) l) (hw : WrongRange l msg) :
    runBif env R sh inh (bifText mods c!"rand" src) only = failed env mods c!"rand" (bifText mods c!"rand" src) msg sh1 inh1 := by
  rw [runBif_rand env R sh sh1 inh inh1 mods src only t hm hf hneg hsc hmax hsel ht]
  unfold randBody
  rw [if_neg (by simpa using hne)]
  simp only [run_bind, run_modB, andThen_ok, run_getSt]
  rw [splitWhitespace_words hwords]
  cases hw with
  | none => exact bifResult_failed env mods _ _ _ _ _ _ rfl rfl rfl rfl rfl rfl
  | from_ h =>
    dsimp only
    rw [h]
    exact bifResult_failed env mods _ _ _ _ _ _ rfl rfl rfl rfl rfl rfl
  | one h =>
    dsimp only
    rw [h]
    exact bifResult_failed env mods _ _ _ _ _ _ rfl rfl rfl rfl rfl rfl
  | to h1 h2 =>
    dsimp only
    rw [h1]
    dsimp only
    rw [h2]
    exact bifResult_failed env mods _ _ _ _ _ _ rfl rfl rfl rfl rfl rfl
  | order h1 h2 h3 =>
    dsimp only
    rw [h1]
    dsimp only
    rw [h2]
    dsimp only
    rw [if_pos h3]
    exact bifResult_failed env mods _ _ _ _ _ _ rfl rfl rfl rfl rfl rfl

/-- **C123** (`cache`, when the cache is used). Without a lifetime `cache` is an error: neither is the code evaluated nor a file read or
written. -/
theorem C123_lifetime (env : Env) (R : Rec) (sh : Shared) (inh : Inherit) (mods src only c : Str) (p : Option Str)
    (hm : Mods mods) (hf : '&' ∉ mods) (hneg : '!' ∉ mods) (hsc : '+' ∉ mods) (hmax : sh.count < sh.max)
    (hsel : Selected inh mods c!"cache" only) (hon : CacheOn sh) (hparts : Parts src p c) (hp : p.getD [] = []) :
    runBif env R sh inh (bifText mods c!"cache" src) only =
      failed env mods c!"cache" (bifText mods c!"cache" src) c!"arguments 'expires' not found" (counted sh) (entered sh inh) := by
  rw [runBif_text env R sh inh mods c!"cache" src only hm named_cache hmax hsel]
  have hbody : bifBody env c!"cache" = bifCache env := rfl
  rw [hbody]
  unfold bifCache
  simp only [run_bind, run_denyMods]
  rw [if_neg (by simp [start, hf, hsc])]
  simp only [andThen_ok]
  rw [run_extract_plain R false hparts _ rfl (by simp)]
  simp only [andThen_ok, run_denyFlgParams, hp]
  rw [if_neg (by decide)]
  simp only [andThen_ok, run_getSt, run_ite]
  rw [if_neg (by simp [start, hneg])]
  have hoff := cacheOff_eq (sh := counted sh) hon
  rw [if_neg (by
    change ¬ cacheOff (counted sh) (given ((counted sh).schema.index c!"data") c!"POST")
      (given ((counted sh).schema.index c!"data") c!"GET") (given ((counted sh).schema.index c!"data") c!"COOKIES") = true
    rw [hoff]; simp)]
  simp only [run_bind, run_op_setInCache, step, toRes_ok, andThen_ok]
  rw [run_args_written R (d := 'x') (l := []) (by simp) (.nil _ _) _ (by rfl) (by rfl) (by rfl) (by rfl) (by rfl) (by rfl) (by rfl)]
  simp only [andThen_ok, run_op_setInCache, step, toRes_ok, run_argReq]
  exact bifResult_failed env mods _ _ _ _ _ _ rfl rfl rfl rfl rfl rfl

/-- The errors of a render, in order. -/
def Sample.errorsOf : RRes → List Str
  | .ok t => match t.getError with
    | .arr l => l.map (fun v => match v with | .str x => x | _ => [])
    | _ => []
  | _ => []

/-- The errors of a render are about these BIFs, with these messages. -/
def Sample.saidBy (r : RRes) (l : List (Str × Str)) : Bool :=
  (Sample.errorsOf r).length == l.length &&
    ((Sample.errorsOf r).zip l).all (fun e => contains (c!"Error (" ++ e.2.1 ++ c!") " ++ e.2.2 ++ c!" file~:") e.1)

set_option maxRecDepth 20000 in
/-- The premises are met: with computed arguments, with the page going on after each error, and with nothing printed. -/
example : Sample.outOf (Sample.go [(c!"x", .str c!"5")]
    c!"[{:same; >> a :}{:contains; /{:;x:} >> a :}{:replace; /a >> b :}{:sum; /1 :}{:join; :}{:join; /{:;x:} :}]") = some (c!"[]", c!"200") ∧
    Sample.saidBy (Sample.go [(c!"x", .str c!"5")]
      c!"[{:same; >> a :}{:contains; /{:;x:} >> a :}{:replace; /a >> b :}{:sum; /1 :}{:join; :}{:join; /{:;x:} :}]")
      [(c!"same", c!"arguments not found"), (c!"contains", c!"arguments not found"), (c!"replace", c!"arguments not found"),
       (c!"sum", c!"arguments not found"), (c!"join", c!"arguments 'array' not found"), (c!"join", c!"arguments 'separator' not found")]
      = true := by
  decide +kernel

set_option maxRecDepth 20000 in
/-- The same for words. -/
example : Sample.outOf (Sample.go [(c!"x", .str c!"5")]
    c!"[{:each; >> a :}{:each; x k >> a :}{:for; i >> {:;i:} :}{:for; i 1.. >> b :}{:for; i {:;x:}..y >> b :}{:rand; 7 :}{:rand; 7..{:;x:} :}{:each; x local::k v >> a :}{:cache; a :}]") =
      some (c!"[]", c!"200") ∧
    Sample.saidBy (Sample.go [(c!"x", .str c!"5")]
      c!"[{:each; >> a :}{:each; x k >> a :}{:for; i >> {:;i:} :}{:for; i 1.. >> b :}{:for; i {:;x:}..y >> b :}{:rand; 7 :}{:rand; 7..{:;x:} :}{:each; x local::k v >> a :}{:cache; a :}]")
      [(c!"each", c!"arguments not found"), (c!"each", c!"arguments 'value' not found"), (c!"for", c!"arguments 'from' and 'to' not found"),
       (c!"for", c!"arguments 'to' not found"), (c!"for", c!"argument is not a number"), (c!"rand", c!"arguments not found"),
       (c!"rand", c!"from > to"), (c!"each", c!"insecure varname"), (c!"cache", c!"arguments 'expires' not found")] = true := by
  decide +kernel

end Nts
