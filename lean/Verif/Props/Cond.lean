import Verif.Lemmas.Eval
import Verif.Lemmas.RunInh
import Verif.Props.Pointer
import Verif.Spec.Sample
/-
C33: the conditional BIFs.  C34: else.  C35: coalesce.
-/
set_option autoImplicit false
namespace Nts
open Spec

/-- The value a name stands for: in the data of the schema, or with `local::` in the local data of the block. -/
def Spec.named (sh : Shared) (inh : Inherit) (name : Str) : Option Value :=
  match stripPrefix? c!"local::" name with
  | some r => resolvePointer ((sh.getIndir inh.indir).index c!"data") r
  | none => resolvePointer (sh.schema.index c!"data") name

/-- The four tests on the value of a variable. -/
inductive Spec.Holds (env : Env) : Str → Value → Prop
  | defined {v : Value} : v ≠ .null → Holds env c!"defined" v
  | filled {v : Value} : v ≠ .null → v ≠ .str [] → v ≠ .arr [] → v ≠ .obj [] → Holds env c!"filled" v
  | arr (a : List Value) : Holds env c!"array" (.arr a)
  | obj (o : Obj) : Holds env c!"array" (.obj o)
  | bTrue : Holds env c!"bool" (.bool true)
  | bInt {i : Int} : 0 < i → Holds env c!"bool" (.num (.int i))
  | bFlt {x : Nat} : env.f64.pos x = true → Holds env c!"bool" (.num (.flt x))
  | bArr {a : List Value} : a ≠ [] → Holds env c!"bool" (.arr a)
  | bObj {o : Obj} : o ≠ [] → Holds env c!"bool" (.obj o)
  | bStr {s : Str} : s ≠ [] → s ≠ c!"false" → (∀ x, env.f64.parse s = some x → env.f64.pos x = true) →
      Holds env c!"bool" (.str s)

/-- The condition of `{:name; p >> ... :}`. -/
def Spec.Cond (env : Env) (name : Str) (sh : Shared) (inh : Inherit) (p : Str) : Prop :=
  ∃ v, named sh inh p = some v ∧ Holds env name v

/-- The names of the conditional BIFs on variables. -/
def Spec.condNames : List Str := [c!"array", c!"bool", c!"defined", c!"filled"]

/-- The test of each conditional BIF. -/
def condTest (env : Env) (name : Str) : Value → Str → Bool :=
  if name = c!"array" then isArrayKey
  else if name = c!"bool" then isBoolKey env.f64
  else if name = c!"defined" then isDefinedKey
  else fun v k => !isEmptyKey v k

theorem condBody (env : Env) {name : Str} (h : name ∈ condNames) : bifBody env name = condBif (condTest env name) := by
  simp only [condNames, List.mem_cons, List.not_mem_nil, or_false] at h
  rcases h with rfl | rfl | rfl | rfl <;> rfl

theorem storageOf_named (s : St) (p : Str) :
    resolvePointer (storageOf s p).1 (storageOf s p).2 = named s.sh s.inh p := by
  unfold storageOf named localDataOf dataOf
  cases stripPrefix? c!"local::" p <;> rfl

theorem condTest_iff (env : Env) {name : Str} (h : name ∈ condNames) (s : St) (p : Str) :
    condTest env name (storageOf s p).1 (storageOf s p).2 = true ↔ Cond env name s.sh s.inh p := by
  unfold Cond
  rw [← storageOf_named]
  simp only [condNames, List.mem_cons, List.not_mem_nil, or_false] at h
  rcases h with rfl | rfl | rfl | rfl
  · change isArrayKey _ _ = true ↔ _
    rw [C11_array]
    constructor
    · rintro ⟨v, hv, ⟨a, rfl⟩ | ⟨o, rfl⟩⟩
      · exact ⟨_, hv, .arr a⟩
      · exact ⟨_, hv, .obj o⟩
    · rintro ⟨v, hv, h⟩
      generalize hn : c!"array" = n at h
      cases h with
      | arr a => exact ⟨_, hv, .inl ⟨a, rfl⟩⟩
      | obj o => exact ⟨_, hv, .inr ⟨o, rfl⟩⟩
      | _ => exact absurd hn (by decide)
  · change isBoolKey _ _ _ = true ↔ _
    rw [C11_bool]
    constructor
    · rintro ⟨v, hv, h⟩
      refine ⟨v, hv, ?_⟩
      rcases h with rfl | ⟨i, rfl, h⟩ | ⟨x, rfl, h⟩ | ⟨a, rfl, h⟩ | ⟨o, rfl, h⟩ | ⟨t, rfl, h, h', h''⟩
      · exact .bTrue
      · exact .bInt h
      · exact .bFlt h
      · exact .bArr h
      · exact .bObj h
      · exact .bStr h h' h''
    · rintro ⟨v, hv, h⟩
      refine ⟨v, hv, ?_⟩
      generalize hn : c!"bool" = n at h
      cases h with
      | bTrue => exact .inl rfl
      | bInt h => exact .inr (.inl ⟨_, rfl, h⟩)
      | bFlt h => exact .inr (.inr (.inl ⟨_, rfl, h⟩))
      | bArr h => exact .inr (.inr (.inr (.inl ⟨_, rfl, h⟩)))
      | bObj h => exact .inr (.inr (.inr (.inr (.inl ⟨_, rfl, h⟩))))
      | bStr h h' h'' => exact .inr (.inr (.inr (.inr (.inr ⟨_, rfl, h, h', h''⟩))))
      | _ => exact absurd hn (by decide)
  · change isDefinedKey _ _ = true ↔ _
    rw [C11_defined]
    constructor
    · rintro ⟨v, hv, h⟩; exact ⟨v, hv, .defined h⟩
    · rintro ⟨v, hv, h⟩
      refine ⟨v, hv, ?_⟩
      generalize hn : c!"defined" = n at h
      cases h with
      | defined h => exact h
      | _ => exact absurd hn (by decide)
  · change (!isEmptyKey _ _) = true ↔ _
    rw [C11_filled]
    constructor
    · rintro ⟨v, hv, h1, h2, h3, h4⟩; exact ⟨v, hv, .filled h1 h2 h3 h4⟩
    · rintro ⟨v, hv, h⟩
      refine ⟨v, hv, ?_⟩
      generalize hn : c!"filled" = n at h
      cases h with
      | filled h1 h2 h3 h4 => exact ⟨h1, h2, h3, h4⟩
      | _ => exact absurd hn (by decide)

theorem named_cond {name : Str} (h : name ∈ condNames) : Named name := by
  simp only [condNames, List.mem_cons, List.not_mem_nil, or_false] at h
  rcases h with rfl | rfl | rfl | rfl
  all_goals
    refine ⟨by decide, ?_⟩
    intro c r hc
    injection hc with h1 h2
    subst h1
    decide

/-- **C33.** `{:bool; p >> code :}` (and `filled`, `defined`, `array`, negated or not, with any modifiers it accepts):
once the parameters have been evaluated to `x`, leaving the state `sh1`, the result is the code, evaluated as a nested
block, when the condition on `x` holds (fails, with `!`); otherwise it is empty and nothing else is evaluated: the state
is exactly `sh1`. -/
theorem C33_condition (env : Env) (R : Rec) (sh sh1 : Shared) (inh inh1 : Inherit) (mods name src only p c x : Str)
    (hname : name ∈ condNames) (hm : Mods mods) (hf : '&' ∉ mods) (hmax : sh.count < sh.max)
    (hsel : Selected inh mods name only) (hparts : Parts src (some p) c)
    (hx : evalParams R (counted sh) (entered sh inh) name p only = .ok x sh1 inh1) (hfl : flagsOf sh1 p = []) :
    (Cond env name sh1 inh1 x → '!' ∉ mods →
      runBif env R sh inh (bifText mods name src) only = shown R mods name c only sh1 inh1) ∧
    (Cond env name sh1 inh1 x → '!' ∈ mods →
      runBif env R sh inh (bifText mods name src) only = hidden mods sh1 inh1) ∧
    (¬ Cond env name sh1 inh1 x → '!' ∉ mods →
      runBif env R sh inh (bifText mods name src) only = hidden mods sh1 inh1) ∧
    (¬ Cond env name sh1 inh1 x → '!' ∈ mods →
      runBif env R sh inh (bifText mods name src) only = shown R mods name c only sh1 inh1) := by
  rw [runBif_text env R sh inh mods name src only hm (named_cond hname) hmax hsel, condBody env hname]
  unfold condBif
  simp only [run_bind, run_denyMods]
  rw [if_neg (by simp [start, hf]), andThen_ok, run_extract R hparts _ rfl rfl rfl rfl]
  have : evalParams R (start sh inh mods name src only).sh (start sh inh mods name src only).inh
      (start sh inh mods name src only).b.alias ((some p).getD []) (start sh inh mods name src only).only =
      .ok x sh1 inh1 := hx
  rw [this]
  simp only [andThen_ok, run_denyFlags, Option.getD_some, hfl, List.isEmpty_nil, if_true, run_getSt, run_ite, run_pure', run_bind]
  have hc := condTest_iff env hname { start sh inh mods name src only with
    sh := sh1, inh := inh1, b := { (start sh inh mods name src only).b with params := x, code := c, flags := [] } } x
  simp only at hc
  have hshow := bifResult_shown env R mods name c only sh1 inh1 { start sh inh mods name src only with
    sh := sh1, inh := inh1, b := { (start sh inh mods name src only).b with params := x, code := c, flags := [] } }
    rfl rfl rfl rfl rfl rfl rfl rfl rfl
  refine ⟨?_, ?_, ?_, ?_⟩
  · intro h1 h2
    rw [if_pos, hshow]
    rw [hc.2 h1]; simp [start, h2]
  · intro h1 h2
    rw [if_neg]
    · rfl
    · rw [hc.2 h1]; simp [start, h2]
  · intro h1 h2
    rw [if_neg]
    · rfl
    · rw [← hc, Bool.not_eq_true] at h1
      rw [h1]; simp [start, h2]
  · intro h1 h2
    rw [if_pos, hshow]
    rw [← hc, Bool.not_eq_true] at h1
    rw [h1]; simp [start, h2]

/-- **C33 (exactly one).** Of the plain and the negated form exactly one shows its code. -/
theorem C33_complement (env : Env) (R : Rec) (sh sh1 : Shared) (inh inh1 : Inherit) (mods name src only p c x : Str)
    (hname : name ∈ condNames) (hm : Mods mods) (hf : '&' ∉ mods) (hn : '!' ∉ mods) (hmax : sh.count < sh.max)
    (honly : only = [] ∨ inh.inOnly = true) (hparts : Parts src (some p) c)
    (hx : evalParams R (counted sh) (entered sh inh) name p only = .ok x sh1 inh1) (hfl : flagsOf sh1 p = []) :
    (runBif env R sh inh (bifText mods name src) only = shown R mods name c only sh1 inh1 ∧
      runBif env R sh inh (bifText ('!' :: mods) name src) only = hidden mods sh1 inh1) ∨
    (runBif env R sh inh (bifText mods name src) only = hidden mods sh1 inh1 ∧
      runBif env R sh inh (bifText ('!' :: mods) name src) only = shown R mods name c only sh1 inh1) := by
  have hsel : ∀ m, Selected inh m name only := fun m => honly.elim .inl (fun h => .inr (.inl h))
  have hm' : Mods ('!' :: mods) := by
    intro d hd
    rcases List.mem_cons.1 hd with rfl | hd
    · exact .inr (.inl rfl)
    · exact hm d hd
  have h1 := C33_condition env R sh sh1 inh inh1 mods name src only p c x hname hm hf hmax (hsel _) hparts hx hfl
  have h2 := C33_condition env R sh sh1 inh inh1 ('!' :: mods) name src only p c x hname hm' (by simp [hf]) hmax (hsel _)
    hparts hx hfl
  have e1 : hidden ('!' :: mods) sh1 inh1 = hidden mods sh1 inh1 := by
    unfold hidden
    have : ('^' ∈ '!' :: mods) = ('^' ∈ mods) := by simp
    simp only [this]
  have e2 : shown R ('!' :: mods) name c only sh1 inh1 = shown R mods name c only sh1 inh1 := by
    unfold shown
    have a1 : ('^' ∈ '!' :: mods) = ('^' ∈ mods) := by simp
    have a2 : ('+' ∈ '!' :: mods) = ('+' ∈ mods) := by simp
    simp only [a1, a2]
  rw [e1, e2] at h2
  by_cases h : Cond env name sh1 inh1 x
  · left; exact ⟨h1.1 h hn, h2.2.1 h (by simp)⟩
  · right; exact ⟨h1.2.2.1 h hn, h2.2.2.2 h (by simp)⟩

/-! `same` and `contains` -/

/-- The comparison made by `same` and `contains`. -/
inductive Spec.Compares : Str → Str → Str → Prop
  | same (a : Str) : Compares c!"same" a a
  | contains {a b : Str} : b <:+: a → Compares c!"contains" a b

/-- The names of the comparing BIFs. -/
def Spec.cmpNames : List Str := [c!"contains", c!"same"]

/-- The test of each comparing BIF. -/
def cmpTest (name : Str) : Str → Str → Bool :=
  if name = c!"contains" then (fun haystack needle => contains needle haystack) else (fun a b => a == b)

theorem cmpBody (env : Env) {name : Str} (h : name ∈ cmpNames) : bifBody env name = cmpBif (cmpTest name) := by
  simp only [cmpNames, List.mem_cons, List.not_mem_nil, or_false] at h
  rcases h with rfl | rfl <;> rfl

theorem splitOnce_nil_isSome (s : Str) : (splitOnce [] s).isSome = true := by
  cases s <;> simp [splitOnce, stripPrefix?]

theorem contains_iff' (p s : Str) : contains p s = true ↔ p <:+: s := by
  cases p with
  | nil => simp [contains, splitOnce_nil_isSome]
  | cons a r => exact contains_iff (by simp)

theorem cmpTest_iff {name : Str} (h : name ∈ cmpNames) (a b : Str) : cmpTest name a b = true ↔ Compares name a b := by
  simp only [cmpNames, List.mem_cons, List.not_mem_nil, or_false] at h
  rcases h with rfl | rfl
  · change contains b a = true ↔ _
    rw [contains_iff']
    constructor
    · exact .contains
    · intro h
      generalize hn : c!"contains" = n at h
      cases h with
      | contains h => exact h
      | same => exact absurd hn (by decide)
  · change (a == b) = true ↔ _
    rw [beq_iff_eq]
    constructor
    · rintro rfl; exact .same a
    · intro h
      generalize hn : c!"same" = n at h
      cases h with
      | same => rfl
      | contains _ => exact absurd hn (by decide)

theorem named_cmp {name : Str} (h : name ∈ cmpNames) : Named name := by
  simp only [cmpNames, List.mem_cons, List.not_mem_nil, or_false] at h
  rcases h with rfl | rfl
  all_goals
    refine ⟨by decide, ?_⟩
    intro c r hc
    injection hc with h1 h2
    subst h1
    decide

/-- **C33 (`same`, `contains`).** `{:same; /a/b/ >> code :}`: `d` is the delimiter (the first character of the
parameters); once the arguments have been evaluated, leaving the state `sh1`, the code is shown exactly when the
comparison holds (fails, with `!`), and otherwise nothing more is evaluated. -/
theorem C33_compare (env : Env) (R : Rec) (sh sh1 : Shared) (inh inh1 : Inherit) (mods name src only r c : Str) (d : Char)
    (z a b : Str) (more : List Str)
    (hname : name ∈ cmpNames) (hm : Mods mods) (hf : '&' ∉ mods) (hmax : sh.count < sh.max)
    (hsel : Selected inh mods name only) (hparts : Parts src (some (d :: r)) c) (hflg : ¬ c!"{:flg;" <:+: d :: r)
    (hargs : ArgsGive R name only (splitChar d (d :: r)) (counted sh) (entered sh inh) (z :: a :: b :: more) sh1 inh1) :
    (Compares name a b → '!' ∉ mods →
      runBif env R sh inh (bifText mods name src) only = shown R mods name c only sh1 inh1) ∧
    (Compares name a b → '!' ∈ mods →
      runBif env R sh inh (bifText mods name src) only = hidden mods sh1 inh1) ∧
    (¬ Compares name a b → '!' ∉ mods →
      runBif env R sh inh (bifText mods name src) only = hidden mods sh1 inh1) ∧
    (¬ Compares name a b → '!' ∈ mods →
      runBif env R sh inh (bifText mods name src) only = shown R mods name c only sh1 inh1) := by
  rw [runBif_text env R sh inh mods name src only hm (named_cmp hname) hmax hsel, cmpBody env hname]
  unfold cmpBif
  simp only [run_bind, run_denyMods]
  rw [if_neg (by simp [start, hf]), andThen_ok, run_extract_plain R false hparts _ rfl (by simp)]
  simp only [andThen_ok, run_denyFlgParams, Option.getD_some]
  rw [if_neg (by simpa using (contains_false_iff (by simp)).2 hflg), andThen_ok]
  rw [run_extractArgs R hargs { start sh inh mods name src only with
        b := { (start sh inh mods name src only).b with params := d :: r, code := c } }
      rfl rfl rfl rfl rfl rfl rfl]
  simp only [andThen_ok, run_argReq, List.getElem?_cons_succ, List.getElem?_cons_zero, run_getSt, run_ite, run_setOut,
    run_bind]
  have hc := cmpTest_iff hname a b
  have hshow := bifResult_shown env R mods name c only sh1 inh1 { start sh inh mods name src only with
    sh := sh1, inh := inh1, b := { (start sh inh mods name src only).b with params := d :: r, code := c } }
    rfl rfl rfl rfl rfl rfl rfl rfl rfl
  refine ⟨?_, ?_, ?_, ?_⟩
  · intro h1 h2
    rw [if_pos, hshow]
    rw [hc.2 h1]; simp [start, h2]
  · intro h1 h2
    rw [if_neg]
    · rfl
    · rw [hc.2 h1]; simp [start, h2]
  · intro h1 h2
    rw [if_neg]
    · rfl
    · rw [← hc, Bool.not_eq_true] at h1
      rw [h1]; simp [start, h2]
  · intro h1 h2
    rw [if_pos, hshow]
    rw [← hc, Bool.not_eq_true] at h1
    rw [h1]; simp [start, h2]

/-! The hypotheses can be met. -/

example : Parts c!" x >> {:code; a >> b :} " (some c!"x") c!"{:code; a >> b :}" :=
  .both (a := c!"x ") (r := c!" {:code; a >> b :}") (noSep_plain _ _ (by decide)) (by decide)

example : Parts c!" yes " none c!"yes" := .code (noSep_plain _ _ (by decide))

example : Mods c!"!^" ∧ Named c!"bool" ∧ Selected Inherit.new c!"!^" c!"bool" [] :=
  ⟨by unfold Mods; decide, named_cond (by decide), .inl rfl⟩

/-- Both outcomes occur. -/
example :
    Sample.outOf (Sample.go [(c!"x", .bool true)] c!"{:bool; x >> {:;x:} :}{:!bool; x >> no :}{:bool; y >> no :}{:!bool; y >> !:}")
      = some (c!"true!", c!"200") ∧
    Sample.outOf (Sample.go [(c!"x", .str c!"ab")] c!"{:same; /{:;x:}/ab/ >> S :}{:contains; /{:;x:}/b/ >> C :}{:!same; /a/b/ >> N :}")
      = some (c!"SCN", c!"200") := by
  constructor <;> decide +kernel

/-! ### C34 -/

theorem named_else : Named c!"else" := by
  refine ⟨by decide, ?_⟩
  intro c r hc
  injection hc with h1 h2
  subst h1
  decide

/-- **C34 (what `else` does).** It shows its code iff the previous BIF is remembered as having given no output (with `!`:
some output). -/
theorem C34_else (env : Env) (R : Rec) (sh : Shared) (inh : Inherit) (mods src only c : Str) (hm : Mods mods)
    (hf : '&' ∉ mods) (hmax : sh.count < sh.max) (hsel : Selected inh mods c!"else" only) (hparts : Parts src none c) :
    runBif env R sh inh (bifText mods c!"else" src) only =
      if inh.lastBifOut = true ↔ '!' ∈ mods then shown R mods c!"else" c only (counted sh) (entered sh inh)
      else hidden mods (counted sh) (entered sh inh) := by
  rw [runBif_text env R sh inh mods c!"else" src only hm named_else hmax hsel]
  have hbody : bifBody env c!"else" = bifElse := rfl
  rw [hbody]
  unfold bifElse
  simp only [run_bind, run_denyMods]
  rw [if_neg (by simp [start, hf]), andThen_ok, run_extract_plain R true hparts _ rfl (fun _ => by simp)]
  simp only [andThen_ok, run_denyFlags, run_getSt, run_ite, run_setOut]
  rw [if_pos (by rfl)]
  simp only [andThen_ok]
  have hshow := bifResult_shown env R mods c!"else" c only (counted sh) (entered sh inh) { start sh inh mods c!"else" src only with
    b := { (start sh inh mods c!"else" src only).b with params := [], code := c } }
    rfl rfl rfl rfl rfl rfl rfl rfl rfl
  by_cases h1 : '!' ∈ mods <;> cases h2 : inh.lastBifOut
  · rw [if_pos (by simp [start, h1, h2]), if_neg (by simp [h1])]; rfl
  · rw [if_neg (by simp [start, h1, h2]), if_pos (by simp [h1]), run_bind]; exact hshow
  · rw [if_neg (by simp [start, h1, h2]), if_pos (by simp [h1]), run_bind]; exact hshow
  · rw [if_pos (by simp [start, h1, h2]), if_neg (by simp [h1])]; rfl

theorem trim_nil : trim [] = [] := rfl

/-- **C34 (`else` after a BIF that printed something).** If the previous BIF printed `x ≠ ""`, `else` shows nothing and
`!else` shows its code. -/
theorem C34_after_output (env : Env) (R : Rec) (sh sh1 : Shared) (inh inh1 : Inherit) (mods name src x mods' src' c : Str)
    (hm : Mods mods) (hn : Named name) (hup : '^' ∉ mods)
    (hprev : runBif env R sh inh (bifText mods name src) [] = .ok x sh1 inh1) (hx : x ≠ [])
    (hm' : Mods mods') (hf : '&' ∉ mods') (hmax : sh1.count < sh1.max) (hparts : Parts src' none c) :
    runBif env R sh1 inh1 (bifText mods' c!"else" src') [] =
      if '!' ∈ mods' then shown R mods' c!"else" c [] (counted sh1) (entered sh1 inh1)
      else hidden mods' (counted sh1) (entered sh1 inh1) := by
  obtain ⟨out, h1, h2, _⟩ := runBif_remembers hm hn (.inl rfl) hprev
  rw [if_neg hup] at h1
  have hb : inh1.lastBifOut = true := by
    rw [h2]
    cases out with
    | nil => exact absurd h1 hx
    | cons a r => rfl
  rw [C34_else env R sh1 inh1 mods' src' [] c hm' hf hmax (.inl rfl) hparts, hb]
  by_cases h : '!' ∈ mods' <;> simp [h]

/-- **C34 (`else` after a BIF that showed nothing).** After a BIF that ended without output (a condition that failed, see
C33, or an error), `else` shows its code and `!else` shows nothing. -/
theorem C34_after_nothing_partial (env : Env) (R : Rec) (sh sh1 sh2 : Shared) (inh inh1 inh2 : Inherit)
    (raw x mods msg name mods' src' c : Str)
    (hprev : runBif env R sh inh raw [] = .ok x sh1 inh1)
    (hhid : runBif env R sh inh raw [] = hidden mods sh2 inh2 ∨
      runBif env R sh inh raw [] = failed env mods name raw msg sh2 inh2)
    (hm' : Mods mods') (hf : '&' ∉ mods') (hmax : sh1.count < sh1.max) (hparts : Parts src' none c) :
    runBif env R sh1 inh1 (bifText mods' c!"else" src') [] =
      if '!' ∈ mods' then hidden mods' (counted sh1) (entered sh1 inh1)
      else shown R mods' c!"else" c [] (counted sh1) (entered sh1 inh1) := by
  have hb : inh1.lastBifOut = false := by
    rcases hhid with h | h
    · rw [h] at hprev
      simp only [hidden, finish, PRes.ok.injEq] at hprev
      rw [← hprev.2.2]; rfl
    · rw [h] at hprev
      unfold failed at hprev
      split at hprev
      · simp at hprev
      · simp only [finish, PRes.ok.injEq] at hprev
        rw [← hprev.2.2]; rfl
  rw [C34_else env R sh1 inh1 mods' src' [] c hm' hf hmax (.inl rfl) hparts, hb]
  by_cases h : '!' ∈ mods' <;> simp [h]

/-- **C34: the full statement is false.**  A BIF whose output consists of white space prints nothing, yet counts as output:
`{:;x:}` with the value `" "` followed by `else` shows neither. -/
theorem C34_refuted :
    Sample.outOf (Sample.go [(c!"x", .str c!" ")] c!"[{:;x:}{:else; E :}]") = some (c!"[]", c!"200") ∧
    Sample.outOf (Sample.go [(c!"x", .str c!"")] c!"[{:;x:}{:else; E :}]") = some (c!"[E]", c!"200") ∧
    Sample.outOf (Sample.go [(c!"x", .str c!"a")] c!"[{:;x:}{:else; E :}{:!else; N :}]") = some (c!"[a]", c!"200") := by
  refine ⟨?_, ?_, ?_⟩ <;> decide +kernel

/-! ### C35 -/

/-- **C35.** In a block of `coalesce`, once a BIF has produced output none of the remaining BIFs is evaluated: the state
is unchanged and only the plain text between them is printed. -/
theorem C35_rest_skipped (env : Env) (R : Rec) (src only : Str) (bs : List (Nat × Nat)) :
    ∀ (p : Nat) (out : Str) (sh : Shared) (inh : Inherit), sh.exit = false → inh.alias = c!"coalesce" →
      inh.lastCoalesceOut = true →
      blocksGo env R src only p out bs sh inh = .ok (trim (out ++ (outside src p bs).flatten)) sh inh := by
  induction bs with
  | nil =>
    intro p out sh inh _ _ _
    simp only [blocksGo, outside, List.flatten_cons, List.flatten_nil, List.append_nil, part, List.take_length]
  | cons b r ih =>
    obtain ⟨s, e⟩ := b
    intro p out sh inh h1 h2 h3
    simp only [blocksGo, h1, h2, h3, Bool.false_eq_true, if_false, decide_true, Bool.and_self, Bool.or_true, if_true]
    rw [ih _ _ _ _ h1 h2 h3]
    simp only [outside, List.flatten_cons, slice_eq_part]
    split
    · rw [List.append_assoc]
    · next hlt =>
      have : part src p s = [] := by
        unfold part
        apply List.drop_eq_nil_of_le
        rw [List.length_take]
        omega
      rw [this]; rfl

/-- **C35.** Put together: in a `coalesce` block, when the BIF at `(s, e)` produces output `x` (and does not exit), the
result of the whole block is what was there before, `x`, and the plain text of the rest; no later BIF is evaluated. -/
theorem C35_stops (env : Env) (R : Rec) (src only out : Str) (p s e : Nat) (rest : List (Nat × Nat)) (sh sh1 : Shared)
    (inh inh1 : Inherit) (x : Str) (hexit : sh.exit = false) (hal : inh.alias = c!"coalesce")
    (hno : inh.lastCoalesceOut = false) (hcom : ¬ c!"{:*" <+: part src s e)
    (hrun : runBif env R sh inh (part src s e) only = .ok x sh1 inh1) (hexit1 : sh1.exit = false)
    (hout : inh1.lastCoalesceOut = true) :
    blocksGo env R src only p out ((s, e) :: rest) sh inh =
      .ok (trim (out ++ part src p s ++ x ++ (outside src e rest).flatten)) sh1 inh1 := by
  have hc : startsWith c!"{:*" (part src s e) = false := by
    rw [← Bool.not_eq_true, startsWith_iff]; exact hcom
  simp only [blocksGo, hexit, hno, slice_eq_part, hc, Bool.false_eq_true, if_false, Bool.false_and, Bool.or_self, hrun]
  rw [C35_rest_skipped env R src only rest e _ sh1 inh1 hexit1 ((runBif_inh hrun).1.trans hal) hout]
  congr 3
  split
  · rfl
  · next hlt =>
    have : part src p s = [] := by
      unfold part
      apply List.drop_eq_nil_of_le
      rw [List.length_take]
      omega
    rw [this, List.append_nil]

/-- **C35 (output is what stops it).** A BIF that prints something is remembered as having produced output. -/
theorem C35_output_remembered (env : Env) (R : Rec) (sh sh1 : Shared) (inh inh1 : Inherit) (mods name src only x : Str)
    (hm : Mods mods) (hn : Named name) (hsel : Selected inh mods name only) (hup : '^' ∉ mods)
    (h : runBif env R sh inh (bifText mods name src) only = .ok x sh1 inh1) (hx : x ≠ []) :
    inh1.lastCoalesceOut = true := by
  obtain ⟨out, h1, _, h3⟩ := runBif_remembers hm hn hsel h
  rw [if_neg hup] at h1
  rw [h3]
  cases out with
  | nil => exact absurd h1 hx
  | cons a r => rfl

/-- **C35 (the block starts afresh).** `coalesce` evaluates its source as a nested block named `coalesce` in which nothing
is remembered as having produced output, and prints the result. -/
theorem C35_coalesce (env : Env) (R : Rec) (sh : Shared) (inh : Inherit) (mods src only : Str) (hm : Mods mods)
    (hf : '&' ∉ mods) (hn : '!' ∉ mods) (hmax : sh.count < sh.max) (hsel : Selected inh mods c!"coalesce" only)
    (hb : c!"{:" <:+: trim src) :
    runBif env R sh inh (bifText mods c!"coalesce" src) only =
      shown R mods c!"coalesce" (trim src) only (counted sh) { entered sh inh with lastCoalesceOut := false } := by
  have hnm : Named c!"coalesce" := by
    refine ⟨by decide, ?_⟩
    intro c r hc
    injection hc with h1 h2
    subst h1
    decide
  rw [runBif_text env R sh inh mods c!"coalesce" src only hm hnm hmax hsel]
  have hbody : bifBody env c!"coalesce" = bifCoalesce := rfl
  rw [hbody]
  unfold bifCoalesce
  simp only [run_bind, run_denyMods]
  rw [if_neg (by simp [start, hf, hn])]
  simp only [andThen_ok, run_op_setLastCoalesce, step, toRes_ok, run_getSt, run_setOut]
  change bifResult env ((run R (childParse (trim src) (decide ('+' ∈ mods))) _).andThen _) = _
  rw [run_child_nested R _ _ _ rfl rfl ((contains_iff (by simp)).2 hb)]
  unfold shown
  change bifResult env (Res.andThen (match nested R (decide ('+' ∈ mods)) (counted sh) { entered sh inh with lastCoalesceOut := false }
      c!"coalesce" (trim src) only with
    | .ok x sh' inh' => _
    | .panic p => _
    | .oof => _) _) = _
  cases nested R (decide ('+' ∈ mods)) (counted sh) { entered sh inh with lastCoalesceOut := false }
      c!"coalesce" (trim src) only <;> rfl

/-- The first non-empty alternative is taken and the later ones (here an exit) have no effect. -/
example :
    Sample.outOf (Sample.go [(c!"x", .str c!"b")] c!"{:coalesce; {:;a:}{:;x:}{:exit; 404 :}{:;x:} :}") =
      some (c!"b", c!"200") := by decide +kernel

end Nts
