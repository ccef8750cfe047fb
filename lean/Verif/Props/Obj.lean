import Verif.Props.EvalBif
import Verif.Props.FileNames
/-
C64: objects (scripts).
-/
set_option autoImplicit false
namespace Nts
open Spec

/-! ### specification -/

/-- The source of an object: the definition, and the code after `>>` (none when there is no `>>`). -/
inductive Spec.ObjParts : Str → Str → Str → Prop
  | both {src p c : Str} : c!">>" <:+: trim src → Parts src (some p) c → ObjParts src p c
  | alone {src : Str} : ¬ c!">>" <:+: trim src → NoSep c!">>" (trim src) → ObjParts src (trim src) []

/-- A definition written in the template: `{...}`, but not `{:...:}`. -/
def Spec.InlineObj (p : Str) : Prop := ∃ a, p = c!"{" ++ a ++ c!"}" ∧ a.head? ≠ some ':' ∧ a.getLast? ≠ some ':'

/-- The file in which nested blocks run: the definition file, if there is one. -/
def Spec.inFile (fp : Str) (inh : Inherit) : Inherit := if fp = [] then inh else { inh with currentFile := fp }

/-- `ObjText R sh inh p only text fp sh'`: the text of the definition `p`: itself, or the content of the file it names
(literally, or computed by BIFs, whose output must be free of BIFs). -/
inductive Spec.ObjText (R : Rec) (sh : Shared) (inh : Inherit) (p only : Str) : Str → Str → Shared → Prop
  | inline : InlineObj p → ObjText R sh inh p only p [] sh
  | file {x t : Str} {e : FileEntry} {sh' : Shared} : p.head? ≠ some '{' ∨ c!"{:" <+: p →
      nested R false sh inh c!"obj" p only = .ok x sh' inh → ¬ c!"{:" <:+: x →
      pathOf inh x ≠ [] → sh'.w.fs (pathOf inh x) = some e → e.content = some t →
      ObjText R sh inh p only t (pathOf inh x) sh'

/-- The entries whose text is evaluated. -/
def Spec.isTemplateKey (key : Str) : Bool :=
  key ∈ [c!"file", c!"template", c!"venv", c!"schema_data", c!"fpm"]

mutual
/-- `ObjValue R fp only deep inh key v sh v' sh'`: the entry `key: v` of the definition becomes `key: v'`.  The texts of
`file`, `template`, `venv`, `schema_data`, `fpm` and all texts in `params` (`deep`) are evaluated, nothing else. -/
inductive Spec.ObjValue (R : Rec) (fp only : Str) (inh : Inherit) :
    Bool → Str → Value → Shared → Value → Shared → Prop
  | text {deep : Bool} {k x y : Str} {sh sh' : Shared} {inh' : Inherit} : isTemplateKey k = true ∨ k = c!"params" ∨ deep = true →
      nested R false sh (inFile fp inh) c!"obj" x only = .ok y sh' inh' →
      ObjValue R fp only inh deep k (.str x) sh (.str y) sh'
  | inner {deep : Bool} {k : Str} {o o' : Obj} {sh sh' : Shared} : isTemplateKey k = false → k = c!"params" ∨ deep = true →
      ObjGives R fp only inh true o sh o' sh' → ObjValue R fp only inh deep k (.obj o) sh (.obj o') sh'
  | kept {deep : Bool} {k : Str} {v : Value} {sh : Shared} :
      (∀ x, v = .str x → isTemplateKey k = false ∧ k ≠ c!"params" ∧ deep = false) →
      (∀ o, v = .obj o → isTemplateKey k = true ∨ (k ≠ c!"params" ∧ deep = false)) →
      ObjValue R fp only inh deep k v sh v sh
/-- The entries one after the other. -/
inductive Spec.ObjGives (R : Rec) (fp only : Str) (inh : Inherit) : Bool → Obj → Shared → Obj → Shared → Prop
  | nil {deep : Bool} {sh : Shared} : ObjGives R fp only inh deep [] sh [] sh
  | cons {deep : Bool} {k : Str} {v v' : Value} {o o' : Obj} {sh sh1 sh2 : Shared} :
      ObjValue R fp only inh deep k v sh v' sh1 → ObjGives R fp only inh deep o sh1 o' sh2 →
      ObjGives R fp only inh deep ((k, v) :: o) sh ((k, v') :: o') sh2
end

/-- The text of an entry, with a default for entries that are missing or not texts. -/
def Spec.textIn (o : Obj) (k default : Str) : Str :=
  match Obj.get? k o with
  | some (.str x) => x
  | _ => default

/-- The text of a setting in the configuration of the schema. -/
def Spec.configText (sh : Shared) (k default : Str) : Str :=
  match ((sh.schema.index c!"config").get? k) with
  | some (.str x) => x
  | _ => default

/-- The virtual environment: none when the text is empty, else an existing path. -/
inductive Spec.VenvIs (sh : Shared) (inh : Inherit) : Str → Option Str → Prop
  | none : VenvIs sh inh [] none
  | some {t : Str} {e : FileEntry} : t ≠ [] → pathOf inh t ≠ [] → sh.w.fs (pathOf inh t) = some e →
      VenvIs sh inh t (some (pathOf inh t))

/-- The bridge script of PHP objects is there, or it is created beside the script; Python needs none. -/
inductive Spec.Bridged (env : Env) (script : Str) (sh : Shared) : Bool → Shared → Prop
  | python : Bridged env script sh true sh
  | present {b : Str} {e : FileEntry} : env.bridgePath script = .ok b → sh.w.fs b = some e → Bridged env script sh false sh
  | created {b : Str} : env.bridgePath script = .ok b → sh.w.fs b = none → env.createErr sh.w.tick b = none →
      env.writeErr sh.w.tick b = none → Bridged env script sh false { sh with w :=
        { fs := fun q => if q = b then some ⟨some env.bridgeScript, env.now sh.w.tick, true⟩ else sh.w.fs q
          tick := sh.w.tick + 1 } }

/-- The data a definition asks for in `schema_data`: global, or local with the prefix `local::`. -/
def Spec.askedData (sh : Shared) (inh : Inherit) (name : Str) : Value :=
  match stripPrefix? c!"local::" name with
  | some r => (resolvePointer (visible sh inh c!"data") r).getD .null
  | none => (resolvePointer (sh.schema.index c!"data") name).getD .null

/-- What the script is given. -/
def Spec.callOf (sh : Shared) (inh : Inherit) (o : Obj) (python : Bool) (script : Str) (venv : Option Str) : ObjCall where
  python := python
  file := script
  params := (Obj.get? c!"params" o).getD .null
  callback := textIn o c!"callback" c!"main"
  schema := match Obj.get? c!"schema" o with
    | some (.bool true) => some sh.schema
    | _ => none
  schemaData := match Obj.get? c!"schema_data" o with
    | some (.str name) => some (askedData sh inh name)
    | _ => none
  venv := venv
  fpm := if python then [] else
    pathOf inh (textIn o c!"fpm" (configText sh c!"obj_php_fpm" c!"unix:/run/php/php-fpm.sock"))

/-- There is something in the result: an entry `data` that is not empty. -/
def Spec.hasData (v : Value) : Bool :=
  match v.get? c!"data" with
  | some d => !emptyVal d
  | none => false

/-- The code that is shown: the result as inline data, the template of the object, the code of the BIF. -/
def Spec.objShows (env : Env) (o : Obj) (result : Value) (c : Str) : Str :=
  (if hasData result then c!"{:data;{:flg; inline :}>>" ++ env.jsonShow result ++ c!":}" else []) ++
  (if textIn o c!"template" [] = [] then [] else c!"{:include;" ++ textIn o c!"template" [] ++ c!":}") ++ c

/-- `shown` in the definition file. -/
def Spec.shownIn (R : Rec) (mods name c only fp : Str) (sh : Shared) (inh : Inherit) : PRes :=
  match nested R (decide ('+' ∈ mods)) sh (inFile fp inh) name c only with
  | .ok x sh' inh' => finish (decide ('^' ∈ mods)) x sh' { inh' with currentFile := inh.currentFile }
  | .panic p => .panic p
  | .oof => .oof

/-! ### lemmas -/

theorem inFile_child (s : St) (hd : s.b.dir = []) :
    childInherit s = childInherit ⟨s.sh, inFile s.b.filePath s.inh, { BifS.new with alias := s.b.alias }, [], s.only⟩ := by
  unfold childInherit inFile
  by_cases h : s.b.filePath = []
  · simp [h, hd, BifS.new]
  · simp [h, hd, BifS.new]

/-- A nested block of an object. -/
theorem run_child_at (R : Rec) (src : Str) (scope : Bool) (s : St) (hd : s.b.dir = [])
    (hc : contains c!"{:" src = true) :
    run R (childParse src scope) s =
      match nested R scope s.sh (inFile s.b.filePath s.inh) s.b.alias src s.only with
      | .ok x sh' inh' => .ok x { s with sh := sh', inh := { inh' with currentFile := s.inh.currentFile } }
      | .panic p => .panic p
      | .oof => .oof := by
  rw [run_childParse]
  simp only [step]
  unfold nested
  rw [if_pos hc]
  unfold runChild
  dsimp only
  rw [inFile_child s hd]
  have h1 : (createBlockSchema s.sh (inFile s.b.filePath s.inh)).1 = (createBlockSchema s.sh s.inh).1 := by
    unfold inFile; split <;> rfl
  have h2 : { (createBlockSchema s.sh (inFile s.b.filePath s.inh)).2 with currentFile := s.inh.currentFile } =
      (createBlockSchema s.sh s.inh).2 := by
    unfold inFile; split <;> rfl
  have h3 : (createBlockSchema s.sh (inFile s.b.filePath s.inh)).2.indir = (createBlockSchema s.sh s.inh).2.indir :=
    by unfold inFile; split <;> rfl
  have hi : { inFile s.b.filePath s.inh with currentFile := s.inh.currentFile } = s.inh := by
    unfold inFile; split <;> rfl
  dsimp only at h2 hi
  cases scope
  · simp only [Bool.false_eq_true, if_false]
    cases parseSrc R s.sh (childInherit ⟨s.sh, inFile s.b.filePath s.inh, { BifS.new with alias := s.b.alias }, [], s.only⟩)
      src s.only with
    | ok a b c => simp only [hi]; rfl
    | panic p => rfl
    | oof => rfl
  · simp only [if_true, h1, h3]
    cases parseSrc R (createBlockSchema s.sh s.inh).1
      (childInherit ⟨s.sh, inFile s.b.filePath s.inh, { BifS.new with alias := s.b.alias }, [], s.only⟩) src s.only with
    | ok a b c => exact congrArg (fun i => Res.ok a ⟨_, i, s.b, s.raw, s.only⟩) h2.symm
    | panic p => rfl
    | oof => rfl

/-- Setting of a run of an object: the fields of the BIF that matter. -/
structure ObjAt (s : St) (sh : Shared) (inh : Inherit) (fp only : Str) : Prop where
  sh : s.sh = sh
  inh : s.inh = inh
  fp : s.b.filePath = fp
  dir : s.b.dir = []
  alias : s.b.alias = c!"obj"
  only : s.only = only

theorem run_objString {R : Rec} {fp only x y : Str} {sh sh' : Shared} {inh inh' : Inherit} {s : St}
    (hs : ObjAt s sh inh fp only) (h : nested R false sh (inFile fp inh) c!"obj" x only = .ok y sh' inh') :
    run R (objString x) s = .ok (.str y) { s with sh := sh' } := by
  obtain ⟨rfl, rfl, rfl, hd, ha, rfl⟩ := hs
  unfold objString
  by_cases hc : contains c!"{:" x = true
  · simp only [run_ite]
    rw [if_pos (by exact hc)]
    simp only [run_bind]
    rw [run_child_at R x false s hd hc, ha, h]
    have := nested_inh h
    have hi : { inFile s.b.filePath s.inh with currentFile := s.inh.currentFile } = s.inh := by
      unfold inFile; split <;> rfl
    dsimp only at hi
    subst this
    simp only [hi, andThen_ok, run_pure]
  · simp only [run_ite]
    rw [if_neg (by exact hc)]
    unfold nested at h
    rw [if_neg hc] at h
    simp only [PRes.ok.injEq] at h
    obtain ⟨rfl, rfl, _⟩ := h
    rfl

theorem evaluated_iff (k : Str) : (k = c!"file" || k = c!"template" || k = c!"venv" || k = c!"schema_data" || k = c!"fpm") =
    isTemplateKey k := by
  unfold isTemplateKey
  simp [Bool.or_assoc]

mutual
theorem run_objEntry {R : Rec} {fp only : Str} {inh : Inherit} : ∀ (v : Value) {deep : Bool} {k : Str} {v' : Value}
    {sh sh' : Shared} {s : St}, ObjAt s sh inh fp only → ObjValue R fp only inh deep k v sh v' sh' →
    run R (objEntry deep k v) s = .ok v' { s with sh := sh' } := by
  intro v deep k v' sh sh' s hs h
  cases h with
  | text hk hn =>
    unfold objEntry
    rw [if_pos, run_objString hs hn]
    have := evaluated_iff k
    rw [this]
    simpa [Bool.or_eq_true, or_assoc] using hk
  | inner he hk hg =>
    unfold objEntry
    rw [if_neg (by rw [evaluated_iff]; simp [he]), if_pos (by simpa using hk), run_bind', run_objEntries _ hs hg]
    rfl
  | kept h1 h2 =>
    have hsame : ({ s with sh := sh } : St) = s := by rw [← hs.sh]
    rw [hsame]
    cases v with
    | str x =>
      obtain ⟨a, b, c⟩ := h1 x rfl
      unfold objEntry
      rw [if_neg, run_pure']
      rw [evaluated_iff]; simp [a, b, c]
    | obj o =>
      unfold objEntry
      rcases h2 o rfl with h | ⟨a, b⟩
      · rw [if_pos (by rw [evaluated_iff]; exact h), run_pure']
      · split
        · rfl
        · rw [if_neg (by simp [a, b])]; rfl
    | null => rfl
    | bool _ => rfl
    | num _ => rfl
    | arr _ => rfl
theorem run_objEntries {R : Rec} {fp only : Str} {inh : Inherit} : ∀ (o : Obj) {deep : Bool} {o' : Obj}
    {sh sh' : Shared} {s : St}, ObjAt s sh inh fp only → ObjGives R fp only inh deep o sh o' sh' →
    run R (objEntries deep o) s = .ok o' { s with sh := sh' } := by
  intro o deep o' sh sh' s hs h
  cases h with
  | nil =>
    unfold objEntries
    rw [run_pure', ← hs.sh]
  | cons hv hg =>
    unfold objEntries
    rw [run_bind', run_objEntry _ hs hv, andThen_ok, run_bind']
    rename_i k v v' o o' sh1
    have hs' : ObjAt { s with sh := sh1 } sh1 inh fp only := ⟨rfl, hs.inh, hs.fp, hs.dir, hs.alias, hs.only⟩
    rw [run_objEntries _ hs' hg, andThen_ok, run_pure']
end


theorem byteLen_ge (s : Str) : s.length ≤ byteLen s := by
  unfold byteLen
  induction s with
  | nil => simp
  | cons c r ih =>
    have := Char.utf8Size_pos c
    simp only [List.map_cons, List.sum_cons, List.length_cons]
    omega

theorem objInline_of {p : Str} (h : InlineObj p) : objInline p = true := by
  obtain ⟨a, rfl, h1, h2⟩ := h
  unfold objInline
  simp only [Bool.and_eq_true, decide_eq_true_eq]
  refine ⟨⟨⟨?_, ?_⟩, ?_⟩, ?_⟩
  · rw [startsWith_iff]; exact ⟨a ++ c!"}", by simp⟩
  · rw [endsWith_iff]; exact ⟨c!"{" ++ a, rfl⟩
  · cases a with
    | nil => decide
    | cons c r => simpa using h1
  · have hb := byteLen_ge (c!"{" ++ a ++ c!"}")
    simp only [List.length_append, List.length_cons, List.length_nil] at hb
    intro hc
    obtain ⟨hlt, _⟩ := List.getElem?_eq_some_iff.1 hc
    simp only [List.length_append, List.length_cons, List.length_nil] at hlt
    have hge : a.length ≤ byteLen (c!"{" ++ a ++ c!"}") - 2 := by omega
    generalize byteLen (c!"{" ++ a ++ c!"}") - 2 = n at hc hlt hge
    have : n = a.length ∨ n = a.length + 1 := by omega
    rcases this with rfl | rfl
    · apply h2
      rw [List.getLast?_eq_getElem?]
      cases a with
      | nil => simp at hc
      | cons c r =>
        simp only [List.length_cons, List.append_assoc, List.cons_append, List.nil_append, List.getElem?_cons_succ] at hc ⊢
        rw [← List.cons_append, List.getElem?_append_left (by simp)] at hc
        simpa using hc
    · simp at hc

theorem named_obj : Named c!"obj" := by
  refine ⟨by decide, ?_⟩
  intro c r hc
  injection hc with h1 h2
  subst h1
  decide


theorem trim_head {x r : Str} {c : Char} (h : trim x = c :: r) : isWs c = false := by
  cases hc : isWs c with
  | false => rfl
  | true =>
    exfalso
    have h2 := trim_idem x
    rw [h] at h2
    have h3 : trim (c :: r) = trim r := by simp [trim, trimStart, hc]
    rw [h3] at h2
    have := (trim_infix r).length_le
    rw [h2] at this
    simp at this
    omega

theorem trim_sep (x : Str) : trim (trim x ++ c!">>") = trim x ++ c!">>" := by
  have h1 : trimStart (trim x ++ c!">>") = trim x ++ c!">>" := by
    cases hx : trim x with
    | nil => rfl
    | cons c r => simp [trimStart, trim_head hx]
  rw [show trim (trim x ++ c!">>") = trimEnd (trimStart (trim x ++ c!">>")) from rfl, h1]
  unfold trimEnd
  rw [List.reverse_append]
  have : isWs '>' = false := by decide
  simp [this]

/-- Splitting the source of an object. -/
theorem run_objParts {R : Rec} {src p c : Str} (h : ObjParts src p c) (s : St) (hs : s.b.src = trim src) :
    run R (if contains c!">>" s.b.src then do
        let _ ← extractParamsCode false
      else do
        setSrc (s.b.src ++ c!">>")
        let _ ← extractParamsCode false
        setSrc s.b.src) s = .ok () { s with b := { s.b with params := p, code := c } } := by
  cases h with
  | both h1 h2 =>
    rw [if_pos (by rw [hs]; exact (contains_iff (by decide)).2 h1), run_bind, run_extract_plain R false h2 _ hs (by simp)]
    rfl
  | alone h1 h2 =>
    rw [if_neg (by rw [hs]; exact fun h => h1 ((contains_iff (by decide)).1 h))]
    simp only [run_bind, run_setSrc, andThen_ok]
    have hp : Parts (trim src ++ c!">>") (some (trim (trim src))) (trim []) :=
      .both (a := trim src) (r := []) (by simpa using h2) (by rw [trim_sep]; simp)
    rw [run_extract_plain R false hp _ (by simp only [hs, trim_sep]) (by simp)]
    simp only [andThen_ok, run_setSrc, trim_idem]
    rfl


theorem objInline_not {p : Str} (h : p.head? ≠ some '{' ∨ c!"{:" <+: p) : objInline p = false := by
  unfold objInline
  rcases h with h | ⟨r, rfl⟩
  · have : startsWith c!"{" p = false := by
      cases hs : startsWith c!"{" p with
      | false => rfl
      | true =>
        obtain ⟨r, rfl⟩ := startsWith_iff.1 hs
        simp at h
    simp [this]
  · simp

/-- The text of the definition. -/
theorem run_objSource {env : Env} {R : Rec} {sh sh' : Shared} {inh : Inherit} {p only text fp : Str}
    (h : ObjText R sh inh p only text fp sh') (s : St) (hs : ObjAt s sh inh [] only) (hp : s.b.params = p) :
    ∃ q, run R (objSource env) s = .ok text { s with sh := sh', b := { s.b with params := q, filePath := fp } } := by
  obtain ⟨rfl, rfl, hfp, hd, ha, rfl⟩ := hs
  subst hp
  cases h with
  | inline h =>
    refine ⟨s.b.params, ?_⟩
    unfold objSource
    simp only [run_bind, run_getSt, andThen_ok, run_ite]
    rw [if_pos (objInline_of h), run_pure, ← hfp]
  | @file x _ e _ h1 h2 h3 h4 h5 h6 =>
    refine ⟨x, ?_⟩
    have hx : contains c!"{:" x = false := (contains_false_iff (by decide)).2 h3
    unfold objSource
    simp only [run_bind, run_getSt, andThen_ok, run_ite]
    rw [if_neg (by rw [objInline_not h1]; decide)]
    have hstart : (if contains bifOpen s.b.params = true then
          (run R (childParse s.b.params false) s).andThen fun a s' => run R (setParams a) s'
        else run R (Prog.pure ()) s) = .ok () { s with sh := sh', b := { s.b with params := x } } := by
      by_cases hc : contains c!"{:" s.b.params = true
      · rw [if_pos hc, run_child_nested R _ _ _ hfp hd hc, ha, h2]
        rfl
      · rw [if_neg hc]
        unfold nested at h2
        rw [if_neg hc] at h2
        simp only [PRes.ok.injEq] at h2
        obtain ⟨h7, h8, _⟩ := h2
        rw [run_pure', ← h7, ← h8]
    rw [hstart]
    simp only [andThen_ok, run_setFilePath, run_getSt, run_ite]
    rw [if_neg (by rw [show bifOpen = c!"{:" from rfl, hx]; decide)]
    simp only [run_pure', andThen_ok, run_setFilePath, run_getSt, run_ite, hashPath_eq]
    rw [if_neg (by simp [fileExists, h5])]
    simp only [readFile, h5, Option.bind_some, h6, run_pure]

/-- The virtual environment. -/
theorem run_objVenv {R : Rec} {sh : Shared} {inh : Inherit} {o : Obj} {d : Str} {v : Option Str} {s : St} (hs : s.sh = sh)
    (hi : s.inh = inh) (h : VenvIs sh inh (textIn o c!"venv" d) v) : run R (objVenv (.obj o) d) s = .ok v s := by
  subst hs hi
  have ht : (((Value.obj o).index c!"venv").asStr?).getD d = textIn o c!"venv" d := by
    unfold textIn Value.index Value.get?
    dsimp only
    cases Obj.get? c!"venv" o with
    | none => rfl
    | some v => cases v <;> rfl
  unfold objVenv
  simp only [run_bind, run_getSt, andThen_ok, run_ite, ht]
  generalize textIn o c!"venv" d = t at h
  cases h with
  | none => rfl
  | some h1 h2 h3 =>
    rw [if_neg (by simpa using h1)]
    simp only [run_ite, hashPath_eq]
    rw [if_neg (by simp [fileExists, h3])]
    simp [h2]

/-- The bridge script. -/
theorem run_ensureBridge {env : Env} {R : Rec} {script : Str} {python : Bool} {sh sh' : Shared} {s : St} (hs : s.sh = sh)
    (h : Bridged env script sh python sh') :
    run R (if python then .pure () else ensureBridge env script) s = .ok () { s with sh := sh' } := by
  subst hs
  cases h with
  | python => rfl
  | present h1 h2 =>
    unfold ensureBridge
    rw [h1]
    simp only [Bool.false_eq_true, if_false, run_bind, run_getSt, andThen_ok, run_ite]
    rw [if_pos (by simp [fileExists, h2])]
    rfl
  | created h1 h2 h3 h4 =>
    unfold ensureBridge
    rw [h1]
    simp only [Bool.false_eq_true, if_false, run_bind, run_getSt, andThen_ok, run_ite]
    rw [if_neg (by simp [fileExists, h2])]
    simp only [run_bind, run_tick, andThen_ok, h3, h4, run_op_writeFile]
    simp only [step, ORes.toRes, andThen_ok]
    congr 4
    funext q
    split <;> rfl


/-- The call. -/
theorem run_objCall {env : Env} {R : Rec} {sh sh' : Shared} {inh : Inherit} {o : Obj} {python : Bool} {script fp only : Str}
    {venv : Option Str} {s : St} (hs : ObjAt s sh inh fp only)
    (hv : VenvIs sh inh (textIn o c!"venv" (configText sh (if python then c!"obj_python_venv" else c!"obj_php_venv") [])) venv)
    (hb : Bridged env script sh python sh') :
    run R (objCall env (.obj o) python script) s =
      match env.execObj sh'.w.tick (callOf sh inh o python script venv) with
      | .ok v => .ok v { s with sh := { sh' with w := { sh'.w with tick := sh'.w.tick + 1 } } }
      | .error msg => .err (errOf { s with sh := { sh' with w := { sh'.w with tick := sh'.w.tick + 1 } } } msg)
          { s with sh := { sh' with w := { sh'.w with tick := sh'.w.tick + 1 } } } := by
  obtain ⟨rfl, rfl, rfl, hd, ha, rfl⟩ := hs
  have hcfg : ∀ k d, (((s.sh.schema.index c!"config").index k).asStr?).getD d = configText s.sh k d := by
    intro k d
    unfold configText Value.index
    cases Value.get? (s.sh.schema.get? c!"config" |>.getD .null) k with
    | none => rfl
    | some v => cases v <;> rfl
  have htext : ∀ k d, (((Value.obj o).index k).asStr?).getD d = textIn o k d := by
    intro k d
    unfold textIn Value.index Value.get?
    dsimp only
    cases Obj.get? k o with
    | none => rfl
    | some v => cases v <;> rfl
  unfold objCall
  simp only [run_bind, run_getSt, andThen_ok, hcfg]
  rw [run_objVenv rfl rfl hv]
  simp only [andThen_ok]
  rw [run_ensureBridge rfl hb]
  simp only [andThen_ok, run_tick, htext]
  have hcall : callOf s.sh s.inh o python script venv =
      { python := python, file := script, params := (Value.obj o).index c!"params"
        callback := textIn o c!"callback" c!"main"
        schema := if ((((Value.obj o).get? c!"schema").bind Value.asBool?).getD false) then some s.sh.schema else none
        schemaData := objSchemaData s (.obj o)
        venv := venv
        fpm := if python then [] else hashPath s (textIn o c!"fpm" (configText s.sh c!"obj_php_fpm" c!"unix:/run/php/php-fpm.sock")) } := by
    have hget : ∀ k, (Value.obj o).get? k = Obj.get? k o := fun _ => rfl
    unfold callOf
    congr 1
    · rw [hget]
      cases Obj.get? c!"schema" o with
      | none => rfl
      | some v =>
        cases v with
        | bool b => cases b <;> rfl
        | _ => rfl
    · unfold objSchemaData
      rw [hget]
      cases Obj.get? c!"schema_data" o with
      | none => rfl
      | some v =>
        cases v with
        | str name =>
          simp only [Option.bind_some, Value.asStr?, Option.map_some, storageOf, askedData]
          cases stripPrefix? c!"local::" name <;> rfl
        | _ => rfl
  rw [hcall]
  cases env.execObj sh'.w.tick _ <;> rfl

theorem objCode_eq {env : Env} {o : Obj} {result : Value} {c : Str}
    (ht : ∀ v, Obj.get? c!"template" o = some v → emptyVal v = false → ∃ t, v = .str t) :
    objCode env (.obj o) result c = some (objShows env o result c) := by
  have hd : (!isEmptyKey result c!"data") = hasData result := by
    unfold isEmptyKey hasData resolvePointer
    rw [if_pos (by decide)]
    cases result.get? c!"data" <;> rfl
  unfold objCode objShows
  rw [hd]
  have he : isEmptyKey (.obj o) c!"template" = match Obj.get? c!"template" o with
      | some v => emptyVal v
      | none => true := by
    unfold isEmptyKey resolvePointer
    rw [if_pos (by decide)]
    rfl
  rw [he]
  unfold textIn Value.index Value.get?
  dsimp only
  cases hg : Obj.get? c!"template" o with
  | none => simp
  | some v =>
    cases hv : emptyVal v with
    | true =>
      cases v with
      | str x =>
        have : x = [] := by simpa [emptyVal] using hv
        subst this; simp [emptyVal]
      | _ => simp [hv]
    | false =>
      obtain ⟨t, rfl⟩ := ht v hg hv
      have : t ≠ [] := by intro h; subst h; simp [emptyVal] at hv
      simp [hv, Value.asStr?, this]

/-- What follows the definition in an object. -/
def objTail (env : Env) (raw : Str) : Prog Unit :=
  match env.jsonParse (trim raw) with
  | none => bifError (c!"Failed to parse JSON: " ++ env.jsonErr (trim raw))
  | some obj0 => do
    let engine := env.lower (((obj0.index c!"engine").asStr?).getD c!"python")
    if engine ≠ c!"python" ∧ engine ≠ c!"php" then bifError c!"only Python and PHP engines are supported"
    else do
      let obj ← parseObjValues obj0
      let s ← getSt
      let file := hashPath s (((obj.index c!"file").asStr?).getD [])
      if !fileExists s file then bifError c!"obj script not found"
      else match env.canon file with
        | .error e => bifError (c!"Failed to canonicalize obj script: " ++ e)
        | .ok canon => do
          let result ← objCall env obj (engine = c!"python") canon
          let s ← getSt
          match objCode env obj result s.b.code with
          | none => .panic .unwrap
          | some code => do
            setCode code
            if contains bifOpen code then do
              let x ← childParse code s.b.modScope
              setOut x
            else setOut code

/-- The state after the definition has been read. -/
def objSt (sh : Shared) (inh : Inherit) (mods src only c q fp : Str) (sh1 : Shared) : St :=
  { start sh inh mods c!"obj" src only with
    sh := sh1, b := { (start sh inh mods c!"obj" src only).b with params := q, filePath := fp, code := c } }

theorem objSt_at (sh : Shared) (inh : Inherit) (mods src only c q fp : Str) (sh1 : Shared) :
    ObjAt (objSt sh inh mods src only c q fp sh1) sh1 (entered sh inh) fp only := ⟨rfl, rfl, rfl, rfl, rfl, rfl⟩

/-- The object up to its definition. -/
theorem runBif_obj (env : Env) (R : Rec) (sh sh1 : Shared) (inh : Inherit) (mods src only p c text fp : Str)
    (hm : Mods mods) (hf : '&' ∉ mods) (hn : '!' ∉ mods) (hmax : sh.count < sh.max)
    (hsel : Selected inh mods c!"obj" only) (hparts : ObjParts src p c)
    (hdef : ObjText R (counted sh) (entered sh inh) p only text fp sh1) :
    ∃ q, runBif env R sh inh (bifText mods c!"obj" src) only =
      bifResult env (run R (objTail env text) (objSt sh inh mods src only c q fp sh1)) := by
  obtain ⟨q, hq⟩ := run_objSource (env := env) (R := R) hdef
    { start sh inh mods c!"obj" src only with
      b := { (start sh inh mods c!"obj" src only).b with params := p, code := c } } ⟨rfl, rfl, rfl, rfl, rfl, rfl⟩ rfl
  refine ⟨q, ?_⟩
  rw [runBif_text env R sh inh mods c!"obj" src only hm named_obj hmax hsel]
  have hbody : bifBody env c!"obj" = bifObj env := rfl
  rw [hbody]
  unfold bifObj
  simp only [run_bind, run_denyMods]
  rw [if_neg (by simp [start, hf, hn])]
  simp only [andThen_ok, run_getSt]
  rw [run_objParts hparts _ rfl]
  simp only [andThen_ok, run_denyFlags]
  rw [if_pos (show List.isEmpty (start sh inh mods c!"obj" src only).b.flags = true from rfl)]
  simp only [andThen_ok]
  exact congrArg (fun r => bifResult env (Res.andThen r _)) hq

theorem textIn_eq (o : Obj) (k d : Str) : (((Value.obj o).index k).asStr?).getD d = textIn o k d := by
  unfold textIn Value.index Value.get?
  dsimp only
  cases Obj.get? k o with
  | none => rfl
  | some v => cases v <;> rfl

theorem pathOf_entered (sh : Shared) (inh : Inherit) (x : Str) : pathOf (entered sh inh) x = pathOf inh x := by
  unfold pathOf; split <;> rfl

/-- The object up to its script. -/
theorem run_objTail {env : Env} {R : Rec} {sh sh1 sh2 : Shared} {inh : Inherit} {mods src only c q text fp : Str}
    {o o' : Obj} {python : Bool}
    (hjson : env.jsonParse (trim text) = some (.obj o))
    (heng : env.lower (textIn o c!"engine" c!"python") = if python then c!"python" else c!"php")
    (hvals : ObjGives R fp only (entered sh inh) false o sh1 o' sh2) :
    run R (objTail env text) (objSt sh inh mods src only c q fp sh1) =
      run R (if (sh2.w.fs (pathOf inh (textIn o' c!"file" []))).isSome = false then bifError c!"obj script not found"
        else match env.canon (pathOf inh (textIn o' c!"file" [])) with
        | .error e => bifError (c!"Failed to canonicalize obj script: " ++ e)
        | .ok canon => do
          let result ← objCall env (.obj o') python canon
          let s ← getSt
          match objCode env (.obj o') result s.b.code with
          | none => .panic .unwrap
          | some code => do
            setCode code
            if contains bifOpen code then do
              let x ← childParse code s.b.modScope
              setOut x
            else setOut code) (objSt sh inh mods src only c q fp sh2) := by
  unfold objTail
  simp only [hjson]
  rw [textIn_eq, heng, if_neg (by cases python <;> decide)]
  simp only [run_bind, parseObjValues, run_bind', run_objEntries _ (objSt_at sh inh mods src only c q fp sh1) hvals]
  simp only [andThen_ok, run_pure', run_getSt, textIn_eq, hashPath_eq]
  have h1 : pathOf (objSt sh inh mods src only c q fp sh2).inh (textIn o' c!"file" []) = pathOf inh (textIn o' c!"file" []) :=
    pathOf_entered sh inh _
  have h2 : decide ((if python then c!"python" else c!"php") = c!"python") = python := by cases python <;> rfl
  have h3 : ∀ f, (!fileExists (objSt sh inh mods src only c q fp sh2) f) = !(sh2.w.fs f).isSome := fun _ => rfl
  change run R (if (!fileExists (objSt sh inh mods src only c q fp sh2)
    (pathOf (objSt sh inh mods src only c q fp sh2).inh (textIn o' c!"file" []))) = true then _ else _) _ = _
  rw [h1, h2, h3]
  cases (sh2.w.fs (pathOf inh (textIn o' c!"file" []))).isSome <;> rfl

/-- **C64.** A well-formed object (definition inline or in a file, engine Python or PHP, script and virtual environment
present): the script is called exactly once, with the parameters of the definition after evaluation of its texts, and
the schema or the data it asks for; an error of the script is an error without output; otherwise the output is the
template and the code, evaluated with the result loaded as local data. -/
theorem C64_call (env : Env) (R : Rec) (sh sh1 sh2 sh3 : Shared) (inh : Inherit) (mods src only p c text fp script : Str)
    (o o' : Obj) (e : FileEntry) (python : Bool) (venv : Option Str)
    (hm : Mods mods) (hf : '&' ∉ mods) (hn : '!' ∉ mods) (hmax : sh.count < sh.max)
    (hsel : Selected inh mods c!"obj" only) (hparts : ObjParts src p c)
    (hdef : ObjText R (counted sh) (entered sh inh) p only text fp sh1)
    (hjson : env.jsonParse (trim text) = some (.obj o))
    (heng : env.lower (textIn o c!"engine" c!"python") = if python then c!"python" else c!"php")
    (hvals : ObjGives R fp only (entered sh inh) false o sh1 o' sh2)
    (hfile : sh2.w.fs (pathOf inh (textIn o' c!"file" [])) = some e)
    (hcan : env.canon (pathOf inh (textIn o' c!"file" [])) = .ok script)
    (hvenv : VenvIs sh2 inh (textIn o' c!"venv"
      (configText sh2 (if python then c!"obj_python_venv" else c!"obj_php_venv") [])) venv)
    (hbridge : Bridged env script sh2 python sh3)
    (htpl : ∀ v, Obj.get? c!"template" o' = some v → emptyVal v = false → ∃ t, v = .str t) :
    runBif env R sh inh (bifText mods c!"obj" src) only =
      match env.execObj sh3.w.tick (callOf sh2 inh o' python script venv) with
      | .error msg => failed env mods c!"obj" (bifText mods c!"obj" src) msg
          { sh3 with w := { sh3.w with tick := sh3.w.tick + 1 } } (entered sh inh)
      | .ok result => shownIn R mods c!"obj" (objShows env o' result c) only fp
          { sh3 with w := { sh3.w with tick := sh3.w.tick + 1 } } (entered sh inh) := by
  obtain ⟨q, hq⟩ := runBif_obj env R sh sh1 inh mods src only p c text fp hm hf hn hmax hsel hparts hdef
  rw [hq, run_objTail hjson heng hvals, if_neg (by rw [hfile]; simp), hcan]
  simp only [run_bind]
  have hv' : VenvIs sh2 (entered sh inh) (textIn o' c!"venv"
      (configText sh2 (if python then c!"obj_python_venv" else c!"obj_php_venv") [])) venv := by
    revert hvenv
    generalize textIn o' c!"venv" (configText sh2 (if python then c!"obj_python_venv" else c!"obj_php_venv") []) = t
    intro h
    cases h with
    | none => exact .none
    | some h1 h2 h3 =>
      rw [← pathOf_entered sh inh]
      exact .some h1 (by rw [pathOf_entered]; exact h2) (by rw [pathOf_entered]; exact h3)
  have hcall : callOf sh2 (entered sh inh) o' python script venv = callOf sh2 inh o' python script venv := by
    unfold callOf
    rw [pathOf_entered]
    rfl
  rw [run_objCall (objSt_at sh inh mods src only c q fp sh2) hv' hbridge, hcall]
  cases env.execObj sh3.w.tick (callOf sh2 inh o' python script venv) with
  | error msg =>
    simp only [andThen_err]
    exact bifResult_failed env mods c!"obj" _ _ _ _ _ rfl rfl rfl rfl rfl rfl
  | ok result =>
    simp only [andThen_ok, run_getSt]
    have hc : objCode env (.obj o') result (objSt sh inh mods src only c q fp sh2).b.code =
        some (objShows env o' result c) := objCode_eq htpl
    simp only [hc]
    simp only [run_bind, run_setCode, andThen_ok, run_ite]
    unfold shownIn
    by_cases hb : contains c!"{:" (objShows env o' result c) = true
    · rw [if_pos hb, run_child_at R _ _ _ rfl hb]
      simp only [objSt]
      change bifResult env (Res.andThen (match nested R (decide ('+' ∈ mods)) { sh3 with w := { sh3.w with tick := sh3.w.tick + 1 } }
        (inFile fp (entered sh inh)) c!"obj" (objShows env o' result c) only with
          | .ok x sh' inh' => _
          | .panic p => _
          | .oof => _) _) = _
      cases nested R (decide ('+' ∈ mods)) { sh3 with w := { sh3.w with tick := sh3.w.tick + 1 } }
        (inFile fp (entered sh inh)) c!"obj" (objShows env o' result c) only <;> rfl
    · rw [if_neg hb]
      unfold nested
      rw [if_neg hb]
      have hi : { inFile fp (entered sh inh) with currentFile := (entered sh inh).currentFile } = entered sh inh := by
        unfold inFile; split <;> rfl
      dsimp only at hi ⊢
      rw [hi]
      rfl

/-- **C64 (bad definition).** A definition that is not JSON, or names an engine that is not supported, is an error: nothing
runs and nothing is shown. -/
theorem C64_invalid (env : Env) (R : Rec) (sh sh1 : Shared) (inh : Inherit) (mods src only p c text fp : Str)
    (hm : Mods mods) (hf : '&' ∉ mods) (hn : '!' ∉ mods) (hmax : sh.count < sh.max)
    (hsel : Selected inh mods c!"obj" only) (hparts : ObjParts src p c)
    (hdef : ObjText R (counted sh) (entered sh inh) p only text fp sh1) :
    (env.jsonParse (trim text) = none →
      runBif env R sh inh (bifText mods c!"obj" src) only = failed env mods c!"obj" (bifText mods c!"obj" src)
        (c!"Failed to parse JSON: " ++ env.jsonErr (trim text)) sh1 (entered sh inh)) ∧
    (∀ o, env.jsonParse (trim text) = some (.obj o) → env.lower (textIn o c!"engine" c!"python") ≠ c!"python" →
      env.lower (textIn o c!"engine" c!"python") ≠ c!"php" →
      runBif env R sh inh (bifText mods c!"obj" src) only = failed env mods c!"obj" (bifText mods c!"obj" src)
        c!"only Python and PHP engines are supported" sh1 (entered sh inh)) := by
  obtain ⟨q, hq⟩ := runBif_obj env R sh sh1 inh mods src only p c text fp hm hf hn hmax hsel hparts hdef
  refine ⟨fun h => ?_, fun o h h1 h2 => ?_⟩
  · rw [hq]
    unfold objTail
    simp only [h, run_bifError]
    exact bifResult_failed env mods c!"obj" _ _ _ _ _ rfl rfl rfl rfl rfl rfl
  · rw [hq]
    unfold objTail
    simp only [h]
    rw [textIn_eq, if_pos ⟨h1, h2⟩, run_bifError]
    exact bifResult_failed env mods c!"obj" _ _ _ _ _ rfl rfl rfl rfl rfl rfl

/-- **C64 (missing script).** A script that does not exist is an error: nothing runs and nothing is shown. -/
theorem C64_missing (env : Env) (R : Rec) (sh sh1 sh2 : Shared) (inh : Inherit) (mods src only p c text fp : Str)
    (o o' : Obj) (python : Bool)
    (hm : Mods mods) (hf : '&' ∉ mods) (hn : '!' ∉ mods) (hmax : sh.count < sh.max)
    (hsel : Selected inh mods c!"obj" only) (hparts : ObjParts src p c)
    (hdef : ObjText R (counted sh) (entered sh inh) p only text fp sh1)
    (hjson : env.jsonParse (trim text) = some (.obj o))
    (heng : env.lower (textIn o c!"engine" c!"python") = if python then c!"python" else c!"php")
    (hvals : ObjGives R fp only (entered sh inh) false o sh1 o' sh2)
    (hfile : sh2.w.fs (pathOf inh (textIn o' c!"file" [])) = none) :
    runBif env R sh inh (bifText mods c!"obj" src) only = failed env mods c!"obj" (bifText mods c!"obj" src)
      c!"obj script not found" sh2 (entered sh inh) := by
  obtain ⟨q, hq⟩ := runBif_obj env R sh sh1 inh mods src only p c text fp hm hf hn hmax hsel hparts hdef
  rw [hq, run_objTail hjson heng hvals, if_pos (by rw [hfile]; rfl), run_bifError]
  exact bifResult_failed env mods c!"obj" _ _ _ _ _ rfl rfl rfl rfl rfl rfl

/-- **C64 (missing definition).** A definition file that does not exist is an error. -/
theorem C64_no_definition (env : Env) (R : Rec) (sh sh1 : Shared) (inh : Inherit) (mods src only p c x : Str)
    (hm : Mods mods) (hf : '&' ∉ mods) (hn : '!' ∉ mods) (hmax : sh.count < sh.max)
    (hsel : Selected inh mods c!"obj" only) (hparts : ObjParts src p c) (h1 : p.head? ≠ some '{' ∨ c!"{:" <+: p)
    (h2 : nested R false (counted sh) (entered sh inh) c!"obj" p only = .ok x sh1 (entered sh inh))
    (h3 : ¬ c!"{:" <:+: x) (h4 : sh1.w.fs (pathOf inh x) = none) :
    runBif env R sh inh (bifText mods c!"obj" src) only = failed env mods c!"obj" (bifText mods c!"obj" src)
      c!"file not found" sh1 (entered sh inh) := by
  rw [runBif_text env R sh inh mods c!"obj" src only hm named_obj hmax hsel]
  have hbody : bifBody env c!"obj" = bifObj env := rfl
  rw [hbody]
  unfold bifObj
  simp only [run_bind, run_denyMods]
  rw [if_neg (by simp [start, hf, hn])]
  simp only [andThen_ok, run_getSt]
  rw [run_objParts hparts _ rfl]
  simp only [andThen_ok, run_denyFlags]
  rw [if_pos (show List.isEmpty (start sh inh mods c!"obj" src only).b.flags = true from rfl)]
  simp only [andThen_ok]
  have hx : contains c!"{:" x = false := (contains_false_iff (by decide)).2 h3
  unfold objSource
  simp only [run_bind, run_getSt, andThen_ok, run_ite]
  rw [if_neg (by rw [objInline_not h1]; decide)]
  have hstart : ∀ s : St, s.sh = counted sh → s.inh = entered sh inh → s.b.params = p → s.b.filePath = [] → s.b.dir = [] →
      s.b.alias = c!"obj" → s.only = only → (if contains bifOpen p = true then
        (run R (childParse p false) s).andThen fun a s' => run R (setParams a) s'
      else run R (Prog.pure ()) s) = .ok () { s with sh := sh1, b := { s.b with params := x } } := by
    intro s e1 e2 e3 e4 e5 e6 e7
    by_cases hc : contains c!"{:" p = true
    · rw [if_pos hc, run_child_nested R _ _ _ e4 e5 hc, e6, e1, e2, e7, h2, ← e2]
      rfl
    · rw [if_neg hc]
      unfold nested at h2
      rw [if_neg hc] at h2
      simp only [PRes.ok.injEq] at h2
      obtain ⟨h7, h8, _⟩ := h2
      rw [run_pure', ← h7, ← h8, ← e1, ← e3]
  rw [hstart _ rfl rfl rfl rfl rfl rfl rfl]
  simp only [andThen_ok, run_setFilePath, run_getSt, run_ite]
  rw [if_neg (by rw [show bifOpen = c!"{:" from rfl, hx]; decide)]
  simp only [run_pure', andThen_ok, run_setFilePath, run_getSt, run_ite, hashPath_eq]
  rw [if_pos (by
    simp only [fileExists]
    rw [show pathOf (start sh inh mods c!"obj" src only).inh x = pathOf inh x from pathOf_entered sh inh x, h4]
    rfl)]
  exact bifResult_failed env mods c!"obj" _ _ _ _ _ rfl rfl rfl rfl rfl rfl

end Nts
