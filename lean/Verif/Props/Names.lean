import Verif.Props.Data
import Verif.Props.Loop
import Verif.Props.Allow
/-
C10: what is set under a name can be read back under that name.
-/
set_option autoImplicit false
namespace Nts
open Spec

/-- `Defines sec k v sh inh sh' inh'`: the block now sees the entry `k` of the section `sec` with the value `v`; the other
entries and sections it sees and the rest of the state are the same. -/
structure Spec.Defines (sec k : Str) (v : Value) (sh : Shared) (inh : Inherit) (sh' : Shared) (inh' : Inherit) : Prop where
  own : Spec.at (visible sh' inh' sec) [k] = some v
  others : ∀ j, j ≠ k → Spec.at (visible sh' inh' sec) [j] = Spec.at (visible sh inh sec) [j]
  sections : ∀ key, key ≠ sec → visible sh' inh' key = visible sh inh key
  shared : sh' = { sh with indir := sh'.indir }
  inherit : inh' = { inh with indir := inh'.indir }

/-- A section of definitions is an object, or there is none. -/
def Spec.Usable (sh : Shared) (inh : Inherit) (sec : Str) : Prop :=
  (∃ o, sh.indir inh.indir = some (.obj o)) ∧ (visible sh inh sec = .null ∨ ∃ o, visible sh inh sec = .obj o)

theorem at_one (v : Value) (k : Str) : Spec.at v [k] = v.get? k ∨ ∀ o, v ≠ .obj o := by
  cases v with
  | obj o =>
    left
    simp only [Spec.at, Value.get?]
    cases Obj.get? k o <;> rfl
  | _ => right; intro o; simp

theorem at_obj (o : Obj) (k : Str) : Spec.at (.obj o) [k] = Obj.get? k o := by
  simp only [Spec.at]
  cases Obj.get? k o <;> rfl

theorem at_null (k : Str) : Spec.at .null [k] = none := rfl

/-- One definition. -/
theorem run_setIndir {R : Rec} {sec k : Str} {v : Value} {s : St} (h : Usable s.sh s.inh sec) :
    ∃ sh', run R (perform (.setIndir sec k v)) s = .ok () { s with sh := sh' } ∧
      Defines sec k v s.sh s.inh sh' s.inh ∧ ∃ o, sh'.indir s.inh.indir = some (.obj o) := by
  obtain ⟨⟨o, ho⟩, hsec⟩ := h
  have hvis : visible s.sh s.inh sec = (Obj.get? sec o).getD .null := by
    unfold visible Shared.getIndir
    rw [ho]; rfl
  obtain ⟨d, hd, hown, hoth⟩ : ∃ d, ((Obj.get? sec o).getD .null).setIndex k v = some (.obj d) ∧ Obj.get? k d = some v ∧
      ∀ j, j ≠ k → Obj.get? j d = Spec.at (visible s.sh s.inh sec) [j] := by
    rw [hvis] at hsec ⊢
    rcases hsec with hn | ⟨o', ho'⟩
    · rw [hn]
      refine ⟨[(k, v)], rfl, by simp [Obj.get?], ?_⟩
      intro j hj
      rw [at_null]
      simp [Obj.get?, hj.symm]
    · rw [ho']
      refine ⟨Obj.insert k v o', rfl, Obj.get?_insert_self .., ?_⟩
      intro j hj
      rw [at_obj, Obj.get?_insert_ne _ _ hj.symm]
  have hmod : s.sh.modIndir s.inh.indir (fun x => x.modIndex sec (fun y => y.setIndex k v)) =
      some { s.sh with
        indir := fun x => if x = s.inh.indir then some (.obj (Obj.insert sec (.obj d) o)) else s.sh.indir x } := by
    unfold Shared.modIndir
    rw [ho]
    simp only [Option.getD_some, Value.modIndex, hd, Option.map_some]
  refine ⟨{ s.sh with
        indir := fun x => if x = s.inh.indir then some (.obj (Obj.insert sec (.obj d) o)) else s.sh.indir x },
    by simp only [perform, run, step, hmod, Option.map_some, oresOpt], ⟨?_, ?_, ?_, rfl, rfl⟩, ?_⟩
  · unfold visible Shared.getIndir
    simp only [if_true, Option.getD_some, Value.index, Value.get?, Obj.get?_insert_self, at_obj, hown]
  · intro j hj
    rw [← hoth j hj]
    unfold visible Shared.getIndir
    simp only [if_true, Option.getD_some, Value.index, Value.get?, Obj.get?_insert_self, at_obj]
  · intro key hk
    unfold visible Shared.getIndir
    rw [ho]
    simp only [if_true, Option.getD_some, Value.index, Value.get?, Obj.get?_insert_ne _ _ hk.symm]
  · exact ⟨Obj.insert sec (.obj d) o, by simp only [if_true]⟩

/-- The block gets its own copy of the definitions it sees. -/
theorem run_createBlock {R : Rec} {s : St} {o : Obj} (ho : s.sh.indir s.inh.indir = some (.obj o)) :
    ∃ sh' inh', run R (perform .createBlockSchema) s = .ok () { s with sh := sh', inh := inh' } ∧
      sh'.indir inh'.indir = some (.obj o) ∧ sh' = { s.sh with indir := sh'.indir } ∧
      inh' = { s.inh with indir := inh'.indir } ∧ ∀ key, visible sh' inh' key = visible s.sh s.inh key := by
  have hv := visible_create s.sh s.inh o ho
  obtain ⟨f, hf⟩ := createBlockSchema_sh s.sh s.inh
  have hi := createBlockSchema_inh s.sh s.inh
  refine ⟨_, _, rfl, hv, ?_, ?_, ?_⟩
  · rw [hf]
  · rw [hi]
  · intro key
    unfold visible Shared.getIndir
    rw [hv, ho]

/-- Own copy, then one definition in it. -/
theorem run_define {R : Rec} {sec k : Str} {v : Value} {s : St} (h : Usable s.sh s.inh sec) :
    ∃ sh' inh', run R (do perform .createBlockSchema; perform (.setIndir sec k v)) s =
        .ok () { s with sh := sh', inh := inh' } ∧ Defines sec k v s.sh s.inh sh' inh' ∧
      ∃ o, sh'.indir inh'.indir = some (.obj o) := by
  obtain ⟨⟨o, ho⟩, hsec⟩ := h
  obtain ⟨sh1, inh1, h1, h2, h3, h4, h5⟩ := run_createBlock (R := R) ho
  obtain ⟨sh2, h6, h7, h8⟩ := run_setIndir (R := R) (k := k) (v := v) (sec := sec) (s := { s with sh := sh1, inh := inh1 })
    ⟨⟨o, h2⟩, by rw [show visible sh1 inh1 sec = _ from h5 sec]; exact hsec⟩
  refine ⟨sh2, inh1, ?_, ⟨h7.own, ?_, ?_, ?_, h4⟩, h8⟩
  · rw [run_bind, h1, andThen_ok, h6]
  · intro j hj
    rw [h7.others j hj, h5]
  · intro key hk
    rw [h7.sections key hk, h5]
  · have := h7.shared
    simp only at this
    rw [this, h3]

/-- The text read under the name `k` in the section `sec`. -/
def Spec.readName (env : Env) (sh : Shared) (inh : Inherit) (sec k : Str) : Str :=
  getFromKey env.f64 (visible sh inh sec) k

/-- A definition is read back, for names without separators. -/
theorem Spec.Defines.read {sec k t : Str} {sh sh' : Shared} {inh inh' : Inherit} (env : Env)
    (h : Defines sec k (.str t) sh inh sh' inh') (hk : Segment k) : readName env sh' inh' sec k = t := by
  have h1 := h.own
  unfold readName getFromKey
  cases hv : visible sh' inh' sec with
  | obj o =>
    rw [hv, at_obj] at h1
    rw [C09_plain o k hk, h1]
    rfl
  | _ => rw [hv] at h1; exact absurd h1 (by simp [Spec.at])

theorem named_param : Named c!"param" := by
  refine ⟨by decide, ?_⟩
  intro c r hc
  injection hc with h1 h2
  subst h1
  decide

theorem named_declare : Named c!"declare" := by
  refine ⟨by decide, ?_⟩
  intro c r hc
  injection hc with h1 h2
  subst h1
  decide

/-! ### parameters -/

theorem run_define_raw {R : Rec} {sec k : Str} {v : Value} {s : St} {sh' : Shared} {inh' : Inherit}
    (hi : inh' = (createBlockSchema s.sh s.inh).2)
    (h : (createBlockSchema s.sh s.inh).1.modIndir inh'.indir (fun x => x.modIndex sec (fun y => y.setIndex k v)) = some sh') :
    run R (do perform .createBlockSchema; perform (.setIndir sec k v)) s = .ok () { s with sh := sh', inh := inh' } := by
  subst hi
  have hc : run R (perform .createBlockSchema) s =
      .ok () { s with sh := (createBlockSchema s.sh s.inh).1, inh := (createBlockSchema s.sh s.inh).2 } := rfl
  rw [run_bind, hc, andThen_ok]
  simp only [perform, run, step, h, Option.map_some, oresOpt]

theorem run_define_inv {R : Rec} {sec k : Str} {v : Value} {s : St} {sh' : Shared} {inh' : Inherit}
    (h : run R (do perform .createBlockSchema; perform (.setIndir sec k v)) s = .ok () { s with sh := sh', inh := inh' }) :
    inh' = (createBlockSchema s.sh s.inh).2 ∧
    (createBlockSchema s.sh s.inh).1.modIndir inh'.indir (fun x => x.modIndex sec (fun y => y.setIndex k v)) = some sh' := by
  have hc : run R (perform .createBlockSchema) s =
      .ok () { s with sh := (createBlockSchema s.sh s.inh).1, inh := (createBlockSchema s.sh s.inh).2 } := rfl
  rw [run_bind, hc, andThen_ok] at h
  simp only [perform, run, step] at h
  cases hm : (createBlockSchema s.sh s.inh).1.modIndir (createBlockSchema s.sh s.inh).2.indir
    (fun x => x.modIndex sec (fun y => y.setIndex k v)) with
  | none => rw [hm] at h; exact absurd h (by simp [oresOpt])
  | some x =>
    rw [hm] at h
    simp only [Option.map_some, oresOpt, Res.ok.injEq, true_and] at h
    have h1 := congrArg St.sh h
    have h2 := congrArg St.inh h
    simp only at h1 h2
    refine ⟨h2.symm, ?_⟩
    rw [← h2, hm, h1]

/-- `{:param; name >> code :}` in a `code` block: one definition, in the state after the code. -/
theorem param_set_exact (env : Env) (R : Rec) (sh sh1 sh2 sh3 : Shared) (inh inh1 inh2 inh3 : Inherit) (mods src only p c k t : Str)
    (hm : Mods mods) (hf : '&' ∉ mods) (hneg : '!' ∉ mods) (hsc : '+' ∉ mods) (hmax : sh.count < sh.max)
    (hsel : Selected inh mods c!"param" only) (hparts : Parts src (some p) c)
    (hk : evalParams R (counted sh) (entered sh inh) c!"param" p only = .ok k sh1 inh1) (hflags : flagsOf sh1 p = [])
    (hin : inh1.alias = c!"code")
    (ht : nested R false sh1 inh1 c!"param" c only = .ok t sh2 inh2)
    (hinh : inh3 = (createBlockSchema sh2 inh2).2)
    (hdef : (createBlockSchema sh2 inh2).1.modIndir inh3.indir (fun x => x.modIndex c!"params" (fun y => y.setIndex k (.str t))) = some sh3) :
    runBif env R sh inh (bifText mods c!"param" src) only = finish (decide ('^' ∈ mods)) [] sh3 inh3 := by
  have h1 := run_define_raw (R := R) (sec := c!"params") (s := { start sh inh mods c!"param" src only with
        sh := sh2, inh := inh2,
        b := { (start sh inh mods c!"param" src only).b with params := k, code := t, flags := flagsOf sh1 p } }) hinh hdef
  rw [runBif_text env R sh inh mods c!"param" src only hm named_param hmax hsel]
  have hbody : bifBody env c!"param" = bifParam env := rfl
  rw [hbody]
  unfold bifParam
  simp only [run_bind, run_denyMods]
  rw [if_neg (by simp [start, hf, hneg, hsc])]
  simp only [andThen_ok]
  rw [run_extract R hparts _ rfl rfl rfl rfl]
  change bifResult env (Res.andThen (match evalParams R (counted sh) (entered sh inh) c!"param" p only with
    | .ok x sh' inh' => _
    | .panic p => _
    | .oof => _) _) = _
  rw [hk]
  simp only [andThen_ok, run_denyFlags, Option.getD_some, Option.isSome_some]
  rw [if_pos (by rw [hflags]; rfl)]
  simp only [andThen_ok, run_getSt, run_ite, if_true]
  rw [if_pos hin]
  simp only [run_bind]
  rw [run_parseCode_nested R _ _ rfl rfl]
  change bifResult env (Res.andThen (match nested R false sh1 inh1 c!"param" c only with
    | .ok x sh' inh' => _
    | .panic p => _
    | .oof => _) _) = _
  rw [ht]
  simp only [andThen_ok, run_getSt]
  rw [run_bind] at h1
  obtain ⟨_, s1, h4, h5⟩ := andThen_eq_ok h1
  rw [h4]
  simp only [andThen_ok]
  have hs1 : s1.b.params = k ∧ s1.b.code = t := by
    have h6 : run R (perform .createBlockSchema) ({ start sh inh mods c!"param" src only with
        sh := sh2, inh := inh2,
        b := { (start sh inh mods c!"param" src only).b with params := k, code := t, flags := flagsOf sh1 p } } : St) =
        .ok () _ := rfl
    rw [h6] at h4
    injection h4 with _ h4
    subst h4
    exact ⟨rfl, rfl⟩
  rw [hs1.1, hs1.2, h5]
  rfl

/-- `{:param; name >> code :}` in a `code` block: the parameter gets the evaluated code. -/
theorem C10_param_set (env : Env) (R : Rec) (sh sh1 sh2 : Shared) (inh inh1 inh2 : Inherit) (mods src only p c k t : Str)
    (hm : Mods mods) (hf : '&' ∉ mods) (hneg : '!' ∉ mods) (hsc : '+' ∉ mods) (hmax : sh.count < sh.max)
    (hsel : Selected inh mods c!"param" only) (hparts : Parts src (some p) c)
    (hk : evalParams R (counted sh) (entered sh inh) c!"param" p only = .ok k sh1 inh1) (hflags : flagsOf sh1 p = [])
    (hin : inh1.alias = c!"code")
    (ht : nested R false sh1 inh1 c!"param" c only = .ok t sh2 inh2) (hu : Usable sh2 inh2 c!"params") :
    ∃ sh3 inh3, runBif env R sh inh (bifText mods c!"param" src) only = finish (decide ('^' ∈ mods)) [] sh3 inh3 ∧
      Defines c!"params" k (.str t) sh2 inh2 sh3 inh3 := by
  obtain ⟨sh3, inh3, h1, h2, h3⟩ := run_define (R := R) (sec := c!"params") (k := k) (v := .str t)
    (s := { start sh inh mods c!"param" src only with
        sh := sh2, inh := inh2,
        b := { (start sh inh mods c!"param" src only).b with params := k, code := t, flags := flagsOf sh1 p } }) hu
  have e := run_define_inv h1
  exact ⟨sh3, inh3, param_set_exact env R sh sh1 sh2 sh3 inh inh1 inh2 inh3 mods src only p c k t hm hf hneg hsc hmax hsel hparts hk hflags
    hin ht e.1 e.2, h2⟩

/-- `{:param; name :}` shows the parameter. -/
theorem C10_param_get (env : Env) (R : Rec) (sh sh1 : Shared) (inh inh1 : Inherit) (mods src only c k : Str)
    (hm : Mods mods) (hf : '&' ∉ mods) (hneg : '!' ∉ mods) (hsc : '+' ∉ mods) (hmax : sh.count < sh.max)
    (hsel : Selected inh mods c!"param" only) (hparts : Parts src none c)
    (hk : nested R false (counted sh) (entered sh inh) c!"param" c only = .ok k sh1 inh1) :
    runBif env R sh inh (bifText mods c!"param" src) only =
      finish (decide ('^' ∈ mods)) (readName env sh1 inh1 c!"params" k) sh1 inh1 := by
  rw [runBif_text env R sh inh mods c!"param" src only hm named_param hmax hsel]
  have hbody : bifBody env c!"param" = bifParam env := rfl
  rw [hbody]
  unfold bifParam
  simp only [run_bind, run_denyMods]
  rw [if_neg (by simp [start, hf, hneg, hsc])]
  simp only [andThen_ok]
  rw [run_extract_plain R true hparts _ rfl (fun _ => by decide)]
  simp only [andThen_ok, run_denyFlags, Option.isSome_none]
  rw [if_pos (by rfl)]
  simp only [andThen_ok, run_getSt, run_ite, Bool.false_eq_true, if_false]
  simp only [run_bind]
  rw [run_parseCode_nested R _ _ rfl rfl]
  change bifResult env (Res.andThen (match nested R false (counted sh) (entered sh inh) c!"param" c only with
    | .ok x sh' inh' => _
    | .panic p => _
    | .oof => _) _) = _
  rw [hk]
  simp only [andThen_ok, run_getSt, run_setCode]
  rfl

/-- **C10 (parameters, partial).** A parameter set in a `code` block and read right after it in the same block shows the
text it was set to.  Missing: names with separators, see `C10_refuted`. -/
theorem C10_param_partial (env : Env) (R : Rec) (sh sh1 sh2 : Shared) (inh inh1 inh2 : Inherit)
    (mods src only p c k t : Str) (mods' src' : Str)
    (hm : Mods mods) (hf : '&' ∉ mods) (hneg : '!' ∉ mods) (hsc : '+' ∉ mods) (hmax : sh.count < sh.max)
    (hsel : Selected inh mods c!"param" only) (hparts : Parts src (some p) c)
    (hk : evalParams R (counted sh) (entered sh inh) c!"param" p only = .ok k sh1 inh1) (hflags : flagsOf sh1 p = [])
    (hin : inh1.alias = c!"code")
    (ht : nested R false sh1 inh1 c!"param" c only = .ok t sh2 inh2) (hu : Usable sh2 inh2 c!"params")
    (hseg : Segment k)
    (hm' : Mods mods') (hf' : '&' ∉ mods') (hneg' : '!' ∉ mods') (hsc' : '+' ∉ mods') (hmax' : sh2.count < sh2.max)
    (hparts' : Parts src' none k) (hplain : ¬ c!"{:" <:+: k) :
    ∃ sh3 inh3, runBif env R sh inh (bifText mods c!"param" src) only = finish (decide ('^' ∈ mods)) [] sh3 inh3 ∧
      ∀ inh4, inh4 = { inh3 with lastBifOut := inh4.lastBifOut, lastCoalesceOut := inh4.lastCoalesceOut } →
        Selected inh4 mods' c!"param" only →
        runBif env R sh3 inh4 (bifText mods' c!"param" src') only =
          finish (decide ('^' ∈ mods')) t (counted sh3) (entered sh3 inh4) := by
  obtain ⟨sh3, inh3, h1, h2⟩ := C10_param_set env R sh sh1 sh2 inh inh1 inh2 mods src only p c k t hm hf hneg hsc hmax hsel
    hparts hk hflags hin ht hu
  refine ⟨sh3, inh3, h1, ?_⟩
  intro inh4 h4 hsel'
  have hcount : sh3.count < sh3.max := by rw [h2.shared]; exact hmax'
  rw [C10_param_get env R sh3 (counted sh3) inh4 (entered sh3 inh4) mods' src' only k k hm' hf' hneg' hsc' hcount hsel'
    hparts' (nested_plain hplain)]
  have : readName env (counted sh3) (entered sh3 inh4) c!"params" k = t := by
    have := h2.read env hseg
    rw [← this]
    unfold readName visible entered counted
    rw [h4]
    rfl
  rw [this]

/-! ### declarations -/

/-- **C10 (declarations).** `{:declare; name >> words :}` in a snippet file: the declaration has the evaluated words; they
are what `allow` uses (`C13_allow`), for names without separators. -/
theorem C10_declare_partial (env : Env) (R : Rec) (sh sh1 sh2 : Shared) (inh inh1 inh2 : Inherit)
    (mods src only p c k t : Str)
    (hm : Mods mods) (hf : '&' ∉ mods) (hneg : '!' ∉ mods) (hsc : '+' ∉ mods) (hmax : sh.count < sh.max)
    (hsel : Selected inh mods c!"declare" only) (hparts : Parts src (some p) c)
    (hk : evalParams R (counted sh) (entered sh inh) c!"declare" p only = .ok k sh1 inh1) (hflags : flagsOf sh1 p = [])
    (hin : c!"snippet" <:+: inh1.currentFile)
    (ht : nested R false (createBlockSchema sh1 inh1).1 (createBlockSchema sh1 inh1).2 c!"declare" c only = .ok t sh2 inh2)
    (hu : Usable sh2 inh2 c!"declare") :
    ∃ sh3, runBif env R sh inh (bifText mods c!"declare" src) only = finish (decide ('^' ∈ mods)) [] sh3 inh2 ∧
      Defines c!"declare" k (.str (if contains c!"{:" c then replaceAll unprintable [] t else t)) sh2 inh2 sh3 inh2 ∧
      (Segment k → ∀ s : St, s.sh = sh3 → s.inh.indir = inh2.indir → declaredWords env s k =
        splitWhitespace (if contains c!"{:" c then replaceAll unprintable [] t else t)) := by
  obtain ⟨sh3, h1, h2, h3⟩ := run_setIndir (R := R) (sec := c!"declare") (k := k)
    (v := .str (if contains c!"{:" c then replaceAll unprintable [] t else t))
    (s := { start sh inh mods c!"declare" src only with
        sh := sh2, inh := inh2,
        b := { (start sh inh mods c!"declare" src only).b with
          params := k, code := (if contains c!"{:" c then replaceAll unprintable [] t else t), flags := flagsOf sh1 p } }) hu
  refine ⟨sh3, ?_, h2, ?_⟩
  · rw [runBif_text env R sh inh mods c!"declare" src only hm named_declare hmax hsel]
    have hbody : bifBody env c!"declare" = bifDeclare := rfl
    rw [hbody]
    unfold bifDeclare
    simp only [run_bind, run_denyMods]
    rw [if_neg (by simp [start, hf, hneg, hsc])]
    simp only [andThen_ok]
    rw [run_extract R hparts _ rfl rfl rfl rfl]
    change bifResult env (Res.andThen (match evalParams R (counted sh) (entered sh inh) c!"declare" p only with
      | .ok x sh' inh' => _
      | .panic p => _
      | .oof => _) _) = _
    rw [hk]
    simp only [andThen_ok, run_denyFlags, Option.getD_some]
    rw [if_pos (by rw [hflags]; rfl)]
    simp only [andThen_ok, run_getSt, run_ite]
    rw [if_pos ((contains_iff (by decide)).2 hin)]
    simp only [run_bind]
    have hcr : ∀ s : St, run R (perform .createBlockSchema) s = .ok ()
        { s with sh := (createBlockSchema s.sh s.inh).1, inh := (createBlockSchema s.sh s.inh).2 } := fun _ => rfl
    rw [hcr]
    simp only [andThen_ok, run_ite]
    by_cases hc : contains c!"{:" c = true
    · rw [if_pos hc] at h1
      rw [show contains bifOpen c = true from hc, if_pos rfl]
      simp only [run_bind]
      rw [run_child_nested R _ _ _ rfl rfl hc]
      change bifResult env (Res.andThen (Res.andThen (match nested R false (createBlockSchema sh1 inh1).1 (createBlockSchema sh1 inh1).2 c!"declare" c only with
        | .ok x sh' inh' => _
        | .panic p => _
        | .oof => _) _) _) = _
      rw [ht]
      simp only [andThen_ok, run_setCode, run_getSt]
      rw [h1]
      rfl
    · rw [if_neg hc] at h1
      rw [show contains bifOpen c = false from by simpa using hc, if_neg (by simp)]
      simp only [run_pure', andThen_ok, run_getSt]
      have hpl : ¬ c!"{:" <:+: c := (contains_false_iff (by decide)).1 (by simpa using hc)
      rw [nested_plain hpl] at ht
      injection ht with ht1 ht2 ht3
      subst ht1 ht2 ht3
      rw [h1]
      rfl
  · intro hseg s hs hi
    have := h2.read env hseg
    unfold declaredWords
    rw [← this]
    unfold readName visible
    rw [hs, hi]

/-! ### snippets -/

/-- The two names of the BIF. -/
def Spec.SnippetName (nm : Str) : Prop := nm = c!"snippet" ∨ nm = c!"snip"

theorem named_snippet {nm : Str} (h : SnippetName nm) : Named nm := by
  rcases h with rfl | rfl
  · refine ⟨by decide, ?_⟩
    intro c r hc
    injection hc with h1 h2
    subst h1
    decide
  · refine ⟨by decide, ?_⟩
    intro c r hc
    injection hc with h1 h2
    subst h1
    decide

theorem body_snippet (env : Env) {nm : Str} (h : SnippetName nm) : bifBody env nm = bifSnippet env := by
  rcases h with rfl | rfl <;> rfl

/-- `{:snippet; name >> code :}` in a snippet file or in a snippet, without the flag `static`: the snippet gets the code, as
it is written, and the directory of the file. -/
theorem C10_snippet_set (env : Env) (R : Rec) (sh sh1 : Shared) (inh inh1 : Inherit) (nm mods src only p c k : Str)
    (hnm : SnippetName nm) (hm : Mods mods) (hf : '&' ∉ mods) (hneg : '!' ∉ mods) (hsc : '+' ∉ mods)
    (hmax : sh.count < sh.max) (hsel : Selected inh mods nm only) (hparts : Parts src (some p) c)
    (hk : evalParams R (counted sh) (entered sh inh) c!"snippet" p only = .ok k sh1 inh1)
    (hflags : FlagsIn (flagsOf sh1 p) [c!"static"]) (hst : ¬ Flag (flagsOf sh1 p) c!"static")
    (hin : c!"snippet" <:+: inh1.currentFile ∨ inh1.alias = c!"snippet")
    (hu : Usable sh1 inh1 c!"snippets") (hu' : Usable sh1 inh1 c!"snippets_set_dir") :
    ∃ sh2 sh3 inh3, runBif env R sh inh (bifText mods nm src) only = finish (decide ('^' ∈ mods)) [] sh3 inh3 ∧
      Defines c!"snippets" k (.str c) sh1 inh1 sh2 inh3 ∧
      Defines c!"snippets_set_dir" k (.str inh1.currentDir) sh2 inh3 sh3 inh3 := by
  obtain ⟨sh2, inh3, h1, h2, h3⟩ := run_define (R := R) (sec := c!"snippets") (k := k) (v := .str c)
    (s := { start sh inh mods nm src only with
        sh := sh1, inh := inh1,
        b := { (start sh inh mods nm src only).b with
          alias := c!"snippet", params := k, code := c, flags := flagsOf sh1 p } }) hu
  obtain ⟨sh3, h4, h5, h6⟩ := run_setIndir (R := R) (sec := c!"snippets_set_dir") (k := k) (v := .str inh1.currentDir)
    (s := { start sh inh mods nm src only with
        sh := sh2, inh := inh3,
        b := { (start sh inh mods nm src only).b with
          alias := c!"snippet", params := k, code := c, flags := flagsOf sh1 p } })
    ⟨h3, by
      have := h2.sections c!"snippets_set_dir" (by decide)
      simp only at this ⊢
      rw [this]; exact hu'.2⟩
  refine ⟨sh2, sh3, inh3, ?_, h2, h5⟩
  rw [runBif_text env R sh inh mods nm src only hm (named_snippet hnm) hmax hsel, body_snippet env hnm]
  unfold bifSnippet
  simp only [run_bind, run_denyMods]
  rw [if_neg (by simp [start, hf, hneg, hsc])]
  have hal : ∀ s : St, run R (setAlias c!"snippet") s = .ok () { s with b := { s.b with alias := c!"snippet" } } := fun _ => rfl
  simp only [andThen_ok]
  rw [hal]
  simp only [andThen_ok]
  rw [run_extract R hparts _ rfl rfl rfl rfl]
  change bifResult env (Res.andThen (match evalParams R (counted sh) (entered sh inh) c!"snippet" p only with
    | .ok x sh' inh' => _
    | .panic p => _
    | .oof => _) _) = _
  rw [hk]
  simp only [andThen_ok, run_checkFlags, Option.getD_some, Option.isSome_some]
  rw [badFlag_none hflags]
  simp only [andThen_ok, run_getSt, run_ite, if_true]
  rw [if_pos (by
    rw [Bool.or_eq_true, contains_iff (by decide)]
    simpa using hin)]
  simp only [run_bind, run_ite]
  have hfl : ∀ b : BifS, b.flags = flagsOf sh1 p → hasFlag b c!"static" = false := by
    intro b hb; rw [← Bool.not_eq_true, hasFlag_iff, hb]; exact hst
  rw [hfl _ rfl]
  simp only [Bool.false_eq_true, if_false]
  rw [run_bind] at h1
  obtain ⟨_, s1, h7, h8⟩ := andThen_eq_ok h1
  have hs1 : s1.b.params = k ∧ s1.b.code = c ∧ s1.inh.currentDir = inh1.currentDir := by
    have h9 : run R (perform .createBlockSchema) ({ start sh inh mods nm src only with
        sh := sh1, inh := inh1,
        b := { (start sh inh mods nm src only).b with
          alias := c!"snippet", params := k, code := c, flags := flagsOf sh1 p } } : St) =
        .ok () _ := rfl
    rw [h9] at h7
    injection h7 with _ h7
    subst h7
    refine ⟨rfl, rfl, ?_⟩
    rw [createBlockSchema_inh]
  rw [h7]
  simp only [andThen_ok, run_getSt]
  rw [hs1.1, hs1.2.1, h8]
  simp only [andThen_ok]
  rw [hs1.2.2, h4]
  rfl

/-- Where a snippet is evaluated: in the directory of the file that set it, if it contains BIFs. -/
def Spec.snippetPlace (env : Env) (sh : Shared) (inh : Inherit) (k : Str) : Inherit :=
  if contains c!"{:" (readName env sh inh c!"snippets" k) = true ∧ readName env sh inh c!"snippets_set_dir" k ≠ [] then
    { inh with currentDir := readName env sh inh c!"snippets_set_dir" k }
  else inh

/-- `{:snippet; name :}` shows what the text of the snippet evaluates to. -/
theorem C10_snippet_play (env : Env) (R : Rec) (sh sh1 : Shared) (inh inh1 : Inherit) (nm mods src only c k : Str)
    (hnm : SnippetName nm) (hm : Mods mods) (hf : '&' ∉ mods) (hneg : '!' ∉ mods) (hsc : '+' ∉ mods)
    (hmax : sh.count < sh.max) (hsel : Selected inh mods nm only) (hparts : Parts src none c)
    (hk : nested R false (counted sh) (entered sh inh) c!"snippet" c only = .ok k sh1 inh1) :
    runBif env R sh inh (bifText mods nm src) only =
      match nested R (contains c!"{:snip" (readName env sh1 inh1 c!"snippets" k)) sh1 (snippetPlace env sh1 inh1 k)
          c!"snippet" (readName env sh1 inh1 c!"snippets" k) only with
      | .ok x sh' inh' => finish (decide ('^' ∈ mods)) x sh' inh'
      | .panic p => .panic p
      | .oof => .oof := by
  rw [runBif_text env R sh inh mods nm src only hm (named_snippet hnm) hmax hsel, body_snippet env hnm]
  unfold bifSnippet
  simp only [run_bind, run_denyMods]
  rw [if_neg (by simp [start, hf, hneg, hsc])]
  have hal : ∀ s : St, run R (setAlias c!"snippet") s = .ok () { s with b := { s.b with alias := c!"snippet" } } := fun _ => rfl
  simp only [andThen_ok]
  rw [hal]
  simp only [andThen_ok]
  rw [run_extract_plain R true hparts _ rfl (fun _ => by decide)]
  simp only [andThen_ok, run_checkFlags, Option.isSome_none]
  have hbf : badFlag (start sh inh mods nm src only).b.flags [c!"static"] = none := rfl
  rw [hbf]
  simp only [andThen_ok, run_getSt, run_ite, Bool.false_eq_true, if_false]
  simp only [run_bind]
  rw [run_parseCode_nested R _ _ rfl rfl]
  change bifResult env (Res.andThen (match nested R false (counted sh) (entered sh inh) c!"snippet" c only with
    | .ok x sh' inh' => _
    | .panic p => _
    | .oof => _) _) = _
  rw [hk]
  simp only [andThen_ok, run_getSt, run_setCode, run_ite]
  by_cases hc : contains c!"{:" (readName env sh1 inh1 c!"snippets" k) = true
  · rw [if_pos (show contains bifOpen (getFromKey env.f64 ((sh1.getIndir inh1.indir).index c!"snippets") k) = true from hc)]
    simp only [run_bind, run_ite, run_pure']
    by_cases hd : readName env sh1 inh1 c!"snippets_set_dir" k = []
    · rw [if_pos (show (getFromKey env.f64 ((sh1.getIndir inh1.indir).index c!"snippets_set_dir") k).isEmpty = true from by
        rw [List.isEmpty_iff]; exact hd)]
      simp only [andThen_ok]
      rw [run_child_nested R _ _ _ rfl rfl (show contains c!"{:" (getFromKey env.f64 ((sh1.getIndir inh1.indir).index c!"snippets") k) = true from hc)]
      have hp : snippetPlace env sh1 inh1 k = inh1 := by unfold snippetPlace; rw [if_neg (fun h => h.2 hd)]
      rw [hp]
      change bifResult env (Res.andThen (Res.andThen (match nested R (contains c!"{:snip" (readName env sh1 inh1 c!"snippets" k)) sh1 inh1 c!"snippet" (readName env sh1 inh1 c!"snippets" k) only with
        | .ok x sh' inh' => _
        | .panic p => _
        | .oof => _) _) _) = _
      cases nested R (contains c!"{:snip" (readName env sh1 inh1 c!"snippets" k)) sh1 inh1 c!"snippet" (readName env sh1 inh1 c!"snippets" k) only <;> rfl
    · rw [if_neg (show ¬ (getFromKey env.f64 ((sh1.getIndir inh1.indir).index c!"snippets_set_dir") k).isEmpty = true from by
        rw [List.isEmpty_iff]; exact hd)]
      have hcd : ∀ (s : St) (d : Str), run R (perform (.setCurrentDir d)) s = .ok () { s with inh := { s.inh with currentDir := d } } :=
        fun _ _ => rfl
      rw [hcd]
      simp only [andThen_ok]
      rw [run_child_nested R _ _ _ rfl rfl (show contains c!"{:" (getFromKey env.f64 ((sh1.getIndir inh1.indir).index c!"snippets") k) = true from hc)]
      have hp : snippetPlace env sh1 inh1 k = { inh1 with currentDir := readName env sh1 inh1 c!"snippets_set_dir" k } := by
        unfold snippetPlace; rw [if_pos ⟨hc, hd⟩]
      rw [hp]
      change bifResult env (Res.andThen (Res.andThen (match nested R (contains c!"{:snip" (readName env sh1 inh1 c!"snippets" k)) sh1
          { inh1 with currentDir := readName env sh1 inh1 c!"snippets_set_dir" k } c!"snippet" (readName env sh1 inh1 c!"snippets" k) only with
        | .ok x sh' inh' => _
        | .panic p => _
        | .oof => _) _) _) = _
      cases nested R (contains c!"{:snip" (readName env sh1 inh1 c!"snippets" k)) sh1
        { inh1 with currentDir := readName env sh1 inh1 c!"snippets_set_dir" k } c!"snippet" (readName env sh1 inh1 c!"snippets" k) only <;> rfl
  · rw [if_neg (show ¬ contains bifOpen (getFromKey env.f64 ((sh1.getIndir inh1.indir).index c!"snippets") k) = true from hc)]
    have hp : snippetPlace env sh1 inh1 k = inh1 := by unfold snippetPlace; rw [if_neg (fun h => hc h.1)]
    rw [hp, nested_plain ((contains_false_iff (by decide)).1 (by simpa using hc))]
    simp only [run_pure', andThen_ok]
    rfl

/-- **C10 (snippets, partial).** After a snippet is set, playing it in the same block evaluates the code it was set to, in
the directory of the file that set it.  Missing: names with separators, see `C10_refuted`. -/
theorem C10_snippet_partial (env : Env) (R : Rec) (sh sh1 : Shared) (inh inh1 : Inherit) (nm mods src only p c k : Str)
    (nm' mods' src' : Str)
    (hnm : SnippetName nm) (hm : Mods mods) (hf : '&' ∉ mods) (hneg : '!' ∉ mods) (hsc : '+' ∉ mods)
    (hmax : sh.count < sh.max) (hsel : Selected inh mods nm only) (hparts : Parts src (some p) c)
    (hk : evalParams R (counted sh) (entered sh inh) c!"snippet" p only = .ok k sh1 inh1)
    (hflags : FlagsIn (flagsOf sh1 p) [c!"static"]) (hst : ¬ Flag (flagsOf sh1 p) c!"static")
    (hin : c!"snippet" <:+: inh1.currentFile ∨ inh1.alias = c!"snippet")
    (hu : Usable sh1 inh1 c!"snippets") (hu' : Usable sh1 inh1 c!"snippets_set_dir") (hseg : Segment k)
    (hnm' : SnippetName nm') (hm' : Mods mods') (hf' : '&' ∉ mods') (hneg' : '!' ∉ mods') (hsc' : '+' ∉ mods')
    (hmax' : sh1.count < sh1.max) (hparts' : Parts src' none k) (hplain : ¬ c!"{:" <:+: k) :
    ∃ sh3 inh3, runBif env R sh inh (bifText mods nm src) only = finish (decide ('^' ∈ mods)) [] sh3 inh3 ∧
      ∀ inh4, inh4 = { inh3 with lastBifOut := inh4.lastBifOut, lastCoalesceOut := inh4.lastCoalesceOut } →
        Selected inh4 mods' nm' only →
        runBif env R sh3 inh4 (bifText mods' nm' src') only =
          match nested R (contains c!"{:snip" c) (counted sh3)
              (if contains c!"{:" c = true ∧ inh1.currentDir ≠ [] then
                { entered sh3 inh4 with currentDir := inh1.currentDir } else entered sh3 inh4)
              c!"snippet" c only with
          | .ok x sh' inh' => finish (decide ('^' ∈ mods')) x sh' inh'
          | .panic p => .panic p
          | .oof => .oof := by
  obtain ⟨sh2, sh3, inh3, h1, h2, h3⟩ := C10_snippet_set env R sh sh1 inh inh1 nm mods src only p c k hnm hm hf hneg hsc hmax hsel
    hparts hk hflags hst hin hu hu'
  refine ⟨sh3, inh3, h1, ?_⟩
  intro inh4 h4 hsel'
  have hcount : sh3.count < sh3.max := by rw [h3.shared, h2.shared]; exact hmax'
  rw [C10_snippet_play env R sh3 (counted sh3) inh4 (entered sh3 inh4) nm' mods' src' only k k hnm' hm' hf' hneg' hsc' hcount hsel'
    hparts' (nested_plain hplain)]
  have hr1 : readName env (counted sh3) (entered sh3 inh4) c!"snippets" k = c := by
    have := h2.read env hseg
    rw [← this]
    unfold readName
    have h5 := h3.sections c!"snippets" (by decide)
    rw [← h5]
    unfold visible entered counted
    rw [h4]
    rfl
  have hr2 : readName env (counted sh3) (entered sh3 inh4) c!"snippets_set_dir" k = inh1.currentDir := by
    have := h3.read env hseg
    rw [← this]
    unfold readName visible entered counted
    rw [h4]
    rfl
  unfold snippetPlace
  rw [hr1, hr2]

/-! ### samples -/

/-- Render a file whose name makes it a snippet file. -/
def Sample.goSnippets (text src : Str) : RRes :=
  (Sample.tpl (Sample.schema 1000 [(c!"x", .str c!"X")] Sample.inherit) src).render Sample.env 10
    ⟨fun p => if p = c!"snippets.ntpl" then some (Sample.file text) else none, 0⟩

set_option maxRecDepth 10000 in
example :
    Sample.outOf (Sample.go [] c!"{:code; {:param; a >> A{:code; b :} :}[{:param; a :}] :}") = some (c!"[Ab]", c!"200") ∧
    Sample.outOf (Sample.goSnippets c!"{:snippet; s >> <{:;x:}> :}" c!"{:include; snippets.ntpl :}{:snippet; s :}") =
      some (c!"<X>", c!"200") ∧
    Sample.outOf (Sample.goSnippets c!"{:declare; w >> one two :}" c!"{:include; snippets.ntpl :}{:allow; w >> two :}{:allow; w >> three :}") =
      some (c!"two", c!"200") := by
  decide +kernel

set_option maxRecDepth 10000 in
/-- **C10 is false for names with separators**: they can be set but not read back. -/
theorem C10_refuted :
    Sample.outOf (Sample.go [] c!"{:code; {:param; a/b >> A :}[{:param; a/b :}] :}") = some (c!"[]", c!"200") ∧
    Sample.outOf (Sample.goSnippets c!"{:snippet; s->t >> <{:;x:}> :}" c!"{:include; snippets.ntpl :}[{:snippet; s->t :}]") =
      some (c!"[]", c!"200") ∧
    Sample.outOf (Sample.goSnippets c!"{:declare; w/v >> one two :}" c!"{:include; snippets.ntpl :}[{:allow; w/v >> two :}]") =
      some (c!"[]", c!"200") := by
  decide +kernel

end Nts
