import Verif.Props.Include
import Verif.Props.Merge
import Verif.Props.Scope
/-
C54: loading local data and translations.
-/
set_option autoImplicit false
namespace Nts
open Spec

/-- The path `p` is not mentioned by `v`, and nothing on the way to it is replaced by something that is not an object. -/
def Spec.Unmentioned (v : Value) (p : List Str) : Prop :=
  Spec.at v p = none ∧ ∀ q, q <+: p → ∀ w, Spec.at v q = some w → IsObj w

/-- `Loaded sec new sh inh sh' inh'`: the section `sec` seen by the block has been merged with `new`: what `new` does not
mention keeps its value, what it mentions has the value of `new`; the other sections and the rest of the state are the
same. -/
structure Spec.Loaded (sec : Str) (new : Value) (sh : Shared) (inh : Inherit) (sh' : Shared) (inh' : Inherit) : Prop where
  keeps : ∀ p, Unmentioned new p → Spec.at (visible sh' inh' sec) p = Spec.at (visible sh inh sec) p
  takes : ∀ p w, Spec.at new p = some w → ¬ IsObj w → Spec.at (visible sh' inh' sec) p = some w
  others : ∀ key, key ≠ sec → visible sh' inh' key = visible sh inh key
  rest : sh' = { sh with indir := sh'.indir }

/-- What a block sees is the same after it gets its own copy of the definitions. -/
theorem visible_create (sh : Shared) (inh : Inherit) (o : Obj) (h : sh.indir inh.indir = some (.obj o)) :
    (createBlockSchema sh inh).1.indir (createBlockSchema sh inh).2.indir = some (.obj o) := by
  unfold createBlockSchema
  dsimp only
  generalize hb : (if inh.blockCount < 1 then c!"block_1" else blockId inh.blockCount) = b
  by_cases hne : inh.indir ≠ b
  · rw [if_pos hne, h]
    simp
  · rw [if_neg hne]
    rw [← Classical.not_not.1 hne]
    exact h

theorem step_createBlockSchema (R : Rec) (s : St) : step R .createBlockSchema s =
    .ok () { s with sh := (createBlockSchema s.sh s.inh).1, inh := (createBlockSchema s.sh s.inh).2 } := rfl

/-- The merge of a JSON document. -/
theorem run_mergeJson {env : Env} {R : Rec} {sec text : Str} {part : Value → Value} {v : Value} {s : St} {o : Obj}
    (hj : env.jsonParse text = some v) (hwf : (part v).WF) (ho : s.sh.indir s.inh.indir = some (.obj o)) :
    ∃ sh' inh', run R (mergeJson env sec part text) s = .ok () { s with sh := sh', inh := inh' } ∧
      inh' = { s.inh with indir := inh'.indir } ∧ sh' = { s.sh with indir := sh'.indir } ∧
      visible sh' inh' sec = mergeSchema (visible s.sh s.inh sec) (part v) ∧
      ∀ key, key ≠ sec → visible sh' inh' key = visible s.sh s.inh key := by
  have hv := visible_create s.sh s.inh o ho
  obtain ⟨f, hf⟩ := createBlockSchema_sh s.sh s.inh
  have hi := createBlockSchema_inh s.sh s.inh
  unfold mergeJson
  rw [hj]
  simp only [run_bind]
  have h1 : run R (perform .createBlockSchema) s = .ok ()
      { s with sh := (createBlockSchema s.sh s.inh).1, inh := (createBlockSchema s.sh s.inh).2 } := rfl
  rw [h1]
  simp only [andThen_ok]
  generalize hA : (createBlockSchema s.sh s.inh).1 = shA at hv hf
  generalize hB : (createBlockSchema s.sh s.inh).2 = inhA at hv hi
  have hmod : shA.modIndir inhA.indir (fun x => x.modIndex sec (fun y => some (mergeSchemaOwned y (part v)))) =
      some { shA with
        indir := fun x => if x = inhA.indir then
          some (.obj (Obj.insert sec (mergeSchemaOwned ((Obj.get? sec o).getD .null) (part v)) o)) else shA.indir x } := by
    unfold Shared.modIndir
    rw [hv]
    rfl
  refine ⟨{ shA with
      indir := fun x => if x = inhA.indir then
        some (.obj (Obj.insert sec (mergeSchemaOwned ((Obj.get? sec o).getD .null) (part v)) o)) else shA.indir x },
    inhA, ?_, ?_, ?_, ?_, ?_⟩
  · simp only [perform, run, step, hmod, Option.map_some, oresOpt]
  · rw [hi]
  · rw [hf]
  · unfold visible Shared.getIndir
    rw [ho]
    simp only [if_true, Option.getD_some, Value.index, Value.get?, Obj.get?_insert_self, mergeOwned_eq]
  · intro key hk
    unfold visible Shared.getIndir
    rw [ho]
    simp only [if_true, Option.getD_some, Value.index, Value.get?, Obj.get?_insert_ne _ _ hk.symm]

theorem loaded_of {sec : Str} {new : Value} {sh sh' : Shared} {inh inh' : Inherit} (hwf : new.WF)
    (h1 : sh' = { sh with indir := sh'.indir })
    (h2 : visible sh' inh' sec = mergeSchema (visible sh inh sec) new)
    (h3 : ∀ key, key ≠ sec → visible sh' inh' key = visible sh inh key) : Loaded sec new sh inh sh' inh' where
  keeps p hp := by rw [h2]; exact C06_untouched _ _ hwf p hp.1 hp.2
  takes p w hp hw := by rw [h2]; exact C06_last_writer _ _ hwf p w hp hw
  others := h3
  rest := h1

theorem named_data : Named c!"data" := by
  refine ⟨by decide, ?_⟩
  intro c r hc
  injection hc with h1 h2
  subst h1
  decide

theorem named_locale : Named c!"locale" := by
  refine ⟨by decide, ?_⟩
  intro c r hc
  injection hc with h1 h2
  subst h1
  decide

/-- **C54 (inline, partial).** `{:data; {:flg; inline :} >> JSON :}`, for a JSON with the key `data`: the local data the
block sees is merged with it.  Missing: without the key `data` all local data is lost, see `C54_wiped` and `C54_refuted`. -/
theorem C54_inline_partial (env : Env) (R : Rec) (sh sh1 : Shared) (inh inh1 : Inherit) (mods src only c x : Str)
    (p : Option Str) (v new : Value) (o : Obj)
    (hm : Mods mods) (hf : '&' ∉ mods) (hsc : '+' ∉ mods) (hmax : sh.count < sh.max)
    (hsel : Selected inh mods c!"data" only) (hparts : Parts src p c)
    (hx : evalParams R (counted sh) (entered sh inh) c!"data" (p.getD []) only = .ok x sh1 inh1)
    (hinline : Flag (flagsOf sh1 (p.getD [])) c!"inline")
    (hj : env.jsonParse c = some v) (hd : v.get? c!"data" = some new) (hwf : new.WF)
    (ho : sh1.indir inh1.indir = some (.obj o)) :
    ∃ sh2 inh2, runBif env R sh inh (bifText mods c!"data" src) only = finish (decide ('^' ∈ mods)) unprintable sh2 inh2 ∧
      inh2 = { inh1 with indir := inh2.indir } ∧ Loaded c!"data" new sh1 inh1 sh2 inh2 := by
  have hpart : dataPart v = new := by unfold dataPart; rw [hd]; rfl
  obtain ⟨sh2, inh2, h1, h2, h3, h4, h5⟩ := run_mergeJson (R := R) (sec := c!"data") (part := dataPart)
    (s := { start sh inh mods c!"data" src only with
        sh := sh1, inh := inh1,
        b := { (start sh inh mods c!"data" src only).b with
          params := x, code := c, flags := flagsOf sh1 (p.getD []) } }) hj (by rw [hpart]; exact hwf) ho
  rw [hpart] at h4
  refine ⟨sh2, inh2, ?_, h2, loaded_of hwf h3 h4 h5⟩
  rw [runBif_text env R sh inh mods c!"data" src only hm named_data hmax hsel]
  have hbody : bifBody env c!"data" = bifData env := rfl
  rw [hbody]
  unfold bifData
  simp only [run_bind, run_denyMods]
  rw [if_neg (by simp [start, hf, hsc])]
  simp only [andThen_ok]
  rw [run_extract R hparts _ rfl rfl rfl rfl]
  change bifResult env (Res.andThen (match evalParams R (counted sh) (entered sh inh) c!"data" (p.getD []) only with
    | .ok x sh' inh' => _
    | .panic p => _
    | .oof => _) _) = _
  rw [hx]
  simp only [andThen_ok, run_getSt, run_ite]
  have hfl : ∀ b : BifS, b.flags = flagsOf sh1 (p.getD []) → hasFlag b c!"inline" = true := by
    intro b hb; rw [hasFlag_iff, hb]; exact hinline
  rw [if_neg (by rw [hfl _ rfl]; simp), if_pos (hfl _ rfl)]
  simp only [run_bind]
  rw [h1]
  rfl

/-- Without the key `data` the local data is lost. -/
theorem C54_wiped (env : Env) (R : Rec) (s : St) (text : Str) (v : Value) (o : Obj)
    (hj : env.jsonParse text = some v) (hd : v.get? c!"data" = none) (ho : s.sh.indir s.inh.indir = some (.obj o)) :
    ∃ sh' inh', run R (mergeJson env c!"data" dataPart text) s = .ok () { s with sh := sh', inh := inh' } ∧
      visible sh' inh' c!"data" = .null := by
  have hpart : dataPart v = .null := by unfold dataPart; rw [hd]; rfl
  obtain ⟨sh2, inh2, h1, h2, h3, h4, h5⟩ := run_mergeJson (R := R) (sec := c!"data") (part := dataPart) (s := s) hj
    (by rw [hpart]; trivial) ho
  refine ⟨sh2, inh2, h1, ?_⟩
  rw [h4, hpart]
  rfl

/-- **C54 (file, partial).** The same for a file. -/
theorem C54_file_partial (env : Env) (R : Rec) (sh sh1 sh2 : Shared) (inh inh1 : Inherit) (mods src only c x path canon : Str)
    (p : Option Str) (e : FileEntry) (v new : Value) (o : Obj)
    (hm : Mods mods) (hf : '&' ∉ mods) (hsc : '+' ∉ mods) (hmax : sh.count < sh.max)
    (hsel : Selected inh mods c!"data" only) (hparts : Parts src p c)
    (hx : evalParams R (counted sh) (entered sh inh) c!"data" (p.getD []) only = .ok x sh1 inh1)
    (hflags : flagsOf sh1 (p.getD []) = [] ∨ Flag (flagsOf sh1 (p.getD [])) c!"require")
    (hinline : ¬ Flag (flagsOf sh1 (p.getD [])) c!"inline")
    (hfile : FileName R sh1 inh1 c!"data" c only path sh2)
    (he : sh2.w.fs path = some e) (hcan : env.canon path = .ok canon)
    (honce : '!' ∈ mods → canon ∉ inh1.dataFiles)
    (hj : env.jsonParse (e.content.getD []) = some v) (hd : v.get? c!"data" = some new) (hwf : new.WF)
    (ho : sh2.indir inh1.indir = some (.obj o)) :
    ∃ sh3 inh3, runBif env R sh inh (bifText mods c!"data" src) only = finish (decide ('^' ∈ mods)) unprintable sh3 inh3 ∧
      inh3 = { inh1 with indir := inh3.indir, dataFiles := inh1.dataFiles ++ [canon] } ∧
      Loaded c!"data" new sh2 inh1 sh3 inh3 := by
  have hpart : dataPart v = new := by unfold dataPart; rw [hd]; rfl
  obtain ⟨sh3, inh3, h1, h2, h3, h4, h5⟩ := run_mergeJson (R := R) (sec := c!"data") (part := dataPart)
    (s := { start sh inh mods c!"data" src only with
        sh := sh2, inh := { inh1 with dataFiles := inh1.dataFiles ++ [canon] },
        b := { (start sh inh mods c!"data" src only).b with
          params := x, code := c, flags := flagsOf sh1 (p.getD []), filePath := path } }) hj (by rw [hpart]; exact hwf) ho
  rw [hpart] at h4
  refine ⟨sh3, inh3, ?_, h2, loaded_of hwf h3 h4 h5⟩
  rw [runBif_text env R sh inh mods c!"data" src only hm named_data hmax hsel]
  have hbody : bifBody env c!"data" = bifData env := rfl
  rw [hbody]
  unfold bifData
  simp only [run_bind, run_denyMods]
  rw [if_neg (by simp [start, hf, hsc])]
  simp only [andThen_ok]
  rw [run_extract R hparts _ rfl rfl rfl rfl]
  change bifResult env (Res.andThen (match evalParams R (counted sh) (entered sh inh) c!"data" (p.getD []) only with
    | .ok x sh' inh' => _
    | .panic p => _
    | .oof => _) _) = _
  rw [hx]
  simp only [andThen_ok, run_getSt, run_ite]
  have hin : ∀ b : BifS, b.flags = flagsOf sh1 (p.getD []) → hasFlag b c!"inline" = false := by
    intro b hb
    rw [← Bool.not_eq_true, hasFlag_iff, hb]; exact hinline
  rw [if_neg (by
    rcases hflags with h | h
    · simp [h]
    · have : ∀ b : BifS, b.flags = flagsOf sh1 (p.getD []) → hasFlag b c!"require" = true := by
        intro b hb; rw [hasFlag_iff, hb]; exact h
      rw [this _ rfl]; simp), if_neg (by rw [hin _ rfl]; simp)]
  simp only [run_bind]
  rw [run_resolveFilePath _ hfile rfl rfl rfl rfl]
  simp only [andThen_ok, run_getSt, run_ite]
  rw [if_neg (by simp [fileExists, he])]
  simp only [run_bind, canonUnwrap, hcan, run_pure', andThen_ok, run_ite]
  rw [if_neg (by
    simp only [start, Bool.and_eq_true, List.contains_iff_mem, not_and]
    intro h
    exact honce (by simpa using h))]
  have hpush : ∀ s : St, run R (perform (.pushFile .data canon)) s =
      .ok () { s with inh := { s.inh with dataFiles := s.inh.dataFiles ++ [canon] } } := fun _ => rfl
  rw [hpush]
  simp only [andThen_ok, readFile, he, Option.bind_some]
  rw [h1]
  rfl

/-- `LocaleText R sh inh flags raw path only text sh'`: the text of the translation file `path`, whose content is `raw`: the
content itself with the flag `noparse` or without BIFs, otherwise what it evaluates to. -/
inductive Spec.LocaleText (R : Rec) (sh : Shared) (inh : Inherit) (flags raw path only : Str) : Str → Shared → Prop
  | raw : Flag flags c!"noparse" ∨ ¬ c!"{:" <:+: raw → LocaleText R sh inh flags raw path only raw sh
  | parsed {y : Str} {sh' : Shared} {inh' : Inherit} : ¬ Flag flags c!"noparse" → c!"{:" <:+: raw →
      nested R false sh { inh with currentFile := path } c!"locale" raw only = .ok y sh' inh' →
      LocaleText R sh inh flags raw path only y sh'

/-- **C57 (inline).** `{:locale; {:flg; inline :} >> JSON :}`: the translations the block sees are merged with the document
the code evaluates to. -/
theorem C57_inline (env : Env) (R : Rec) (sh sh1 sh2 : Shared) (inh inh1 inh2 : Inherit) (mods src only c x y : Str)
    (p : Option Str) (new : Value) (o : Obj)
    (hm : Mods mods) (hf : '&' ∉ mods) (hsc : '+' ∉ mods) (hmax : sh.count < sh.max)
    (hsel : Selected inh mods c!"locale" only) (hparts : Parts src p c)
    (hx : evalParams R (counted sh) (entered sh inh) c!"locale" (p.getD []) only = .ok x sh1 inh1)
    (hinline : Flag (flagsOf sh1 (p.getD [])) c!"inline")
    (hy : nested R false sh1 inh1 c!"locale" c only = .ok y sh2 inh2)
    (hj : env.jsonParse y = some new) (hwf : new.WF)
    (ho : sh2.indir inh2.indir = some (.obj o)) :
    ∃ sh3 inh3, runBif env R sh inh (bifText mods c!"locale" src) only = finish (decide ('^' ∈ mods)) [] sh3 inh3 ∧
      inh3 = { inh2 with indir := inh3.indir } ∧ Loaded c!"locale" new sh2 inh2 sh3 inh3 := by
  obtain ⟨sh3, inh3, h1, h2, h3, h4, h5⟩ := run_mergeJson (R := R) (sec := c!"locale") (part := id)
    (s := { start sh inh mods c!"locale" src only with
        sh := sh2, inh := inh2,
        b := { (start sh inh mods c!"locale" src only).b with
          params := x, code := y, flags := flagsOf sh1 (p.getD []) } }) hj hwf ho
  refine ⟨sh3, inh3, ?_, h2, loaded_of hwf h3 h4 h5⟩
  rw [runBif_text env R sh inh mods c!"locale" src only hm named_locale hmax hsel]
  have hbody : bifBody env c!"locale" = bifLocale env := rfl
  rw [hbody]
  unfold bifLocale
  simp only [run_bind, run_denyMods]
  rw [if_neg (by simp [start, hf, hsc])]
  simp only [andThen_ok]
  rw [run_extract R hparts _ rfl rfl rfl rfl]
  change bifResult env (Res.andThen (match evalParams R (counted sh) (entered sh inh) c!"locale" (p.getD []) only with
    | .ok x sh' inh' => _
    | .panic p => _
    | .oof => _) _) = _
  rw [hx]
  simp only [andThen_ok, run_getSt, run_ite]
  have hfl : ∀ b : BifS, b.flags = flagsOf sh1 (p.getD []) → hasFlag b c!"inline" = true := by
    intro b hb; rw [hasFlag_iff, hb]; exact hinline
  rw [if_neg (by rw [hfl _ rfl]; simp), if_pos (hfl _ rfl)]
  simp only [run_bind]
  rw [run_parseCode_nested R _ _ rfl rfl]
  change bifResult env (Res.andThen (match nested R false sh1 inh1 c!"locale" c only with
    | .ok x sh' inh' => _
    | .panic p => _
    | .oof => _) _) = _
  rw [hy]
  simp only [andThen_ok, run_getSt]
  rw [h1]
  rfl

/-- **C57 (file).** The same for a file, whose text may contain BIFs. -/
theorem C57_file (env : Env) (R : Rec) (sh sh1 sh2 sh3 : Shared) (inh inh1 : Inherit)
    (mods src only c x path canon text : Str) (p : Option Str) (e : FileEntry) (new : Value) (o : Obj)
    (hm : Mods mods) (hf : '&' ∉ mods) (hsc : '+' ∉ mods) (hmax : sh.count < sh.max)
    (hsel : Selected inh mods c!"locale" only) (hparts : Parts src p c)
    (hx : evalParams R (counted sh) (entered sh inh) c!"locale" (p.getD []) only = .ok x sh1 inh1)
    (hflags : flagsOf sh1 (p.getD []) = [] ∨ Flag (flagsOf sh1 (p.getD [])) c!"require" ∨
      Flag (flagsOf sh1 (p.getD [])) c!"noparse")
    (hinline : ¬ Flag (flagsOf sh1 (p.getD [])) c!"inline")
    (hfile : FileName R sh1 inh1 c!"locale" c only path sh2) (hne : path ≠ [])
    (he : sh2.w.fs path = some e) (hcan : env.canon path = .ok canon)
    (honce : '!' ∈ mods → canon ∉ inh1.localeFiles)
    (htext : LocaleText R sh2 { inh1 with localeFiles := inh1.localeFiles ++ [canon] } (flagsOf sh1 (p.getD []))
      (e.content.getD []) path only text sh3)
    (hj : env.jsonParse text = some new) (hwf : new.WF)
    (ho : sh3.indir inh1.indir = some (.obj o)) :
    ∃ sh4 inh4, runBif env R sh inh (bifText mods c!"locale" src) only = finish (decide ('^' ∈ mods)) unprintable sh4 inh4 ∧
      inh4 = { inh1 with indir := inh4.indir, localeFiles := inh1.localeFiles ++ [canon] } ∧
      Loaded c!"locale" new sh3 inh1 sh4 inh4 := by
  obtain ⟨sh4, inh4, h1, h2, h3, h4, h5⟩ := run_mergeJson (R := R) (sec := c!"locale") (part := id)
    (s := { start sh inh mods c!"locale" src only with
        sh := sh3, inh := { inh1 with localeFiles := inh1.localeFiles ++ [canon] },
        b := { (start sh inh mods c!"locale" src only).b with
          params := x, code := c, flags := flagsOf sh1 (p.getD []), filePath := path } }) hj hwf ho
  refine ⟨sh4, inh4, ?_, h2, loaded_of hwf h3 h4 h5⟩
  rw [runBif_text env R sh inh mods c!"locale" src only hm named_locale hmax hsel]
  have hbody : bifBody env c!"locale" = bifLocale env := rfl
  rw [hbody]
  unfold bifLocale
  simp only [run_bind, run_denyMods]
  rw [if_neg (by simp [start, hf, hsc])]
  simp only [andThen_ok]
  rw [run_extract R hparts _ rfl rfl rfl rfl]
  change bifResult env (Res.andThen (match evalParams R (counted sh) (entered sh inh) c!"locale" (p.getD []) only with
    | .ok x sh' inh' => _
    | .panic p => _
    | .oof => _) _) = _
  rw [hx]
  simp only [andThen_ok, run_getSt, run_ite]
  have hin : ∀ b : BifS, b.flags = flagsOf sh1 (p.getD []) → hasFlag b c!"inline" = false := by
    intro b hb
    rw [← Bool.not_eq_true, hasFlag_iff, hb]; exact hinline
  rw [if_neg (by
    rcases hflags with h | h | h
    · simp [h]
    · have : ∀ b : BifS, b.flags = flagsOf sh1 (p.getD []) → hasFlag b c!"require" = true := by
        intro b hb; rw [hasFlag_iff, hb]; exact h
      rw [this _ rfl]; simp
    · have : ∀ b : BifS, b.flags = flagsOf sh1 (p.getD []) → hasFlag b c!"noparse" = true := by
        intro b hb; rw [hasFlag_iff, hb]; exact h
      rw [this _ rfl]; simp), if_neg (by rw [hin _ rfl]; simp)]
  simp only [run_bind]
  rw [run_resolveFilePath _ hfile rfl rfl rfl rfl]
  simp only [andThen_ok, run_getSt, run_ite]
  rw [if_neg (by simp [fileExists, he])]
  simp only [run_bind, canonUnwrap, hcan, run_pure', andThen_ok, run_ite]
  rw [if_neg (by
    simp only [start, Bool.and_eq_true, List.contains_iff_mem, not_and]
    intro h
    exact honce (by simpa using h))]
  have hpush : ∀ s : St, run R (perform (.pushFile .locale canon)) s =
      .ok () { s with inh := { s.inh with localeFiles := s.inh.localeFiles ++ [canon] } } := fun _ => rfl
  rw [hpush]
  simp only [run_bind, andThen_ok, readFile, he, Option.bind_some]
  cases htext with
  | raw h =>
    rw [if_neg (by
      rcases h with h | h
      · have : ∀ b : BifS, b.flags = flagsOf sh1 (p.getD []) → hasFlag b c!"noparse" = true := by
          intro b hb; rw [hasFlag_iff, hb]; exact h
        rw [this _ rfl]; simp
      · rw [show contains bifOpen (e.content.getD []) = false from (contains_false_iff (by decide)).2 h]; simp)]
    simp only [andThen_ok]
    rw [h1]
    rfl
  | parsed hn hc hy =>
    rw [if_pos (by
      have : ∀ b : BifS, b.flags = flagsOf sh1 (p.getD []) → hasFlag b c!"noparse" = false := by
        intro b hb; rw [← Bool.not_eq_true, hasFlag_iff, hb]; exact hn
      rw [this _ rfl, show contains bifOpen (e.content.getD []) = true from (contains_iff (by decide)).2 hc]; rfl)]
    rw [run_child_file R _ _ hne rfl ((contains_iff (by decide)).2 hc)]
    change bifResult env (Res.andThen (match nested R false sh2
        { { inh1 with localeFiles := inh1.localeFiles ++ [canon] } with currentFile := path } c!"locale" (e.content.getD []) only with
      | .ok x sh' inh' => _
      | .panic p => _
      | .oof => _) _) = _
    rw [hy]
    simp only [andThen_ok]
    rw [h1]
    rfl

/-- JSON documents for the samples. -/
def Sample.envJ : Env :=
  { Sample.env with
    jsonParse := fun s =>
      if s = c!"A" then some (.obj [(c!"data", .obj [(c!"x", .str c!"1"), (c!"o", .obj [(c!"p", .str c!"P")])])])
      else if s = c!"B" then some (.obj [(c!"data", .obj [(c!"o", .obj [(c!"q", .str c!"Q")]), (c!"x", .str c!"2")])])
      else if s = c!"C" then some (.obj [])
      else if s = c!"L" then some (.obj [(c!"trans", .obj [(c!"en", .obj [(c!"Bye", .str c!"Goodbye")])])])
      else none }

/-- Render with these documents, also as files. -/
def Sample.goJ (src : Str) : RRes :=
  (Sample.tpl (Sample.schema 1000 [] Sample.inherit) src).render Sample.envJ 10
    ⟨fun p => if p = c!"a.json" then some (Sample.file c!"A") else if p = c!"b.json" then some (Sample.file c!"B")
      else if p = c!"l.json" then some (Sample.file c!"{:code; L :}") else none, 0⟩

set_option maxRecDepth 10000 in
/-- Two documents loaded one after the other, inline or from files: what the second does not mention is still there. -/
example :
    Sample.outOf (Sample.goJ c!"{:data; {:flg; inline :} >> A :}{:;local::x:}|{:data; {:flg; inline :} >> B :}{:;local::x:}{:;local::o->p:}{:;local::o->q:}") = some (c!"1|2PQ", c!"200") ∧
    Sample.outOf (Sample.goJ c!"{:data; a.json :}{:;local::x:}|{:data; b.json :}{:;local::x:}{:;local::o->p:}{:;local::o->q:}") = some (c!"1|2PQ", c!"200") := by
  decide +kernel

set_option maxRecDepth 10000 in
/-- Translations loaded inline or from a file that contains BIFs: the earlier ones are still there. -/
example :
    Sample.outOf (Sample.goJ c!"{:trans; Hi :}{:trans; Bye :}|{:locale; {:flg; inline :} >> L :}{:trans; Hi :}{:trans; Bye :}") = some (c!"HelloBye|HelloGoodbye", c!"200") ∧
    Sample.outOf (Sample.goJ c!"{:locale; l.json :}{:trans; Hi :}{:trans; Bye :}") = some (c!"HelloGoodbye", c!"200") := by
  decide +kernel

set_option maxRecDepth 10000 in
/-- **C54 is false as stated**: a document that says nothing about local data erases all of it. -/
theorem C54_refuted :
    Sample.outOf (Sample.goJ c!"{:data; {:flg; inline :} >> A :}{:;local::x:}|{:data; {:flg; inline :} >> C :}{:;local::x:}") =
      some (c!"1|", c!"200") := by
  decide +kernel

end Nts
