import Verif.Props.Pointer
import Verif.Props.Blocks
import Verif.Spec.Loop
import Verif.Lemmas.Eval
import Verif.Spec.Sample
/-
C36: loops.
-/
set_option autoImplicit false
namespace Nts
open Spec

/-! ### words -/

theorem splitWs_blank (acc : Str) {w : Str} (hw : Blank w) (hne : w ≠ []) (r : Str) :
    splitWsGo acc (w ++ r) = if acc.isEmpty then splitWsGo [] r else acc.reverse :: splitWsGo [] r := by
  induction w generalizing acc with
  | nil => exact absurd rfl hne
  | cons c w ih =>
    have hc : isWs c = true := hw c (by simp)
    rw [List.cons_append, splitWsGo, if_pos hc]
    by_cases hw0 : w = []
    · subst hw0; rfl
    · rw [ih [] (fun d hd => hw d (by simp [hd])) hw0]
      simp

theorem splitWs_word (acc a r : Str) (ha : ∀ c ∈ a, isWs c = false) :
    splitWsGo acc (a ++ r) = splitWsGo (a.reverse ++ acc) r := by
  induction a generalizing acc with
  | nil => rfl
  | cons c a ih =>
    rw [List.cons_append, splitWsGo, if_neg (by simp [ha c (by simp)]), ih _ (fun d hd => ha d (by simp [hd]))]
    simp

theorem splitWs_acc (acc r : Str) (hacc : acc ≠ []) (hr : ∀ c, r.head? = some c → isWs c = true) :
    splitWsGo acc r = acc.reverse :: splitWsGo [] r := by
  cases r with
  | nil => simp [splitWsGo, hacc]
  | cons c r =>
    have hc := hr c rfl
    simp [splitWsGo, hc, hacc]

theorem splitWhitespace_words {s : Str} {l : List Str} (h : Words s l) : splitWhitespace s = l := by
  unfold splitWhitespace
  induction h with
  | nil hw =>
    rename_i w
    by_cases h : w = []
    · subst h; rfl
    · have := splitWs_blank [] hw h []
      rw [List.append_nil] at this
      rw [this]; rfl
  | cons hw hne ha hr _ ih =>
    rename_i w a r l _
    have h1 : splitWsGo [] (w ++ a ++ r) = splitWsGo [] (a ++ r) := by
      by_cases h : w = []
      · subst h; rfl
      · rw [List.append_assoc, splitWs_blank [] hw h]; rfl
    rw [h1, splitWs_word _ _ _ ha, List.append_nil, splitWs_acc _ _ (by simpa using hne) hr, ih]
    simp

/-! ### variables -/

theorem step_setData {R : Rec} {k : Str} {v : Value} {sh' : Shared} {s : St} (h : VarSet s.sh k v sh') :
    run R (perform (.setData k v)) s = .ok () { s with sh := sh' } := by
  obtain ⟨sc, d, h1, h2, h3⟩ := h
  simp only [perform, run, step, h1, Value.modIndex, h2, Option.getD_some, Value.setIndex, Option.map_some, oresOpt, h3]

theorem Spec.VarSet.get {sh sh' : Shared} {k : Str} {v : Value} (h : VarSet sh k v sh') : var sh' k = v := by
  obtain ⟨sc, d, h1, h2, h3⟩ := h
  subst h3
  simp only [var, Value.index, Value.get?, Obj.get?_insert_self, Option.getD_some]

theorem Spec.VarSet.other {sh sh' : Shared} {k j : Str} {v : Value} (h : VarSet sh k v sh') (hj : j ≠ k) :
    var sh' j = var sh j := by
  obtain ⟨sc, d, h1, h2, h3⟩ := h
  subst h3
  simp only [var, Value.index, Value.get?, h1, h2, Obj.get?_insert_self, Option.getD_some, Obj.get?_insert_ne _ _ hj.symm]

theorem Spec.VarSet.sections {sh sh' : Shared} {k : Str} {v : Value} (h : VarSet sh k v sh') {s : Str} (hs : s ≠ c!"data") :
    sh'.schema.get? s = sh.schema.get? s := by
  obtain ⟨sc, d, h1, h2, h3⟩ := h
  subst h3
  simp [Value.get?, h1, Obj.get?_insert_ne _ _ hs.symm]

theorem Spec.VarSet.rest {sh sh' : Shared} {k : Str} {v : Value} (h : VarSet sh k v sh') :
    sh' = { sh with schema := sh'.schema } := by
  obtain ⟨sc, d, h1, h2, h3⟩ := h
  subst h3
  rfl

theorem Spec.VarSet.again {sh sh' : Shared} {k : Str} {v : Value} (h : VarSet sh k v sh') (j : Str) (w : Value) :
    ∃ sh'', VarSet sh' j w sh'' := by
  obtain ⟨sc, d, h1, h2, h3⟩ := h
  subst h3
  exact ⟨_, _, _, rfl, Obj.get?_insert_self .., rfl⟩

/-! ### rounds -/

theorem childBlocks_block {R : Rec} {blocks : List (Nat × Nat)} {s : St} (scope : Bool)
    (hb : extractBlocks s.b.code = .ok blocks) (hf : s.b.filePath = []) (hd : s.b.dir = []) :
    run R (perform (.childBlocks s.b.code blocks scope)) s =
      match block R scope s.sh s.inh s.b.alias s.b.code s.only with
      | .ok x sh' inh' => .ok x { s with sh := sh', inh := inh' }
      | .panic p => .panic p
      | .oof => .oof := by
  rw [run_op_childBlocks]
  simp only [step]
  rw [runChild_congr s scope _ hf hd]
  unfold block parseSrc
  rw [hb]
  dsimp only
  generalize runChild ⟨s.sh, s.inh, { BifS.new with alias := s.b.alias }, [], s.only⟩ scope
      (fun sh' inh' => R sh' inh' s.b.code blocks s.only) = X
  cases X <;> rfl

/-- Variables, then the code. -/
theorem run_round {R : Rec} {blocks : List (Nat × Nat)} {s : St} {x : Str} {sh' : Shared} {inh' : Inherit}
    (hb : extractBlocks s.b.code = .ok blocks) (hf : s.b.filePath = []) (hd : s.b.dir = [])
    (h : block R s.b.modScope s.sh s.inh s.b.alias s.b.code s.only = .ok x sh' inh') :
    run R (do
      let s ← getSt
      let x ← perform (.childBlocks s.b.code blocks s.b.modScope)
      modB (fun b => { b with out := b.out ++ x })) s =
      .ok () { s with sh := sh', inh := inh', b := { s.b with out := s.b.out ++ x } } := by
  simp only [run_bind, run_getSt, andThen_ok]
  rw [childBlocks_block _ hb hf hd, h]
  rfl

theorem rounds_nil {R : Rec} {scope : Bool} {name code only x : Str} {sh sh' : Shared} {inh inh' : Inherit}
    (h : Rounds R scope name code only [] sh inh x sh' inh') : x = [] ∧ sh' = sh ∧ inh' = inh := by
  cases h; exact ⟨rfl, rfl, rfl⟩

theorem rounds_set {R : Rec} {scope : Bool} {name code only x k : Str} {v : Value} {vs : List (Str × Value)}
    {l : List (List (Str × Value))} {sh sh' : Shared} {inh inh' : Inherit}
    (h : Rounds R scope name code only (((k, v) :: vs) :: l) sh inh x sh' inh') :
    ∃ sh1, VarSet sh k v sh1 ∧ Rounds R scope name code only (vs :: l) sh1 inh x sh' inh' := by
  cases h with
  | set h1 h2 => exact ⟨_, h1, h2⟩

theorem rounds_eval {R : Rec} {scope : Bool} {name code only x : Str}
    {l : List (List (Str × Value))} {sh sh' : Shared} {inh inh' : Inherit}
    (h : Rounds R scope name code only ([] :: l) sh inh x sh' inh') :
    ∃ sh1 inh1 y z, block R scope sh inh name code only = .ok y sh1 inh1 ∧
      Rounds R scope name code only l sh1 inh1 z sh' inh' ∧ x = y ++ z := by
  cases h with
  | eval h1 h2 => exact ⟨_, _, _, _, h1, h2, rfl⟩

/-- The loop of `each`. -/
theorem run_eachRounds {R : Rec} {blocks : List (Nat × Nat)} {kn vn : Str} (items : List (Str × Value)) :
    ∀ (s : St) (x : Str) (sh' : Shared) (inh' : Inherit), extractBlocks s.b.code = .ok blocks → s.b.filePath = [] →
    s.b.dir = [] →
    Rounds R s.b.modScope s.b.alias s.b.code s.only (items.map (fun kv => [(kn, .str kv.1), (vn, kv.2)])) s.sh s.inh x sh' inh' →
    run R (forList items (fun kv => eachIter kn vn kv.1 kv.2 blocks)) s =
      .ok () { s with sh := sh', inh := inh', b := { s.b with out := s.b.out ++ x } } := by
  induction items with
  | nil =>
    intro s x sh' inh' hb hf hd h
    obtain ⟨rfl, rfl, rfl⟩ := rounds_nil h
    simp [forList]
  | cons kv items ih =>
    intro s x sh' inh' hb hf hd h
    obtain ⟨sh1, h1, h⟩ := rounds_set h
    obtain ⟨sh2, h2, h⟩ := rounds_set h
    obtain ⟨sh3, inh3, y, z, h3, h4, rfl⟩ := rounds_eval h
    simp only [forList]
    rw [show (Prog.bind (eachIter kn vn kv.1 kv.2 blocks) fun _ => forList items fun kv => eachIter kn vn kv.1 kv.2 blocks) =
      (eachIter kn vn kv.1 kv.2 blocks >>= fun _ => forList items fun kv => eachIter kn vn kv.1 kv.2 blocks) from rfl, run_bind]
    unfold eachIter
    rw [run_bind, step_setData h1, andThen_ok, run_bind, step_setData (s := { s with sh := sh1 }) h2, andThen_ok,
      run_round (s := { s with sh := sh2 }) hb hf hd h3, andThen_ok]
    refine (ih { s with sh := sh3, inh := inh3, b := { s.b with out := s.b.out ++ y } } z sh' inh' hb hf hd h4).trans ?_
    simp

/-- The loop of `for`. -/
theorem run_forRounds {R : Rec} {blocks : List (Nat × Nat)} {vn : Str} (items : List Int) :
    ∀ (s : St) (x : Str) (sh' : Shared) (inh' : Inherit), extractBlocks s.b.code = .ok blocks → s.b.filePath = [] →
    s.b.dir = [] →
    Rounds R s.b.modScope s.b.alias s.b.code s.only (items.map (fun i => [(vn, .str (showInt i))])) s.sh s.inh x sh' inh' →
    run R (forList items (fun i => forIter vn (showInt i) blocks)) s =
      .ok () { s with sh := sh', inh := inh', b := { s.b with out := s.b.out ++ x } } := by
  induction items with
  | nil =>
    intro s x sh' inh' hb hf hd h
    obtain ⟨rfl, rfl, rfl⟩ := rounds_nil h
    simp [forList]
  | cons i items ih =>
    intro s x sh' inh' hb hf hd h
    obtain ⟨sh2, h2, h⟩ := rounds_set h
    obtain ⟨sh3, inh3, y, z, h3, h4, rfl⟩ := rounds_eval h
    simp only [forList]
    rw [show (Prog.bind (forIter vn (showInt i) blocks) fun _ => forList items fun i => forIter vn (showInt i) blocks) =
      (forIter vn (showInt i) blocks >>= fun _ => forList items fun i => forIter vn (showInt i) blocks) from rfl, run_bind]
    unfold forIter setData
    rw [run_bind, step_setData h2, andThen_ok, run_round (s := { s with sh := sh2 }) hb hf hd h3, andThen_ok]
    refine (ih { s with sh := sh3, inh := inh3, b := { s.b with out := s.b.out ++ y } } z sh' inh' hb hf hd h4).trans ?_
    simp

theorem eachItems_elements {v : Value} {l : List (Str × Value)} (h : Elements v l) : eachItems v = l := by
  cases h with
  | obj o => rfl
  | arr a _ hl h =>
    apply List.ext_getElem?
    intro i
    simp only [eachItems]
    by_cases hi : i < a.length
    · rw [h i a[i] (List.getElem?_eq_getElem hi)]
      simp [List.getElem?_zip_eq_some, hi]
    · rw [List.getElem?_eq_none (l := l) (by omega), List.getElem?_eq_none (by simp; omega)]
  | none h1 h2 =>
    cases v <;> first | rfl | exact absurd rfl (h1 _) | exact absurd rfl (h2 _)

theorem forValues_span (a b : Int) : forValues a b = span a b := by
  unfold forValues span intRange
  split
  · next h =>
    rw [List.map_congr_left (f := fun (i : Nat) => if a ≤ b then a + (i : Int) else a - i) (g := fun (i : Nat) => a - (i : Int))
      (fun i _ => by rw [if_neg (by omega)])]
    apply List.ext_getElem
    · simp; omega
    · intro i h1 h2
      simp only [List.length_reverse, List.length_map, List.length_range] at h1
      simp only [List.getElem_reverse, List.getElem_map, List.getElem_range, List.length_map, List.length_range]
      omega
  · next h =>
    rw [List.map_congr_left (f := fun (i : Nat) => if a ≤ b then a + (i : Int) else a - i) (g := fun (i : Nat) => a + (i : Int))
      (fun i _ => by rw [if_pos (by omega)])]
    congr 2
    omega

theorem named_each : Named c!"each" := by
  refine ⟨by decide, ?_⟩
  intro c r hc
  injection hc with h1 h2
  subst h1
  decide

theorem named_for : Named c!"for" := by
  refine ⟨by decide, ?_⟩
  intro c r hc
  injection hc with h1 h2
  subst h1
  decide

/-- The collection named `a`: of the local data with the prefix `local::`, otherwise of the data of the application. -/
def Spec.Collection (sh : Shared) (inh : Inherit) (a : Str) (v : Value) : Prop :=
  (∃ r, a = c!"local::" ++ r ∧ v = (resolvePointer ((sh.getIndir inh.indir).index c!"data") r).getD .null) ∨
  (¬ c!"local::" <+: a ∧ v = (resolvePointer (sh.schema.index c!"data") a).getD .null)

theorem collection_storage {s : St} {a : Str} {v : Value} (h : Collection s.sh s.inh a v) :
    (resolvePointer (storageOf s a).1 (storageOf s a).2).getD .null = v := by
  unfold storageOf
  rcases h with ⟨r, rfl, rfl⟩ | ⟨h, rfl⟩
  · rw [stripPrefix?_append]
    rfl
  · rw [stripPrefix?_eq_none.2 h]
    rfl

/-- `VarsRestored vs sh sh' `: `sh'` is `sh` with the variables `vs` of the application having the given values; everything
else is as in `sh`. -/
structure Spec.VarsRestored (vs : List (Str × Value)) (sh sh' : Shared) : Prop where
  vars : ∀ kv ∈ vs, var sh' kv.1 = kv.2
  others : ∀ k, k ∉ vs.map (fun kv => kv.1) → var sh' k = var sh k
  sections : ∀ s, s ≠ c!"data" → sh'.schema.get? s = sh.schema.get? s
  rest : sh' = { sh with schema := sh'.schema }

/-- What `each` does: the rounds, and then the two variables are set to what they were. -/
theorem each_exact (env : Env) (R : Rec) (sh sh1 sh2 : Shared) (inh inh1 inh2 : Inherit)
    (mods src only p c x an kn vn out : Str) (extra : List Str) (bl : List (Nat × Nat)) (coll : Value)
    (items : List (Str × Value)) (sc d : Obj)
    (hm : Mods mods) (hf : '&' ∉ mods) (hneg : '!' ∉ mods) (hmax : sh.count < sh.max)
    (hsel : Selected inh mods c!"each" only) (hparts : Parts src (some p) c)
    (hx : evalParams R (counted sh) (entered sh inh) c!"each" p only = .ok x sh1 inh1) (hflags : flagsOf sh1 p = [])
    (hwords : Words x (an :: kn :: vn :: extra)) (hkn : ¬ c!"local::" <+: kn) (hvn : ¬ c!"local::" <+: vn)
    (hcoll : Collection sh1 inh1 an coll) (hitems : Elements coll items) (hwf : WellFormed 0 c bl)
    (hrounds : Rounds R (decide ('+' ∈ mods)) c!"each" c only
      (items.map (fun kv => [(kn, .str kv.1), (vn, kv.2)])) sh1 inh1 out sh2 inh2)
    (hdata : sh2.schema = .obj sc ∧ Obj.get? c!"data" sc = some (.obj d)) :
    ∃ shk sh3, runBif env R sh inh (bifText mods c!"each" src) only = finish (decide ('^' ∈ mods)) out sh3 inh2 ∧
      VarSet sh2 kn (var sh1 kn) shk ∧ VarSet shk vn (var sh1 vn) sh3 := by
  obtain ⟨shk, hk⟩ : ∃ sh', VarSet sh2 kn (var sh1 kn) sh' := ⟨_, sc, d, hdata.1, hdata.2, rfl⟩
  obtain ⟨sh3, hv⟩ := hk.again vn (var sh1 vn)
  refine ⟨shk, sh3, ?_, hk, hv⟩
  · rw [runBif_text env R sh inh mods c!"each" src only hm named_each hmax hsel]
    have hbody : bifBody env c!"each" = bifEach := rfl
    rw [hbody]
    unfold bifEach
    simp only [run_bind, run_denyMods]
    rw [if_neg (by simp [start, hf, hneg])]
    simp only [andThen_ok]
    rw [run_extract R hparts _ rfl rfl rfl rfl]
    change bifResult env (Res.andThen (match evalParams R (counted sh) (entered sh inh) c!"each" p only with
      | .ok x sh' inh' => _
      | .panic p => _
      | .oof => _) _) = _
    rw [hx]
    simp only [andThen_ok, run_denyFlags, Option.getD_some]
    rw [if_pos (by rw [hflags]; rfl)]
    simp only [andThen_ok, run_getSt]
    rw [splitWhitespace_words hwords]
    dsimp only
    rw [run_ite, if_neg (by
      rw [Bool.or_eq_true, startsWith_iff, startsWith_iff]
      exact fun h => h.elim hkn hvn)]
    rw [C15_complete c bl hwf]
    dsimp only
    simp only [run_bind]
    have hc := collection_storage (s := ⟨sh1, inh1, { (start sh inh mods c!"each" src only).b with
      params := x, code := c, flags := flagsOf sh1 p }, (start sh inh mods c!"each" src only).raw,
      (start sh inh mods c!"each" src only).only⟩) hcoll
    have hr := run_eachRounds (R := R) (blocks := bl) (kn := kn) (vn := vn) items
      ⟨sh1, inh1, { (start sh inh mods c!"each" src only).b with
      params := x, code := c, flags := flagsOf sh1 p }, (start sh inh mods c!"each" src only).raw,
      (start sh inh mods c!"each" src only).only⟩ out sh2 inh2
      (C15_complete c bl hwf) rfl rfl hrounds
    rw [hc, eachItems_elements hitems, hr, andThen_ok]
    refine congrArg (bifResult env) (?_ : _ = Res.ok () ⟨sh3, inh2, { (start sh inh mods c!"each" src only).b with
      params := x, code := c, flags := flagsOf sh1 p, out := out }, (start sh inh mods c!"each" src only).raw, only⟩)
    refine (congrArg (fun r => Res.andThen r _) (step_setData (R := R) (k := kn) (v := var sh1 kn) (sh' := shk) hk)).trans ?_
    rw [andThen_ok]
    exact step_setData (R := R) (k := vn) (v := var sh1 vn) (sh' := sh3) hv

/-- **C36 (each).** The body is evaluated once per element, in order, with the two variables set to the key and the value
of the element; afterwards the two variables have the values they had before the loop, and everything else is as the body
left it. -/
theorem C36_each (env : Env) (R : Rec) (sh sh1 sh2 : Shared) (inh inh1 inh2 : Inherit)
    (mods src only p c x an kn vn out : Str) (extra : List Str) (bl : List (Nat × Nat)) (coll : Value)
    (items : List (Str × Value)) (sc d : Obj)
    (hm : Mods mods) (hf : '&' ∉ mods) (hneg : '!' ∉ mods) (hmax : sh.count < sh.max)
    (hsel : Selected inh mods c!"each" only) (hparts : Parts src (some p) c)
    (hx : evalParams R (counted sh) (entered sh inh) c!"each" p only = .ok x sh1 inh1) (hflags : flagsOf sh1 p = [])
    (hwords : Words x (an :: kn :: vn :: extra)) (hkn : ¬ c!"local::" <+: kn) (hvn : ¬ c!"local::" <+: vn)
    (hcoll : Collection sh1 inh1 an coll) (hitems : Elements coll items) (hwf : WellFormed 0 c bl)
    (hrounds : Rounds R (decide ('+' ∈ mods)) c!"each" c only
      (items.map (fun kv => [(kn, .str kv.1), (vn, kv.2)])) sh1 inh1 out sh2 inh2)
    (hdata : sh2.schema = .obj sc ∧ Obj.get? c!"data" sc = some (.obj d)) :
    ∃ sh3, runBif env R sh inh (bifText mods c!"each" src) only = finish (decide ('^' ∈ mods)) out sh3 inh2 ∧
      VarsRestored [(kn, var sh1 kn), (vn, var sh1 vn)] sh2 sh3 := by
  obtain ⟨shk, sh3, h, hk, hv⟩ := each_exact env R sh sh1 sh2 inh inh1 inh2 mods src only p c x an kn vn out extra bl coll items
    sc d hm hf hneg hmax hsel hparts hx hflags hwords hkn hvn hcoll hitems hwf hrounds hdata
  refine ⟨sh3, h, ?_⟩
  · refine ⟨?_, ?_, ?_, ?_⟩
    · intro kv hkv
      by_cases he : kv.1 = vn
      · rw [he, hv.get]
        simp only [List.mem_cons, List.not_mem_nil, or_false] at hkv
        rcases hkv with rfl | rfl
        · simp only at he ⊢; rw [he]
        · rfl
      · rw [hv.other he]
        simp only [List.mem_cons, List.not_mem_nil, or_false] at hkv
        rcases hkv with rfl | rfl
        · exact hk.get
        · exact absurd rfl he
    · intro k hk'
      simp only [List.map_cons, List.map_nil, List.mem_cons, List.not_mem_nil, or_false, not_or] at hk'
      rw [hv.other hk'.2, hk.other hk'.1]
    · intro s hs
      rw [hv.sections hs, hk.sections hs]
    · rw [hv.rest, hk.rest]

/-- The text that `{:;k:}` shows for the variable `k` of the application. -/
def Spec.shownVar (env : Env) (sh : Shared) (k : Str) : Str := getFromKey env.f64 (sh.schema.index c!"data") k

/-- The loop over numbers, and what is set at its end. -/
theorem for_exact (env : Env) (R : Rec) (sh sh1 sh2 : Shared) (inh inh1 inh2 : Inherit)
    (mods src only p c x vn at_ bt out : Str) (a b : Int) (extra : List Str) (bl : List (Nat × Nat)) (sc d : Obj)
    (hm : Mods mods) (hf : '&' ∉ mods) (hneg : '!' ∉ mods) (hmax : sh.count < sh.max)
    (hsel : Selected inh mods c!"for" only) (hparts : Parts src (some p) c)
    (hx : evalParams R (counted sh) (entered sh inh) c!"for" p only = .ok x sh1 inh1) (hflags : flagsOf sh1 p = [])
    (hwords : Words (replaceAll c!".." c!" " x) (vn :: at_ :: bt :: extra)) (hvn : ¬ c!"local::" <+: vn)
    (ha : parseI32 at_ = some a) (hb : parseI32 bt = some b) (hwf : WellFormed 0 c bl)
    (hrounds : Rounds R (decide ('+' ∈ mods)) c!"for" c only
      ((span a b).map (fun i => [(vn, .str (showInt i))])) sh1 inh1 out sh2 inh2)
    (hdata : sh2.schema = .obj sc ∧ Obj.get? c!"data" sc = some (.obj d)) :
    ∃ sh3, runBif env R sh inh (bifText mods c!"for" src) only = finish (decide ('^' ∈ mods)) out sh3 inh2 ∧
      VarSet sh2 vn (.str (shownVar env sh1 vn)) sh3 := by
  obtain ⟨sh3, hv⟩ : ∃ sh', VarSet sh2 vn (.str (shownVar env sh1 vn)) sh' := ⟨_, sc, d, hdata.1, hdata.2, rfl⟩
  refine ⟨sh3, ?_, hv⟩
  rw [runBif_text env R sh inh mods c!"for" src only hm named_for hmax hsel]
  have hbody : bifBody env c!"for" = bifFor env := rfl
  rw [hbody]
  unfold bifFor
  simp only [run_bind, run_denyMods]
  rw [if_neg (by simp [start, hf, hneg])]
  simp only [andThen_ok]
  rw [run_extract R hparts _ rfl rfl rfl rfl]
  change bifResult env (Res.andThen (match evalParams R (counted sh) (entered sh inh) c!"for" p only with
    | .ok x sh' inh' => _
    | .panic p => _
    | .oof => _) _) = _
  rw [hx]
  simp only [andThen_ok, run_denyFlags, Option.getD_some]
  rw [if_pos (by rw [hflags]; rfl)]
  simp only [andThen_ok, run_getSt, run_modB]
  rw [splitWhitespace_words hwords]
  dsimp only
  rw [ha]
  dsimp only
  rw [hb]
  dsimp only
  rw [C15_complete c bl hwf]
  dsimp only
  simp only [run_bind]
  have hr := run_forRounds (R := R) (blocks := bl) (vn := vn) (span a b)
    ⟨sh1, inh1, { (start sh inh mods c!"for" src only).b with
    params := replaceAll c!".." c!" " x, code := c, flags := flagsOf sh1 p }, (start sh inh mods c!"for" src only).raw,
    (start sh inh mods c!"for" src only).only⟩ out sh2 inh2
    (C15_complete c bl hwf) rfl rfl hrounds
  rw [forValues_span, hr, andThen_ok]
  refine congrArg (bifResult env) (?_ : _ = Res.ok () ⟨sh3, inh2, { (start sh inh mods c!"for" src only).b with
    params := replaceAll c!".." c!" " x, code := c, flags := flagsOf sh1 p, out := out },
    (start sh inh mods c!"for" src only).raw, only⟩)
  have hg : ∀ s : St, s.sh = sh1 → getData env s vn = shownVar env sh1 vn := by
    intro s hs
    unfold getData
    rw [stripPrefix?_eq_none.2 hvn]
    subst hs
    rfl
  unfold setData
  rw [hg _ rfl]
  exact step_setData (R := R) hv

/-- **C36 (for, partial).** The body is evaluated once per number from `a` to `b` (up or down), in order, with the variable
set to the number; afterwards the variable shows the same text as before the loop, it has the same value if that was a text,
and everything else is as the body left it.  Missing: a variable that was not a text becomes one: `C36_refuted`. -/
theorem C36_for_partial (env : Env) (R : Rec) (sh sh1 sh2 : Shared) (inh inh1 inh2 : Inherit)
    (mods src only p c x vn at_ bt out : Str) (a b : Int) (extra : List Str) (bl : List (Nat × Nat)) (sc d sc1 d1 : Obj)
    (hm : Mods mods) (hf : '&' ∉ mods) (hneg : '!' ∉ mods) (hmax : sh.count < sh.max)
    (hsel : Selected inh mods c!"for" only) (hparts : Parts src (some p) c)
    (hx : evalParams R (counted sh) (entered sh inh) c!"for" p only = .ok x sh1 inh1) (hflags : flagsOf sh1 p = [])
    (hwords : Words (replaceAll c!".." c!" " x) (vn :: at_ :: bt :: extra)) (hvn : ¬ c!"local::" <+: vn) (hseg : Segment vn)
    (ha : parseI32 at_ = some a) (hb : parseI32 bt = some b) (hwf : WellFormed 0 c bl)
    (hrounds : Rounds R (decide ('+' ∈ mods)) c!"for" c only
      ((span a b).map (fun i => [(vn, .str (showInt i))])) sh1 inh1 out sh2 inh2)
    (hdata1 : sh1.schema = .obj sc1 ∧ Obj.get? c!"data" sc1 = some (.obj d1))
    (hdata : sh2.schema = .obj sc ∧ Obj.get? c!"data" sc = some (.obj d)) :
    ∃ sh3, runBif env R sh inh (bifText mods c!"for" src) only = finish (decide ('^' ∈ mods)) out sh3 inh2 ∧
      VarsRestored [(vn, .str (shownVar env sh1 vn))] sh2 sh3 ∧ shownVar env sh3 vn = shownVar env sh1 vn ∧
      ∀ t, var sh1 vn = .str t → var sh3 vn = .str t := by
  obtain ⟨sh3, hrun, hv⟩ := for_exact env R sh sh1 sh2 inh inh1 inh2 mods src only p c x vn at_ bt out a b extra bl sc d hm hf hneg hmax hsel
    hparts hx hflags hwords hvn ha hb hwf hrounds hdata
  have hshown : ∀ t, var sh1 vn = .str t → shownVar env sh1 vn = t := by
    intro t ht
    unfold shownVar getFromKey
    unfold var at ht
    simp only [Value.index, Value.get?, hdata1.1, hdata1.2, Option.getD_some] at ht ⊢
    rw [C09_plain _ _ hseg]
    cases h : Obj.get? vn d1 with
    | none => rw [h] at ht; simp at ht
    | some w =>
      rw [h] at ht
      simp only [Option.getD_some] at ht
      subst ht
      rfl
  refine ⟨sh3, ?_, ?_, ?_, ?_⟩
  · exact hrun
  · refine ⟨?_, ?_, fun s hs => hv.sections hs, hv.rest⟩
    · intro kv hkv
      simp only [List.mem_cons, List.not_mem_nil, or_false] at hkv
      subst hkv
      exact hv.get
    · intro k hk'
      simp only [List.map_cons, List.map_nil, List.mem_cons, List.not_mem_nil, or_false] at hk'
      exact hv.other hk'
  · obtain ⟨sc', d', h1, h2, h3⟩ := hv
    subst h3
    unfold shownVar getFromKey
    simp only [Value.index, Value.get?, Obj.get?_insert_self, Option.getD_some]
    rw [C09_plain _ _ hseg, Obj.get?_insert_self]
    rfl
  · intro t ht
    rw [hv.get, hshown t ht]

/-! ### samples -/

/-- An array, an object, a text and a number. -/
def Sample.loopData : Obj :=
  [(c!"a", .arr [.str c!"p", .str c!"q"]), (c!"o", .obj [(c!"m", .str c!"1"), (c!"n", .str c!"2")]), (c!"t", .str c!"T")]

/-- `VarSet`, as a computation. -/
def Sample.setVar (sh : Shared) (kv : Str × Value) : Option Shared :=
  match sh.schema with
  | .obj sc =>
    match Obj.get? c!"data" sc with
    | some (.obj d) => some { sh with schema := .obj (Obj.insert c!"data" (.obj (Obj.insert kv.1 kv.2 d)) sc) }
    | _ => none
  | _ => none

/-- `Rounds`, as a computation. -/
def Sample.rounds (R : Rec) (scope : Bool) (name code only : Str) :
    List (List (Str × Value)) → Shared → Inherit → Option (Str × Shared × Inherit)
  | [], sh, inh => some ([], sh, inh)
  | vs :: l, sh, inh =>
    match vs.foldlM Sample.setVar sh with
    | none => none
    | some sh1 =>
      match block R scope sh1 inh name code only with
      | .ok x sh2 inh2 => (Sample.rounds R scope name code only l sh2 inh2).map (fun r => (x ++ r.1, r.2))
      | _ => none

theorem Sample.setVar_sound {sh sh1 : Shared} {kv : Str × Value} (h : Sample.setVar sh kv = some sh1) :
    VarSet sh kv.1 kv.2 sh1 := by
  unfold Sample.setVar at h
  split at h
  · next sc hsc =>
    split at h
    · next d hd =>
      injection h with h
      exact ⟨sc, d, hsc, hd, h.symm⟩
    · exact absurd h (by simp)
  · exact absurd h (by simp)

theorem Sample.rounds_sets {R : Rec} {scope : Bool} {name code only x : Str} {l : List (List (Str × Value))}
    {sh' : Shared} {inh inh' : Inherit} (vs : List (Str × Value)) : ∀ {sh sh1 : Shared},
    vs.foldlM Sample.setVar sh = some sh1 → Rounds R scope name code only ([] :: l) sh1 inh x sh' inh' →
    Rounds R scope name code only (vs :: l) sh inh x sh' inh' := by
  induction vs with
  | nil => intro sh sh1 h hr; simp only [List.foldlM_nil, Option.pure_def, Option.some.injEq] at h; subst h; exact hr
  | cons kv vs ih =>
    intro sh sh1 h hr
    rw [List.foldlM_cons] at h
    cases h1 : Sample.setVar sh kv with
    | none => rw [h1] at h; exact absurd h (by simp)
    | some sh2 =>
      rw [h1] at h
      exact .set (Sample.setVar_sound h1) (ih h hr)

theorem Sample.rounds_sound {R : Rec} {scope : Bool} {name code only : Str} (l : List (List (Str × Value))) :
    ∀ {sh : Shared} {inh : Inherit} {r : Str × Shared × Inherit},
    Sample.rounds R scope name code only l sh inh = some r → Rounds R scope name code only l sh inh r.1 r.2.1 r.2.2 := by
  induction l with
  | nil =>
    intro sh inh r h
    simp only [Sample.rounds, Option.some.injEq] at h
    subst h
    exact .nil _ _
  | cons vs l ih =>
    intro sh inh r h
    simp only [Sample.rounds] at h
    split at h
    · exact absurd h (by simp)
    · next sh1 h1 =>
      split at h
      · next x sh2 inh2 h2 =>
        cases h3 : Sample.rounds R scope name code only l sh2 inh2 with
        | none => rw [h3] at h; exact absurd h (by simp)
        | some r' =>
          rw [h3] at h
          simp only [Option.map_some, Option.some.injEq] at h
          subst h
          exact Sample.rounds_sets vs h1 (.eval h2 (ih h3))
      · exact absurd h (by simp)

set_option maxRecDepth 10000 in
/-- Two rounds, each showing its variables. -/
example : ∃ sh2 inh2, Rounds (runBlocks Sample.env 3) false c!"each" c!"{:;k:}={:;v:}," []
    ([(c!"m", Value.str c!"1"), (c!"n", Value.str c!"2")].map (fun kv => [(c!"k", .str kv.1), (c!"v", kv.2)]))
    (Sample.shared (Sample.schema 1000 Sample.loopData Sample.inherit)) Inherit.new c!"m=1,n=2," sh2 inh2 := by
  have h : (Sample.rounds (runBlocks Sample.env 3) false c!"each" c!"{:;k:}={:;v:}," []
    ([(c!"m", Value.str c!"1"), (c!"n", Value.str c!"2")].map (fun kv => [(c!"k", .str kv.1), (c!"v", kv.2)]))
    (Sample.shared (Sample.schema 1000 Sample.loopData Sample.inherit)) Inherit.new).map (fun r => r.1) =
      some c!"m=1,n=2," := by decide +kernel
  cases h1 : Sample.rounds (runBlocks Sample.env 3) false c!"each" c!"{:;k:}={:;v:}," []
    ([(c!"m", Value.str c!"1"), (c!"n", Value.str c!"2")].map (fun kv => [(c!"k", .str kv.1), (c!"v", kv.2)]))
    (Sample.shared (Sample.schema 1000 Sample.loopData Sample.inherit)) Inherit.new with
  | none => rw [h1] at h; exact absurd h (by simp)
  | some r =>
    rw [h1] at h
    simp only [Option.map_some, Option.some.injEq] at h
    have := Sample.rounds_sound _ h1
    rw [h] at this
    exact ⟨_, _, this⟩

set_option maxRecDepth 10000 in
/-- Loops over an array, an object and a range; the variable `t` is used by all of them and has its value afterwards. -/
example :
    Sample.outOf (Sample.go Sample.loopData c!"{:each; a i t >> {:;i:}{:;t:}, :}{:;t:}") = some (c!"0p,1q,T", c!"200") ∧
    Sample.outOf (Sample.go Sample.loopData c!"{:each; o t v >> {:;t:}{:;v:}, :}{:;t:}") = some (c!"m1,n2,T", c!"200") ∧
    Sample.outOf (Sample.go Sample.loopData c!"{:for; t 1..3 >> {:;t:} :}{:;t:}") = some (c!"123T", c!"200") ∧
    Sample.outOf (Sample.go Sample.loopData c!"{:for; t 2..-1 >> {:;t:} :}{:;t:}") = some (c!"210-1T", c!"200") := by
  decide +kernel

set_option maxRecDepth 10000 in
/-- **C36 is false for `for`**: a variable that is an object or an array is lost. -/
theorem C36_refuted :
    Sample.outOf (Sample.go Sample.loopData c!"{:;o->m:}|{:for; o 1..2 >> {:;o:} :}|{:;o->m:}") = some (c!"1|12|", c!"200") := by
  decide +kernel

end Nts
